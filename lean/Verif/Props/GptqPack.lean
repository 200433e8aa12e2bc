import Verif.Lemmas.GptqPack

namespace Verif.GptqPack
open Verif GptqQuantizer

/-- The codes read by the kernel are the codes packed, when the number of input features is a
multiple of 32. Missing: other numbers of features, see `C40_weights_violated`. -/
theorem C40_weights_partial (bits : Nat) (hb : bits ∈ [2, 4, 8]) (codes : List Nat) (hc : ∀ c ∈ codes, c < 2 ^ bits)
    (h32 : 32 ∣ codes.length) :
    ∃ ws, pack bits codes = .ok ws ∧ ∀ k < codes.length, unpack bits ws k = codes[k]? := by
  refine ⟨_, pack_ok hb codes, ?_⟩
  intro k hk
  exact unpack_pack hb codes hc _ (pack_ok hb codes) k (by omega)

/-- Otherwise the last features are not stored at all. -/
theorem C40_weights_violated :
    ∃ codes ws : List Nat, (∀ c ∈ codes, c < 2 ^ 4) ∧ pack 4 codes = .ok ws ∧
      unpack 4 ws 31 = codes[31]? ∧ unpack 4 ws 32 = none ∧ codes[32]? = some 3 :=
  ⟨List.replicate 40 3, _, by decide, rfl, by decide, by decide, by decide⟩

/-- What is lost, in general: everything from the last multiple of 32 on. -/
theorem C40_lost (bits : Nat) (hb : bits ∈ [2, 4, 8]) (codes ws : List Nat) (h : pack bits codes = .ok ws) (k : Nat) :
    unpack bits ws k = none ↔ codes.length / 32 * 32 ≤ k := by
  obtain ⟨b0, p0, bp⟩ := per_facts hb
  rw [pack_ok hb] at h
  obtain rfl := Except.ok.inj h
  simp only [unpack, Option.map_eq_none_iff, List.getElem?_eq_none_iff, List.length_map, List.length_range]
  rw [Nat.le_div_iff_mul_le p0, Nat.mul_assoc, bp]

/-- Zero points from 1 to `2 ^ bits` are read back unchanged. Missing: the zero point 0, see `C40_zeros_violated`. -/
theorem C40_zeros_partial (bits : Nat) (hb : bits ∈ [2, 4, 8]) (zeros : List Nat) (hz : ∀ z ∈ zeros, 1 ≤ z ∧ z ≤ 2 ^ bits)
    (h32 : 32 ∣ zeros.length) :
    ∃ ws, packZeros bits zeros = .ok ws ∧ ∀ k < zeros.length, unpackZero bits ws k = zeros[k]? := by
  have hstore : ∀ z ∈ zeros, storeZero z = z - 1 := by
    intro z hm
    obtain ⟨h1, h2⟩ := hz z hm
    have : 2 ^ bits ≤ 2 ^ 8 := Nat.pow_le_pow_right (by norm_num) (by simp at hb; omega)
    unfold storeZero
    omega
  refine ⟨_, pack_ok hb _, ?_⟩
  intro k hk
  unfold unpackZero
  rw [unpack_pack hb _ _ _ (pack_ok hb _) k (by rw [List.length_map]; omega), List.getElem?_map,
    List.getElem?_eq_getElem hk]
  · simp only [Option.map_some]
    rw [hstore _ (List.getElem_mem _)]
    have := (hz _ (List.getElem_mem hk)).1
    congr 1
    omega
  · intro c hcm
    obtain ⟨z, hm, rfl⟩ := List.mem_map.1 hcm
    rw [hstore z hm]
    have := (hz z hm)
    omega

/-- A zero point 0 is read back as `2 ^ bits`, and spoils the following zero points of its
word too. -/
theorem C40_zeros_violated :
    ∃ zeros ws : List Nat, (∀ z ∈ zeros, z < 2 ^ 4) ∧ packZeros 4 zeros = .ok ws ∧
      zeros[0]? = some 0 ∧ unpackZero 4 ws 0 = some 16 ∧ zeros[1]? = some 5 ∧ unpackZero 4 ws 1 = some 16 :=
  ⟨0 :: List.replicate 31 5, _, by decide, rfl, by decide, by decide, by decide, by decide⟩

/-- Zero point 0 is not exotic: in asymmetric mode it belongs to every group of weights without
a negative entry that has a positive one. -/
theorem C40_zero_reached (bits : Nat) (hb : 0 < bits) (row : List ℚ) (h0 : ∀ x ∈ row, 0 ≤ x) (hp : ∃ x ∈ row, 0 < x) :
    (findParams (maxqOf bits false) false none row).zero = 0 := by
  obtain ⟨hm, _⟩ := maxq_odd bits hb
  have h1 := foldl_min_nonneg row h0
  obtain ⟨x, hx, hx0⟩ := hp
  have h2 := lt_of_lt_of_le hx0 ((le_foldl_max row 0).2 x hx)
  simp only [findParams, range, Bool.false_eq_true, if_false, false_and, h1]
  rw [if_neg (by rintro ⟨_, h⟩; linarith), ofRange, if_neg (not_lt.2 hm.le)]
  simp only [Bool.false_eq_true, if_false]
  have := rhe_int 0
  push_cast at this
  simp [this]

/-- Rounding the scale to half precision (relative error at most 2⁻¹¹) does not change the
code of a quantised weight. Missing: scales below the normal range of half precision, see `C40_codes_violated`. -/
theorem C40_codes_partial (s sh z : ℚ) (k : Int) (hs : 0 < s) (hsh : |sh - s| ≤ s / 2048) (hk : 0 ≤ k ∧ k ≤ 255) :
    codeOf (s * (k - z)) s z sh = k := by
  obtain ⟨h1, h2⟩ := abs_le.1 hsh
  have hk0 : (0 : ℚ) ≤ k := by exact_mod_cast hk.1
  have hk1 : (k : ℚ) ≤ 255 := by exact_mod_cast hk.2
  have hp : 0 < sh := by linarith
  unfold codeOf
  apply rhe_close
  have e : (s * ((k : ℚ) - z) + z * s) / sh - k = k * (s - sh) / sh := by field_simp; ring
  rw [e, abs_lt]
  constructor
  · rw [lt_div_iff₀ hp]
    nlinarith
  · rw [div_lt_iff₀ hp]
    nlinarith

/-- For scales below the normal range of half precision the codes change. -/
theorem C40_codes_violated :
    ∃ s : ℚ, 0 < s ∧ s < 1 / 2 ^ 14 ∧ codeOf (s * (4 - 0)) s 0 (halfSubnormal s) = 3 := by
  refine ⟨3 / 2 / 2 ^ 24, by norm_num, by norm_num, by decide +kernel⟩

/-- A layer whose packed words are all zero takes the branch of an unquantised layer and looks
for the deleted weight.  Weights that are all equal and negative are such a layer. -/
theorem C40_forward_violated :
    (let row : List ℚ := List.replicate 32 (-1)
     let p := findParams (maxqOf 4 false) false none row
     let codes := row.map fun x => (codeOf (quantize (maxqOf 4 false) p x) p.scale p.zero p.scale).toNat
     ∃ ws, pack 4 codes = .ok ws ∧ forward true [ws] = .error .attribute) := by
  refine ⟨_, rfl, by decide +kernel⟩

/-- Partial: a quantised layer with at least one packed word other than zero uses its packed weights; a
layer that is not quantised (all words zero) its own weights. Missing: all words zero after quantisation,
see `C40_forward_violated`. -/
theorem C40_forward_partial (words : List (List Nat)) :
    (∀ quantised, (∃ ws ∈ words, ∃ x ∈ ws, x ≠ 0) → forward quantised words = .ok .packed) ∧
    ((∀ ws ∈ words, ∀ x ∈ ws, x = 0) → forward false words = .ok .float) := by
  constructor
  · rintro q ⟨ws, hw, x, hx, hne⟩
    unfold forward
    rw [if_neg]
    simp only [List.all_eq_true, decide_eq_true_eq]
    intro h
    exact hne (h ws hw x hx)
  · intro h
    unfold forward
    rw [if_pos]
    · rfl
    · simpa only [List.all_eq_true, decide_eq_true_eq] using h

/-- The weights the kernel uses are the quantised weights, with the scale in half precision:
packing, unpacking and dequantising gives the quantised weight, times the relative
rounding of the scale. Missing: what the three violations above exclude. -/
theorem C40_end_to_end_partial (bits : Nat) (hb : bits ∈ [2, 4, 8]) (p : P) (sh : ℚ) (zn : Nat) (hs : 0 < p.scale)
    (hz : p.zero = (zn : ℚ)) (hsh : |sh - p.scale| ≤ p.scale / 2048) (ws : List ℚ) (h32 : 32 ∣ ws.length) :
    ∃ words, pack bits (ws.map fun w => (codeOf (quantize (maxqOf bits false) p w) p.scale p.zero sh).toNat) = .ok words ∧
      ∀ (k : Nat) (w : ℚ), ws[k]? = some w →
        ∃ code, unpack bits words k = some code ∧
          dequant sh code zn = quantize (maxqOf bits false) p w * (sh / p.scale) := by
  obtain ⟨b0, _, _⟩ := per_facts hb
  obtain ⟨hm, _⟩ := maxq_odd bits b0
  have hcode : ∀ w : ℚ, ∃ c : Nat, c < 2 ^ bits ∧
      codeOf (quantize (maxqOf bits false) p w) p.scale p.zero sh = c ∧
      quantize (maxqOf bits false) p w = p.scale * ((c : ℚ) - zn) := by
    intro w
    have hq := quantize_code (maxqOf bits false) hm.le p (zn : Int) (by rw [hz]; norm_cast) w
    set K : Int := max 0 (min (rhe (w / p.scale) + zn) (maxqOf bits false))
    have k0 : 0 ≤ K := le_max_left _ _
    have k1 : K ≤ maxqOf bits false := max_le hm.le (min_le_right _ _)
    have hmax : maxqOf bits false = 2 ^ bits - 1 := by simp [maxqOf]
    have hp8 : (2 : Int) ^ bits ≤ 2 ^ 8 := pow_le_pow_right₀ (by norm_num) (by simp at hb; omega)
    have hcast : ((K.toNat : Nat) : Int) = K := Int.toNat_of_nonneg k0
    refine ⟨K.toNat, ?_, ?_, ?_⟩
    · have : ((K.toNat : Nat) : Int) < ((2 ^ bits : Nat) : Int) := by rw [hcast]; push_cast; omega
      exact_mod_cast this
    · rw [hq, hcast]
      exact C40_codes_partial p.scale sh p.zero K hs hsh ⟨k0, by rw [hmax] at k1; norm_num at hp8; omega⟩
    · rw [hq, hz]
      congr 2
      exact_mod_cast hcast.symm
  refine ⟨_, pack_ok hb _, ?_⟩
  intro k w hw
  obtain ⟨c, hc, h1, h2⟩ := hcode w
  have hkl : k < ws.length := (List.getElem?_eq_some_iff.1 hw).1
  refine ⟨c, ?_, ?_⟩
  · rw [unpack_pack hb _ _ _ (pack_ok hb _) k (by rw [List.length_map]; omega), List.getElem?_map, hw]
    · simp [h1]
    · intro c' hm'
      obtain ⟨w', _, rfl⟩ := List.mem_map.1 hm'
      obtain ⟨c'', a1, a2, _⟩ := hcode w'
      rw [a2]
      simpa using a1
  · rw [dequant, h2]
    field_simp

example : ∃ ws, pack 4 ((List.range 32).map (· % 16)) = .ok ws ∧ ws[0]? = some 0x76543210 := ⟨_, rfl, by decide⟩

example : ∀ z ∈ List.replicate 32 8, 1 ≤ z ∧ z ≤ 2 ^ 4 := by decide

/-- Other widths than 2, 4 and 8 are refused, unless there is nothing to pack. -/
theorem C40_widths (bits : Nat) (codes : List Nat) :
    pack bits codes = .error .notImplemented ↔ 32 ≤ codes.length ∧ 0 < bits ∧ bits ≠ 2 ∧ bits ≠ 4 ∧ bits ≠ 8 := by
  unfold pack
  by_cases h : codes.length / 32 * bits = 0
  · rw [if_pos h]
    have := Nat.mul_eq_zero.1 h
    rw [Nat.div_eq_zero_iff] at this
    simp
    omega
  · rw [if_neg h]
    have h1 : codes.length / 32 ≠ 0 := fun e => h (by simp [e])
    have h2 : bits ≠ 0 := fun e => h (by simp [e])
    have h3 : 32 ≤ codes.length := by
      by_contra hc
      exact h1 (Nat.div_eq_of_lt (by omega))
    by_cases h4 : bits ∈ [2, 4, 8]
    · rw [if_pos h4]
      simp at h4 ⊢
      omega
    · rw [if_neg h4]
      simp at h4 ⊢
      omega

example : pack 3 (List.replicate 32 1) = .error .notImplemented := (C40_widths _ _).2 (by decide)

end Verif.GptqPack
