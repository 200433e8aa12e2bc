import Verif.Lemmas.GptqQuantizer

namespace Verif.GptqQuantizer
open Verif

/-- The range contains the row, and zero; it is never a point. -/
theorem C39_range (sym : Bool) (row : List ℚ) :
    (∀ x ∈ row, (range sym row).1 ≤ x ∧ x ≤ (range sym row).2) ∧
    (range sym row).1 ≤ 0 ∧ 0 ≤ (range sym row).2 ∧ (range sym row).1 < (range sym row).2 := by
  obtain ⟨l1, l2⟩ := foldl_min_le row 0
  obtain ⟨m1, m2⟩ := le_foldl_max row 0
  unfold range
  dsimp only
  set lo := row.foldl min 0
  set hi := row.foldl max 0
  have a1 : |lo| = -lo := abs_of_nonpos l1
  cases sym with
  | false =>
    simp only [Bool.false_eq_true, if_false, false_and]
    split
    · rename_i h
      refine ⟨?_, by norm_num, by norm_num, by norm_num⟩
      intro x hx
      have := l2 x hx
      have := m2 x hx
      constructor <;> simp only <;> linarith [h.1, h.2]
    · rename_i h
      refine ⟨fun x hx => ⟨l2 x hx, m2 x hx⟩, l1, m1, ?_⟩
      rcases lt_or_eq_of_le l1 with h1 | h1
      · exact lt_of_lt_of_le h1 m1
      · rcases lt_or_eq_of_le m1 with h2 | h2
        · exact lt_of_le_of_lt l1 h2
        · exact absurd ⟨h1, h2.symm⟩ h
  | true =>
    simp only [true_and, if_true]
    have hM : hi ≤ max |lo| hi := le_max_right _ _
    have hM2 : -lo ≤ max |lo| hi := a1 ▸ le_max_left _ _
    by_cases hlo : lo < 0
    · simp only [if_pos hlo]
      have hpos : 0 < max |lo| hi := lt_of_lt_of_le (by linarith : (0:ℚ) < -lo) hM2
      rw [if_neg (by rintro ⟨_, h⟩; linarith)]
      refine ⟨fun x hx => ⟨?_, le_trans (m2 x hx) hM⟩, by simp only; linarith, hpos.le, by simp only; linarith⟩
      have := l2 x hx
      simp only
      linarith
    · have hlo0 : lo = 0 := le_antisymm l1 (not_lt.1 hlo)
      simp only [if_neg hlo]
      split
      · rename_i h
        refine ⟨?_, by norm_num, by norm_num, by norm_num⟩
        intro x hx
        have := l2 x hx
        have := m2 x hx
        constructor <;> simp only <;> linarith [h.1, h.2]
      · rename_i h
        refine ⟨fun x hx => ⟨l2 x hx, le_trans (m2 x hx) hM⟩, l1, le_trans m1 hM, ?_⟩
        rcases lt_or_eq_of_le (le_trans m1 hM) with h2 | h2
        · exact lt_of_le_of_lt l1 h2
        · exact absurd ⟨hlo0, h2.symm⟩ h

/-- Any number becomes one of the `2 ^ bits` grid values, and quantising again changes
nothing. -/
theorem C39_grid (bits : Nat) (p : P) (hp : Good p) (x : ℚ) :
    OnGrid (maxqOf bits false) p (quantize (maxqOf bits false) p x) ∧
    quantize (maxqOf bits false) p (quantize (maxqOf bits false) p x) = quantize (maxqOf bits false) p x := by
  have hm : 0 ≤ maxqOf bits false := by
    have : (1 : Int) ≤ 2 ^ bits := one_le_pow₀ (by norm_num)
    simp only [maxqOf, Bool.false_eq_true, if_false]
    omega
  obtain ⟨hs, z, hz⟩ := hp
  set maxq := maxqOf bits false
  rw [quantize_code maxq hm p z hz x]
  set k : Int := max 0 (min (rhe (x / p.scale) + z) maxq) with hk
  have hk0 : 0 ≤ k := le_max_left _ _
  have hk1 : k ≤ maxq := max_le hm (min_le_right _ _)
  refine ⟨⟨k, hk0, hk1, rfl⟩, ?_⟩
  rw [quantize_code maxq hm p z hz]
  have h1 : p.scale * ((k : ℚ) - p.zero) / p.scale = ((k - z : Int) : ℚ) := by
    rw [hz]; push_cast; field_simp
  rw [h1, rhe_int]
  have h2 : max 0 (min (k - z + z) maxq) = k := by
    rw [sub_add_cancel, min_eq_left hk1, max_eq_right hk0]
  rw [h2]

/-- The parameters found for a row, whatever the row and the settings, are usable. -/
theorem C39_params (bits : Nat) (hb : 0 < bits) (sym : Bool) (row : List ℚ) :
    Good (findParams (maxqOf bits false) sym none row) := by
  obtain ⟨h1, h2⟩ := maxq_odd bits hb
  exact ofRange_good _ h1 h2 sym _ (C39_range sym row).2.2.2

/-- The rounding error is at most half a step for every number of the row (in fact for
every number of its range), when the mode is asymmetric or the row has a negative entry or
is zero. Missing: rows without a negative entry in the symmetric mode, see `C39_error_violated`. -/
theorem C39_error_partial (bits : Nat) (hb : 0 < bits) (sym : Bool) (row : List ℚ)
    (hs : sym = true → (∃ x ∈ row, x < 0) ∨ ∀ x ∈ row, x = 0) (x : ℚ)
    (hx : (range sym row).1 ≤ x ∧ x ≤ (range sym row).2) :
    let p := findParams (maxqOf bits false) sym none row
    |quantize (maxqOf bits false) p x - x| ≤ p.scale / 2 := by
  intro p
  obtain ⟨hm, hodd⟩ := maxq_odd bits hb
  obtain ⟨_, hr1, hr2, hr3⟩ := C39_range sym row
  have hg := C39_params bits hb sym row
  obtain ⟨hsc, z, hz⟩ := hg
  set maxq := maxqOf bits false
  have hm' : (0 : ℚ) < maxq := by exact_mod_cast hm
  have hscale : p.scale = ((range sym row).2 - (range sym row).1) / maxq := by
    show (ofRange maxq sym (range sym row)).scale = _
    rw [ofRange, if_neg (not_lt.2 hm.le)]
  have hr : (range sym row).2 = maxq * p.scale + (range sym row).1 := by rw [hscale]; field_simp; ring
  have hsp : 0 < p.scale := hsc
  have lo : (range sym row).1 / p.scale ≤ x / p.scale := by gcongr; exact hx.1
  have hi : x / p.scale ≤ maxq + (range sym row).1 / p.scale := by
    have : x / p.scale ≤ (range sym row).2 / p.scale := by gcongr; exact hx.2
    have h2 : (range sym row).2 / p.scale = maxq + (range sym row).1 / p.scale := by
      rw [hr, add_div, mul_div_assoc, div_self hsp.ne', mul_one]
    linarith
  refine near_of_bounds maxq hm.le p hsp z hz x ?_ ?_
  all_goals
    cases sym with
    | false =>
      have hzz : p.zero = (rhe (-(range false row).1 / p.scale) : ℚ) := by
        rw [hscale]
        show (ofRange maxq false (range false row)).zero = _
        rw [ofRange, if_neg (not_lt.2 hm.le)]
        rfl
      have hzz' : (z : ℚ) = (rhe (-(range false row).1 / p.scale) : ℚ) := by rw [← hz, ← hzz]
      obtain ⟨n1, n2⟩ := abs_le.1 (rhe_near (-(range false row).1 / p.scale))
      rw [hzz']
      have : -(range false row).1 / p.scale = -((range false row).1 / p.scale) := by ring
      rw [this] at n1 n2 ⊢
      linarith
    | true =>
      have hzz : p.zero = ((maxq : ℚ) + 1) / 2 := by
        show (ofRange maxq true (range true row)).zero = _
        rw [ofRange, if_neg (not_lt.2 hm.le)]
        rfl
      have hzz' : (z : ℚ) = ((maxq : ℚ) + 1) / 2 := by rw [← hz, ← hzz]
      have hsymm : (range true row).1 = -(range true row).2 := by
        rcases hs rfl with ⟨y, hy, hy0⟩ | hall
        · have hlo : row.foldl min 0 < 0 := lt_of_le_of_lt ((foldl_min_le row 0).2 y hy) hy0
          have hM : 0 < max |row.foldl min 0| (row.foldl max 0) := lt_of_lt_of_le (abs_pos.2 hlo.ne) (le_max_left _ _)
          unfold range
          simp only [true_and, if_true, if_pos hlo]
          rw [if_neg (by rintro ⟨_, h⟩; linarith)]
        · have h1 : row.foldl min 0 = 0 := foldl_min_nonneg row (fun x hx => (hall x hx).ge)
          have h2 : row.foldl max 0 = 0 := by
            have : ∀ l : List ℚ, (∀ x ∈ l, x = 0) → l.foldl max 0 = 0 := by
              intro l
              induction l with
              | nil => intro _; rfl
              | cons y l ih => intro h; simp [h y (by simp), ih (fun x hx => h x (by simp [hx]))]
            exact this row hall
          unfold range
          simp [h1, h2]
      have hlo2 : (range true row).1 / p.scale = -(maxq : ℚ) / 2 := by
        have : (range true row).1 = -(maxq * p.scale) / 2 := by linarith
        rw [this]
        field_simp
      rw [hzz']
      rw [hlo2] at lo hi
      linarith

/-- Symmetric mode on a row without negative entries: the range of codes is used up to the
middle only, and large weights are cut to half their value. -/
theorem C39_error_violated :
    let row : List ℚ := [15, 3]
    let p := findParams (maxqOf 4 false) true none row
    p = ⟨1, 8⟩ ∧ quantize (maxqOf 4 false) p 15 = 7 := by
  constructor <;> decide +kernel

/-- Rounding is to a nearest integer, and to an even one when two are equally near. -/
theorem C39_round (x : ℚ) : |(rhe x : ℚ) - x| ≤ 1 / 2 ∧ (|(rhe x : ℚ) - x| = 1 / 2 → rhe x % 2 = 0) := by
  have h1 := Int.floor_le x
  have h2 := Int.lt_floor_add_one x
  unfold rhe
  dsimp only
  by_cases a : x - ⌊x⌋ < 1 / 2
  · rw [if_pos a]
    have : |((⌊x⌋ : Int) : ℚ) - x| = x - ⌊x⌋ := by rw [abs_sub_comm, abs_of_nonneg (by linarith)]
    rw [this]
    exact ⟨by linarith, fun h => by linarith⟩
  rw [if_neg a]
  by_cases b : 1 / 2 < x - ⌊x⌋
  · rw [if_pos b]
    push_cast
    have : |(⌊x⌋ : ℚ) + 1 - x| = ⌊x⌋ + 1 - x := abs_of_nonneg (by linarith)
    rw [this]
    exact ⟨by linarith, fun h => by linarith⟩
  rw [if_neg b]
  have e : x - ⌊x⌋ = 1 / 2 := le_antisymm (not_lt.1 b) (not_lt.1 a)
  by_cases c : ⌊x⌋ % 2 = 0
  · rw [if_pos c]
    refine ⟨?_, fun _ => c⟩
    rw [abs_sub_comm, e]
    norm_num
  · rw [if_neg c]
    push_cast
    have : (⌊x⌋ : ℚ) + 1 - x = 1 / 2 := by linarith
    rw [this]
    exact ⟨by norm_num, fun _ => by omega⟩

/-- With the search for the least error, the error of a row (the sum of the penalties of the rounding
errors) is not larger than without. -/
theorem C39_mse (m : Mse) (maxq : Int) (sym : Bool) (row : List ℚ) :
    (row.map fun x => m.pen |quantize maxq (findParams maxq sym (some m) row) x - x|).sum ≤
      (row.map fun x => m.pen |quantize maxq (findParams maxq sym none row) x - x|).sum := by
  change rowError m maxq row (findParams maxq sym (some m) row) ≤ rowError m maxq row (findParams maxq sym none row)
  have h0 : candidate m maxq sym (range sym row) 0 = ofRange maxq sym (range sym row) := by
    simp [candidate]
  simp only [findParams]
  cases hn : m.steps with
  | zero => exact le_refl _
  | succ n =>
    rw [search]
    simp only [Option.all_none, if_true, h0]
    exact search_le m maxq sym (range sym row) row n 1 _ _ rfl

/-- Also the parameters of the search are usable. -/
theorem C39_mse_params (m : Mse) (hg : m.steps ≤ m.grid) (bits : Nat) (hb : 0 < bits) (sym : Bool) (row : List ℚ) :
    Good (findParams (maxqOf bits false) sym (some m) row) := by
  obtain ⟨h1, h2⟩ := maxq_odd bits hb
  exact search_good m _ h1 h2 sym _ (C39_range sym row).2.2.2 row m.steps 0 none _ (by omega)
    (ofRange_good _ h1 h2 sym _ (C39_range sym row).2.2.2)

/-- Ternary: the result is zero or an end of the range, whichever is nearest: the error is at
most half the corresponding end. -/
theorem C39_trits (sym : Bool) (row : List ℚ) (x : ℚ) (hx : (range sym row).1 ≤ x ∧ x ≤ (range sym row).2) :
    let r := range sym row
    let y := quantize (maxqOf 0 true) (findParams (maxqOf 0 true) sym none row) x
    (y = 0 ∨ y = r.1 ∨ y = r.2) ∧ |y - x| ≤ |x| ∧ |y - x| ≤ |r.1 - x| ∧ |y - x| ≤ |r.2 - x| := by
  intro r y
  obtain ⟨_, h1, h2, h3⟩ := C39_range sym row
  have hy : y = (if r.2 / 2 < x then r.2 else 0) + (if x < r.1 / 2 then r.1 else 0) := by
    simp only [y, quantize, findParams, ofRange, maxqOf, if_true]
    norm_num
    rfl
  have h1' : r.1 ≤ 0 := h1
  have h2' : 0 ≤ r.2 := h2
  have hx1 : r.1 ≤ x := hx.1
  have hx2 : x ≤ r.2 := hx.2
  rw [hy]
  by_cases c1 : r.2 / 2 < x
  · have c2 : ¬ x < r.1 / 2 := by linarith
    simp only [if_pos c1, if_neg c2, add_zero]
    refine ⟨by simp, ?_, ?_, le_refl _⟩
    · rw [abs_of_nonneg (by linarith), abs_of_nonneg (by linarith)]; linarith
    · rw [abs_of_nonneg (by linarith), abs_of_nonpos (by linarith)]; linarith
  · by_cases c2 : x < r.1 / 2
    · simp only [if_neg c1, if_pos c2, zero_add]
      refine ⟨by simp, ?_, le_refl _, ?_⟩
      · rw [abs_of_nonpos (by linarith), abs_of_nonpos (by linarith)]; linarith
      · rw [abs_of_nonpos (by linarith), abs_of_nonneg (by linarith)]; linarith
    · simp only [if_neg c1, if_neg c2, add_zero]
      refine ⟨by simp, by rw [zero_sub, abs_neg], ?_, ?_⟩
      · rw [zero_sub, abs_neg]
        rw [abs_of_nonpos (by linarith : r.1 - x ≤ 0)]
        rw [abs_le]; constructor <;> linarith
      · rw [zero_sub, abs_neg]
        rw [abs_of_nonneg (by linarith : 0 ≤ r.2 - x)]
        rw [abs_le]; constructor <;> linarith

/-- Before any parameters were found numbers pass unchanged. -/
theorem C39_not_ready (maxq : Int) (z x : ℚ) : quantizeIfReady maxq ⟨0, z⟩ x = x := by simp [quantizeIfReady]

example :
    let row : List ℚ := [-3, 1, 4 / 5]
    let p := findParams (maxqOf 3 false) true none row
    p = ⟨6 / 7, 4⟩ ∧ quantize (maxqOf 3 false) p 1 = 6 / 7 ∧ (∃ x ∈ row, x < 0) := by
  refine ⟨by decide +kernel, by decide +kernel, -3, by simp, by norm_num⟩

end Verif.GptqQuantizer
