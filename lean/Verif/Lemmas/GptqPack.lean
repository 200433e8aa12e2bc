import Verif.Model.GptqPack
import Verif.Lemmas.GptqQuantizer
import Mathlib.Tactic

/-! Helper lemmas for `Verif/Props/GptqPack.lean`. -/

namespace Verif.GptqPack
open Verif GptqQuantizer

theorem testBit_foldl (bits i : Nat) (l : List (Nat × Nat)) (acc : Nat) :
    (l.foldl (fun w c => w ||| ((c.1 <<< (bits * c.2)) % 2 ^ 32)) acc).testBit i =
      (acc.testBit i || l.any fun c => ((c.1 <<< (bits * c.2)) % 2 ^ 32).testBit i) := by
  induction l generalizing acc with
  | nil => simp
  | cons c l ih => rw [List.foldl_cons, ih, Nat.testBit_or, List.any_cons, Bool.or_assoc]

theorem testBit_packWord (bits i : Nat) (codes : List Nat) (hi : i < 32) :
    (packWord bits codes).testBit i = true ↔
      ∃ (j c : Nat), codes[j]? = some c ∧ bits * j ≤ i ∧ c.testBit (i - bits * j) = true := by
  unfold packWord
  rw [testBit_foldl]
  simp only [Nat.zero_testBit, Bool.false_or, List.any_eq_true]
  constructor
  · rintro ⟨⟨c, j⟩, hm, h⟩
    rw [List.mk_mem_zipIdx_iff_getElem?] at hm
    rw [Nat.testBit_mod_two_pow, Nat.testBit_shiftLeft] at h
    simp at h
    exact ⟨j, c, hm, h.2.1, h.2.2⟩
  · rintro ⟨j, c, hm, h1, h2⟩
    refine ⟨(c, j), ?_, ?_⟩
    · rwa [List.mk_mem_zipIdx_iff_getElem?]
    · rw [Nat.testBit_mod_two_pow, Nat.testBit_shiftLeft]
      simp [hi, h1, h2]

theorem testBit_lt {c bits t : Nat} (hc : c < 2 ^ bits) (ht : c.testBit t = true) : t < bits := by
  by_contra h
  rw [Nat.testBit_lt_two_pow (lt_of_lt_of_le hc (Nat.pow_le_pow_right (by norm_num) (not_lt.1 h)))] at ht
  exact absurd ht (by decide)

theorem read_packWord (bits : Nat) (hb : 0 < bits) (codes : List Nat) (hc : ∀ c ∈ codes, c < 2 ^ bits) (j c : Nat)
    (hj : codes[j]? = some c) (hlen : bits * codes.length ≤ 32) :
    (packWord bits codes >>> (j * bits)) % 2 ^ bits = c := by
  have hjl : j < codes.length := (List.getElem?_eq_some_iff.1 hj).1
  apply Nat.eq_of_testBit_eq
  intro t
  rw [Nat.testBit_mod_two_pow, Nat.testBit_shiftRight]
  by_cases ht : t < bits
  · simp only [ht, decide_true, Bool.true_and]
    have hin : j * bits + t < 32 := by
      have : bits * (j + 1) ≤ bits * codes.length := Nat.mul_le_mul_left _ hjl
      have e : bits * (j + 1) = j * bits + bits := by ring
      omega
    rw [Bool.eq_iff_iff, testBit_packWord bits _ codes hin]
    constructor
    · rintro ⟨j', c', h1, h2, h3⟩
      have hlt := testBit_lt (hc c' (List.mem_of_getElem? h1)) h3
      have hjj : j' = j := by
        have e1 : bits * j' ≤ bits * j + t := by rw [Nat.mul_comm bits j]; exact h2
        have e2 : bits * j + t < bits * j' + bits := by rw [Nat.mul_comm bits j]; omega
        have a1 : j' ≤ j := by
          by_contra h
          have : bits * (j + 1) ≤ bits * j' := Nat.mul_le_mul_left _ (by omega)
          rw [Nat.mul_add] at this
          omega
        have a2 : j ≤ j' := by
          by_contra h
          have : bits * (j' + 1) ≤ bits * j := Nat.mul_le_mul_left _ (by omega)
          rw [Nat.mul_add] at this
          omega
        omega
      subst hjj
      rw [hj] at h1
      obtain rfl := Option.some.inj h1
      have : j' * bits + t - bits * j' = t := by rw [Nat.mul_comm]; omega
      rwa [this] at h3
    · intro h
      refine ⟨j, c, hj, by rw [Nat.mul_comm]; omega, ?_⟩
      have : j * bits + t - bits * j = t := by rw [Nat.mul_comm]; omega
      rwa [this]
  · simp only [ht, decide_false, Bool.false_and]
    symm
    rw [Bool.eq_false_iff]
    intro h
    exact ht (testBit_lt (hc c (List.mem_of_getElem? hj)) h)

theorem per_facts {bits : Nat} (hb : bits ∈ [2, 4, 8]) : 0 < bits ∧ 0 < 32 / bits ∧ bits * (32 / bits) = 32 := by
  simp at hb
  rcases hb with rfl | rfl | rfl <;> decide

theorem pack_ok {bits : Nat} (hb : bits ∈ [2, 4, 8]) (codes : List Nat) :
    pack bits codes = .ok ((List.range (codes.length / 32 * bits)).map fun r =>
      packWord bits ((codes.drop (r * (32 / bits))).take (32 / bits))) := by
  unfold pack
  dsimp only
  split
  · rename_i h
    rw [h]; rfl
  · rfl

theorem unpack_pack {bits : Nat} (hb : bits ∈ [2, 4, 8]) (codes : List Nat) (hc : ∀ c ∈ codes, c < 2 ^ bits) (ws : List Nat)
    (h : pack bits codes = .ok ws) (k : Nat) (hk : k < codes.length / 32 * 32) : unpack bits ws k = codes[k]? := by
  obtain ⟨b0, p0, bp⟩ := per_facts hb
  rw [pack_ok hb] at h
  obtain rfl := Except.ok.inj h
  have hkl : k < codes.length := by omega
  have hw : k / (32 / bits) < codes.length / 32 * bits := by
    rw [Nat.div_lt_iff_lt_mul p0, Nat.mul_assoc, bp]
    exact hk
  unfold unpack
  rw [List.getElem?_map, List.getElem?_range hw]
  simp only [Option.map_some]
  rw [List.getElem?_eq_getElem hkl]
  congr 1
  apply read_packWord bits b0
  · intro c hcm
    exact hc c (List.mem_of_mem_drop (List.mem_of_mem_take hcm))
  · rw [List.getElem?_take_of_lt (Nat.mod_lt _ p0), List.getElem?_drop]
    have : k / (32 / bits) * (32 / bits) + k % (32 / bits) = k := Nat.div_add_mod' k _
    rw [this, List.getElem?_eq_getElem hkl]
  · calc bits * _ ≤ bits * (32 / bits) := Nat.mul_le_mul_left _ (by rw [List.length_take]; exact min_le_left _ _)
      _ ≤ 32 := bp.le

theorem rhe_close (x : ℚ) (k : Int) (h : |x - k| < 1 / 2) : rhe x = k := by
  have h1 := abs_le.1 (rhe_near x)
  have h2 := abs_lt.1 h
  have a1 : ((rhe x : ℚ)) < k + 1 := by linarith
  have a2 : (k : ℚ) < rhe x + 1 := by linarith
  have b1 : rhe x < k + 1 := by exact_mod_cast a1
  have b2 : k < rhe x + 1 := by exact_mod_cast a2
  omega

end Verif.GptqPack
