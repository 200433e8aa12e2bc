import Verif.Spec.GptqQuantizer

/-! Helper lemmas for `Verif/Props/GptqQuantizer.lean`. -/

namespace Verif.GptqQuantizer
open Verif

theorem rhe_near (x : ℚ) : |(rhe x : ℚ) - x| ≤ 1 / 2 := by
  unfold rhe
  have h1 := Int.floor_le x
  have h2 := Int.lt_floor_add_one x
  dsimp only
  split
  · rw [abs_le]; constructor <;> linarith
  · rename_i h
    split
    · rename_i h'
      push_cast
      rw [abs_le]; constructor <;> linarith
    · rename_i h'
      have : x - ⌊x⌋ = 1 / 2 := by push Not at h h'; linarith
      split
      · rw [abs_le]; constructor <;> linarith
      · push_cast
        rw [abs_le]; constructor <;> linarith

theorem rhe_int (n : Int) : rhe (n : ℚ) = n := by
  unfold rhe
  simp

theorem foldl_min_le (row : List ℚ) (a : ℚ) : row.foldl min a ≤ a ∧ ∀ x ∈ row, row.foldl min a ≤ x := by
  induction row generalizing a with
  | nil => simp
  | cons y row ih =>
    obtain ⟨h1, h2⟩ := ih (min a y)
    refine ⟨le_trans h1 (min_le_left _ _), ?_⟩
    intro x hx
    rcases List.mem_cons.1 hx with rfl | hx
    · exact le_trans h1 (min_le_right _ _)
    · exact h2 x hx

theorem le_foldl_max (row : List ℚ) (a : ℚ) : a ≤ row.foldl max a ∧ ∀ x ∈ row, x ≤ row.foldl max a := by
  induction row generalizing a with
  | nil => simp
  | cons y row ih =>
    obtain ⟨h1, h2⟩ := ih (max a y)
    refine ⟨le_trans (le_max_left _ _) h1, ?_⟩
    intro x hx
    rcases List.mem_cons.1 hx with rfl | hx
    · exact le_trans (le_max_right _ _) h1
    · exact h2 x hx

theorem foldl_min_nonneg (row : List ℚ) (h : ∀ x ∈ row, 0 ≤ x) : row.foldl min 0 = 0 := by
  have key : ∀ a : ℚ, 0 ≤ a → 0 ≤ row.foldl min a := by
    induction row with
    | nil => intro a ha; exact ha
    | cons y row ih =>
      intro a ha
      exact ih (fun x hx => h x (by simp [hx])) _ (le_min ha (h y (by simp)))
  exact le_antisymm (foldl_min_le row 0).1 (key 0 (le_refl _))

theorem quantize_code (maxq : Int) (hm : 0 ≤ maxq) (p : P) (z : Int) (hz : p.zero = z) (x : ℚ) :
    quantize maxq p x = p.scale * (((max 0 (min (rhe (x / p.scale) + z) maxq) : Int) : ℚ) - p.zero) := by
  unfold quantize
  rw [if_neg (not_lt.2 hm), hz]
  push_cast
  rfl

theorem ofRange_good (maxq : Int) (hm : 0 < maxq) (hodd : maxq % 2 = 1) (sym : Bool) (r : ℚ × ℚ) (hr : r.1 < r.2) :
    Good (ofRange maxq sym r) := by
  have hm' : (0 : ℚ) < maxq := by exact_mod_cast hm
  unfold ofRange
  rw [if_neg (not_lt.2 hm.le)]
  refine ⟨div_pos (by linarith) hm', ?_⟩
  cases sym with
  | false => exact ⟨_, rfl⟩
  | true =>
    refine ⟨(maxq + 1) / 2, ?_⟩
    simp only [if_true]
    have h : (maxq + 1) / 2 * 2 = maxq + 1 := by omega
    have h' : (((maxq + 1) / 2 : Int) : ℚ) * 2 = maxq + 1 := by exact_mod_cast h
    linarith

/-- The codes of `bits ≥ 1` bits: the largest is positive and odd. -/
theorem maxq_odd (bits : Nat) (hb : 0 < bits) : 0 < maxqOf bits false ∧ maxqOf bits false % 2 = 1 := by
  obtain ⟨k, rfl⟩ : ∃ k, bits = k + 1 := ⟨bits - 1, by omega⟩
  have hp : (1 : Int) ≤ 2 ^ k := one_le_pow₀ (by norm_num)
  have hs : (2 : Int) ^ (k + 1) = 2 * 2 ^ k := by ring
  simp only [maxqOf, Bool.false_eq_true, if_false, hs]
  omega

theorem near_of_bounds (maxq : Int) (hm : 0 ≤ maxq) (p : P) (hs : 0 < p.scale) (z : Int) (hz : p.zero = z) (x : ℚ)
    (h1 : -(z : ℚ) - 1 / 2 ≤ x / p.scale) (h2 : x / p.scale ≤ maxq - z + 1 / 2) :
    |quantize maxq p x - x| ≤ p.scale / 2 := by
  rw [quantize_code maxq hm p z hz x]
  obtain ⟨n1, n2⟩ := abs_le.1 (rhe_near (x / p.scale))
  set R := rhe (x / p.scale)
  set k : Int := max 0 (min (R + z) maxq) with hk
  have key : |(k : ℚ) - z - x / p.scale| ≤ 1 / 2 := by
    by_cases c1 : R + z < 0
    · have hk0 : k = 0 := by rw [hk]; omega
      have c1' : (R : ℚ) + z ≤ -1 := by exact_mod_cast (by omega : R + z ≤ -1)
      rw [hk0, abs_le]
      push_cast
      constructor <;> linarith
    · by_cases c2 : maxq < R + z
      · have hk0 : k = maxq := by rw [hk]; omega
        have c2' : (maxq : ℚ) + 1 ≤ R + z := by exact_mod_cast (by omega : maxq + 1 ≤ R + z)
        rw [hk0, abs_le]
        constructor <;> linarith
      · have hk0 : k = R + z := by rw [hk]; omega
        rw [hk0]
        push_cast
        rw [abs_le]
        constructor <;> linarith
  have e : p.scale * ((k : ℚ) - p.zero) - x = p.scale * ((k : ℚ) - z - x / p.scale) := by
    rw [hz]; field_simp
  rw [e, abs_mul, abs_of_pos hs]
  nlinarith

/-- The search over smaller ranges never ends with a larger error of the row than the whole
range has. -/
theorem search_le (m : Mse) (maxq : Int) (sym : Bool) (r : ℚ × ℚ) (row : List ℚ) : ∀ (n i : Nat) (b : ℚ) (cur : P),
    rowError m maxq row cur = b → rowError m maxq row (search m maxq sym r row (some b) cur i n) ≤ b
  | 0, i, b, cur, h => by rw [search, h]
  | n + 1, i, b, cur, h => by
    rw [search]
    split
    · rename_i hlt
      simp at hlt
      exact le_trans (search_le m maxq sym r row n (i + 1) _ _ rfl) hlt.le
    · exact search_le m maxq sym r row n (i + 1) b cur h

theorem search_good (m : Mse) (maxq : Int) (hm : 0 < maxq) (hodd : maxq % 2 = 1) (sym : Bool) (r : ℚ × ℚ) (hr : r.1 < r.2) (row : List ℚ) :
    ∀ (n i : Nat) (b : Option ℚ) (cur : P), i + n ≤ m.grid → Good cur → Good (search m maxq sym r row b cur i n)
  | 0, i, b, cur, _, h => by rw [search]; exact h
  | n + 1, i, b, cur, hi, h => by
    rw [search]
    split
    · refine search_good m maxq hm hodd sym r hr row n (i + 1) _ _ (by omega) ?_
      apply ofRange_good maxq hm hodd
      have hg : (0 : ℚ) < m.grid := by exact_mod_cast (by omega : 0 < m.grid)
      have hp : (0 : ℚ) < 1 - (i : ℚ) / m.grid := by
        rw [sub_pos, div_lt_one hg]
        exact_mod_cast (by omega : i < m.grid)
      simp only
      nlinarith
    · exact search_good m maxq hm hodd sym r hr row n (i + 1) b cur (by omega) h

end Verif.GptqQuantizer
