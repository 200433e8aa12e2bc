import Verif.Lemmas.MakeDivisible

/-! C01 (channel rounding) and C02 (search-space ranges). -/

namespace Verif.MakeDivisible
open Verif

/-- C01: with the default minimum the result is a positive multiple of the
divisor, at least `min_ratio * value`, and at most one divisor away. -/
theorem C01_makeDivisible_spec (value : ℚ) (divisor : Int) (minRatio : ℚ)
    (hv : 0 ≤ value) (hd : 1 ≤ divisor) (hr : minRatio ≤ 1) :
    ∃ n : Int, makeDivisible value divisor none minRatio = .ok n ∧
      divisor ∣ n ∧ 0 < n ∧ minRatio * value ≤ n ∧
      (n : ℚ) - value ≤ divisor ∧ value - n ≤ divisor := by
  rw [makeDivisible_eq value divisor none minRatio hv hd]
  have hb := round_bounds value divisor hd
  simp only [Option.getD_none, max_self] at hb ⊢
  set k := ⌊value + (divisor : ℚ) / 2⌋ / divisor with hk
  have hd' : (1 : ℚ) ≤ divisor := by exact_mod_cast hd
  have hrv : minRatio * value ≤ value := by nlinarith
  have hdvd : divisor ∣ max divisor (k * divisor) := by
    rcases le_total divisor (k * divisor) with h | h
    · rw [max_eq_right h]; exact Int.dvd_mul_left _ _
    · rw [max_eq_left h]
  have hge : (divisor : ℚ) ≤ ((max divisor (k * divisor) : Int) : ℚ) := by
    exact_mod_cast le_max_left _ _
  have hge2 : ((k * divisor : Int) : ℚ) ≤ ((max divisor (k * divisor) : Int) : ℚ) := by
    exact_mod_cast le_max_right _ _
  have hup : ((max divisor (k * divisor) : Int) : ℚ) ≤ value + divisor := by
    rcases le_total divisor (k * divisor) with h | h
    · rw [max_eq_right h]; linarith [hb.1]
    · rw [max_eq_left h]; linarith
  have hpos : 0 < max divisor (k * divisor) := by
    have := le_max_left divisor (k * divisor); omega
  split
  case isTrue h =>
    refine ⟨_, rfl, Int.dvd_add hdvd (Int.dvd_refl _), by omega, ?_, ?_, ?_⟩
    · push_cast [-Int.cast_max] at *; linarith [hb.2]
    · push_cast [-Int.cast_max] at *; linarith
    · push_cast [-Int.cast_max] at *; linarith [hb.2]
  case isFalse h =>
    refine ⟨_, rfl, hdvd, hpos, by linarith, by linarith, by linarith [hb.2]⟩

example : makeDivisible 39 8 none (9/10) = .ok 40 ∧ makeDivisible 11 8 none (9/10) = .ok 16 := by
  decide +kernel

/-- C01: when no correction step is needed the result is the nearest multiple. -/
theorem C01_makeDivisible_nearest (value : ℚ) (divisor n : Int) (minRatio : ℚ)
    (hd : 1 ≤ divisor) (hv : (divisor : ℚ) ≤ value)
    (h : makeDivisible value divisor none minRatio = .ok n)
    (hlow : ∃ k : Int, |((k * divisor : Int) : ℚ) - value| ≤ (divisor : ℚ) / 2 ∧
      value < ((k * divisor : Int) : ℚ) + (divisor : ℚ) / 2 ∧
      minRatio * value ≤ ((k * divisor : Int) : ℚ)) :
    |(n : ℚ) - value| ≤ (divisor : ℚ) / 2 := by
  have hd' : (1 : ℚ) ≤ divisor := by exact_mod_cast hd
  rw [makeDivisible_eq value divisor none minRatio (by linarith) hd] at h
  have hb := round_bounds value divisor hd
  simp only [Option.getD_none, max_self] at hb h
  set k := ⌊value + (divisor : ℚ) / 2⌋ / divisor with hk
  obtain ⟨k', hk', hlt, hr⟩ := hlow
  have hkk : k' = k := by
    rw [abs_le] at hk'
    have a1 : (((k' - k) * divisor : Int) : ℚ) < divisor := by
      push_cast at *; linarith [hb.2]
    have a2 : (-(divisor : ℚ)) < (((k' - k) * divisor : Int) : ℚ) := by
      push_cast at *; linarith [hb.1]
    have b1 : (k' - k) * divisor < divisor := by exact_mod_cast a1
    have b2 : -divisor < (k' - k) * divisor := by exact_mod_cast a2
    have c1 : k' - k < 1 := by
      by_contra hc
      have : 1 * divisor ≤ (k' - k) * divisor := Int.mul_le_mul_of_nonneg_right (by omega) (by omega)
      omega
    have c2 : -1 < k' - k := by
      by_contra hc
      have : (k' - k) * divisor ≤ (-1) * divisor := Int.mul_le_mul_of_nonneg_right (by omega) (by omega)
      omega
    omega
  subst hkk
  have hkpos : divisor ≤ k * divisor := by
    have a : ((0 : Int) : ℚ) < ((k * divisor : Int) : ℚ) := by push_cast at *; linarith [hb.2]
    have b : 0 < k * divisor := by exact_mod_cast a
    have c : 0 < k := by
      by_contra hc
      have : k * divisor ≤ 0 * divisor := Int.mul_le_mul_of_nonneg_right (by omega) (by omega)
      omega
    have : 1 * divisor ≤ k * divisor := Int.mul_le_mul_of_nonneg_right (by omega) (by omega)
    omega
  rw [max_eq_right hkpos, if_neg (by linarith)] at h
  injection h with h
  subst h
  exact hk'

example : makeDivisible 20 8 none (9/10) = .ok 24 ∧ makeDivisible 19 8 none (9/10) = .ok 24 := by
  decide +kernel

/-- C01: a larger value never gives a smaller result. -/
theorem C01_makeDivisible_mono (v w : ℚ) (divisor : Int) (minRatio : ℚ)
    (hv : 0 ≤ v) (hvw : v ≤ w) (hd : 1 ≤ divisor) (hr0 : 0 ≤ minRatio)
    (a b : Int) (ha : makeDivisible v divisor none minRatio = .ok a)
    (hb : makeDivisible w divisor none minRatio = .ok b) : a ≤ b := by
  rw [makeDivisible_eq v divisor none minRatio hv hd] at ha
  rw [makeDivisible_eq w divisor none minRatio (by linarith) hd] at hb
  have hm := round_mono v w divisor hd hvw
  simp only [Option.getD_none, max_self] at ha hb
  set k := ⌊v + (divisor : ℚ) / 2⌋ / divisor
  set l := ⌊w + (divisor : ℚ) / 2⌋ / divisor
  have hkl : k * divisor ≤ l * divisor := Int.mul_le_mul_of_nonneg_right hm (by omega)
  have hrvw : minRatio * v ≤ minRatio * w := by nlinarith
  have key : max divisor (k * divisor) = max divisor (l * divisor) ∨
      max divisor (k * divisor) + divisor ≤ max divisor (l * divisor) := by
    by_cases hkl' : k = l
    · left; rw [hkl']
    · have h1 : (k + 1) * divisor ≤ l * divisor :=
        Int.mul_le_mul_of_nonneg_right (by omega) (by omega)
      rw [Int.add_mul, Int.one_mul] at h1
      by_cases hk0 : k ≤ 0
      · have h2 : k * divisor ≤ 0 * divisor := Int.mul_le_mul_of_nonneg_right hk0 (by omega)
        by_cases hl1 : l ≤ 1
        · have h3 : l * divisor ≤ 1 * divisor := Int.mul_le_mul_of_nonneg_right hl1 (by omega)
          left; omega
        · have h3 : 2 * divisor ≤ l * divisor := Int.mul_le_mul_of_nonneg_right (by omega) (by omega)
          right; omega
      · have h3 : 1 * divisor ≤ k * divisor := Int.mul_le_mul_of_nonneg_right (by omega) (by omega)
        right; omega
  split at ha <;> split at hb <;> injection ha with ha <;> injection hb with hb <;> subst ha <;>
    subst hb <;> rename_i c1 c2
  · rcases key with h | h <;> omega
  · rcases key with h | h
    · rw [h] at c1; exact absurd (lt_of_lt_of_le c1 hrvw) c2
    · exact h
  · rcases key with h | h <;> omega
  · rcases key with h | h <;> omega

example : makeDivisible 11 8 none (9/10) = .ok 16 ∧ makeDivisible 12 8 none (9/10) = .ok 16 ∧
    makeDivisible 21 8 none (9/10) = .ok 24 := by decide +kernel

/-- C01 (error branch): divisor 0 raises `ZeroDivisionError`. -/
theorem C01_makeDivisible_zero (value : ℚ) (m : Option Int) (minRatio : ℚ) :
    makeDivisible value 0 m minRatio = .error .zeroDivision := by
  simp [makeDivisible, pyFloorDiv]

/-- C01 (guard needed): with an explicit `min_value` that is not a multiple of the
divisor neither divisibility nor monotonicity holds in general. -/
theorem C01_explicit_min_not_divisible :
    makeDivisible 5 8 (some 12) (9/10) = .ok 12 ∧ ¬ (8 : Int) ∣ 12 ∧
    makeDivisible 11 8 (some 9) (9/10) = .ok 17 ∧ makeDivisible 12 8 (some 9) (9/10) = .ok 16 := by
  decide +kernel

/-- C01: with any explicit `min_value` the result is still at least that minimum, at
least the divisor, and at least `min_ratio * value`. -/
theorem C01_explicit_min_lower (value : ℚ) (divisor m : Int) (minRatio : ℚ)
    (hv : 0 ≤ value) (hd : 1 ≤ divisor) (hr : minRatio ≤ 1) :
    ∃ n : Int, makeDivisible value divisor (some m) minRatio = .ok n ∧
      m ≤ n ∧ divisor ≤ n ∧ minRatio * value ≤ n := by
  rw [makeDivisible_eq value divisor (some m) minRatio hv hd]
  have hb := round_bounds value divisor hd
  simp only [Option.getD_some] at hb ⊢
  set k := ⌊value + (divisor : ℚ) / 2⌋ / divisor
  have hd' : (1 : ℚ) ≤ divisor := by exact_mod_cast hd
  have hrv : minRatio * value ≤ value := by nlinarith
  have hge2 : ((k * divisor : Int) : ℚ) ≤ ((max (max m divisor) (k * divisor) : Int) : ℚ) := by
    exact_mod_cast le_max_right _ _
  split
  · refine ⟨_, rfl, by omega, by omega, ?_⟩
    push_cast [-Int.cast_max] at *; linarith [hb.2]
  · refine ⟨_, rfl, by omega, by omega, by linarith⟩

/-- C02: `(start, end, step)` with a positive step stands for exactly
`start, start+step, ...` up to and including `end`, in increasing order. -/
theorem C02_rangeToList_spec (start stop step : Int) (hs : 0 < step) :
    ∃ l, rangeToList [start, stop, step] = .ok l ∧
      (∀ x, x ∈ l ↔ start ≤ x ∧ x ≤ stop ∧ step ∣ x - start) ∧ l.Pairwise (· < ·) := by
  refine ⟨rangeUp (stop + 1) step (stop + 1 - start).toNat start, ?_, ?_, ?_⟩
  · simp only [rangeToList, pyRange]
    rw [if_neg (by omega), if_pos hs]
  · intro x
    rw [mem_rangeUp (stop + 1) step hs _ _ _ (by omega)]
    constructor <;> rintro ⟨h1, h2, h3⟩ <;> exact ⟨h1, by omega, h3⟩
  · exact rangeUp_sorted _ _ hs _ _

example : rangeToList [16, 24, 4] = .ok [16, 20, 24] ∧ rangeToList [16, 25, 4] = .ok [16, 20, 24] := by
  decide

/-- C02, outside the documented use: a negative step counts down from `start`
but stops two short of `end`, which is therefore never included; a zero step
is rejected. -/
theorem C02_negative_step (start stop step : Int) (hs : step < 0) :
    ∃ l, rangeToList [start, stop, step] = .ok l ∧
      (∀ x, x ∈ l ↔ x ≤ start ∧ stop + 2 ≤ x ∧ step ∣ x - start) ∧ l.Pairwise (· > ·) := by
  refine ⟨rangeDown (stop + 1) step (start - (stop + 1)).toNat start, ?_, ?_, ?_⟩
  · simp only [rangeToList, pyRange]
    rw [if_neg (by omega), if_neg (by omega)]
  · intro x
    rw [rangeDown_eq, List.mem_map]
    have hd : ∀ y, (-step ∣ y - -start ↔ step ∣ -y - start) := by
      intro y
      rw [Int.neg_dvd, ← Int.dvd_neg]
      have : -(y - -start) = -y - start := by omega
      rw [this]
    constructor
    · rintro ⟨y, hy, rfl⟩
      rw [mem_rangeUp _ _ (by omega) _ _ _ (by omega)] at hy
      exact ⟨by omega, by omega, (hd y).1 hy.2.2⟩
    · rintro ⟨h1, h2, h3⟩
      refine ⟨-x, ?_, by omega⟩
      rw [mem_rangeUp _ _ (by omega) _ _ _ (by omega)]
      exact ⟨by omega, by omega, (hd _).2 (by rwa [Int.neg_neg])⟩
  · rw [rangeDown_eq, List.pairwise_map]
    exact (rangeUp_sorted _ _ (by omega) _ _).imp (by intro a b h; omega)

theorem C02_zero_step (start stop : Int) : rangeToList [start, stop, 0] = .error .value := rfl

example : rangeToList [5, 1, -1] = .ok [5, 4, 3] := by decide

/-- C02: every other input length is rejected by the assertion. -/
theorem C02_rangeToList_rejects (input : List Int) (h : input.length ≠ 3) :
    rangeToList input = .error .assertion := by
  match input, h with
  | [], _ => rfl
  | [_], _ => rfl
  | [_, _], _ => rfl
  | [_, _, _], h => simp at h
  | _ :: _ :: _ :: _ :: _, _ => rfl

/-- C02: a list of candidate descriptions is parsed entry by entry, and one malformed
entry makes the whole call fail. -/
theorem C02_parseValues (ls : List (List Int)) (r : List (List Int))
    (h : parseValues ls = .ok r) :
    r.length = ls.length ∧
    ∀ (i : Nat) (hi : i < ls.length) (hi' : i < r.length), rangeToList ls[i] = .ok r[i] := by
  unfold parseValues at h
  induction ls generalizing r with
  | nil => simp [pure, Except.pure] at h; subst h; simp
  | cons a ls ih =>
    rw [List.mapM_cons] at h
    cases ha : rangeToList a with
    | error e => simp [ha, bind, Except.bind] at h
    | ok v =>
      cases hb : ls.mapM rangeToList with
      | error e => simp [ha, hb, bind, Except.bind] at h
      | ok vs =>
        simp [ha, hb, bind, Except.bind, pure, Except.pure] at h
        subst h
        obtain ⟨h1, h2⟩ := ih vs hb
        refine ⟨by simp [h1], ?_⟩
        intro i hi hi'
        cases i with
        | zero => simpa using ha
        | succ i => simpa using h2 i (by simpa using hi) (by simpa using hi')

example : parseValues [[1, 3, 1], [8, 16, 8]] = .ok [[1, 2, 3], [8, 16]] := by decide

end Verif.MakeDivisible
