import Mathlib.Algebra.Order.BigOperators.Group.Finset
import Verif.Spec.ChannelUnit
import Verif.Lemmas.Float64

/-! Helper lemmas for `Verif/Props/ChannelUnit.lean`. -/

namespace Verif.ChannelUnit
open Verif SeqChannel MakeDivisible

/-! ### Helper lemmas about rounding with an explicit minimum -/

theorem dvd_gap {d a b : Int} (hd : 1 ≤ d) (ha : d ∣ a) (hb : d ∣ b) (h : a ≤ b) :
    a = b ∨ a + d ≤ b := by
  obtain ⟨x, rfl⟩ := ha
  obtain ⟨y, rfl⟩ := hb
  by_cases hxy : x = y
  · left; rw [hxy]
  · right
    have : x < y := by
      by_contra hc
      have : y + 1 ≤ x := by omega
      have := Int.mul_le_mul_of_nonneg_left this (show 0 ≤ d by omega)
      rw [Int.mul_add] at this
      omega
    have := Int.mul_le_mul_of_nonneg_left (show x + 1 ≤ y by omega) (show 0 ≤ d by omega)
    rw [Int.mul_add] at this
    omega

theorem dvd_max {d a b : Int} (ha : d ∣ a) (hb : d ∣ b) : d ∣ max a b := by
  rcases le_total a b with h | h
  · rwa [max_eq_right h]
  · rwa [max_eq_left h]

theorem mkDiv_ok (u : Cfg) (k : Int) (hk : 0 ≤ k) (hd : 1 ≤ u.divisor) :
    ∃ r, mkDiv u k = .ok r ∧ effMin u ≤ r ∧
      (u.divisor ∣ effMin u → u.divisor ∣ r) := by
  unfold mkDiv
  rw [makeDivisible_eq _ _ _ _ (by exact_mod_cast hk) hd]
  simp only [Option.getD_some]
  have hdv : u.divisor ∣ effMin u →
      u.divisor ∣ max (max u.minValue u.divisor) (⌊(k : ℚ) + (u.divisor : ℚ) / 2⌋ / u.divisor * u.divisor) :=
    fun h => dvd_max h (Int.dvd_mul_left _ _)
  split
  · exact ⟨_, rfl, by unfold effMin; omega, fun h => Int.dvd_add (hdv h) (Int.dvd_refl _)⟩
  · exact ⟨_, rfl, by unfold effMin; omega, hdv⟩

theorem mkDiv_mono (u : Cfg) (j k a b : Int) (hj : 0 ≤ j) (hjk : j ≤ k) (hd : 1 ≤ u.divisor)
    (hr : 0 ≤ u.minRatio) (hdv : u.divisor ∣ effMin u) (ha : mkDiv u j = .ok a)
    (hb : mkDiv u k = .ok b) : a ≤ b := by
  unfold mkDiv at ha hb
  rw [makeDivisible_eq _ _ _ _ (by exact_mod_cast hj) hd] at ha
  rw [makeDivisible_eq _ _ _ _ (by exact_mod_cast (show (0 : Int) ≤ k by omega)) hd] at hb
  have hjk' : (j : ℚ) ≤ k := by exact_mod_cast hjk
  have hm := round_mono (j : ℚ) (k : ℚ) u.divisor hd hjk'
  simp only [Option.getD_some] at ha hb
  set x := ⌊(j : ℚ) + (u.divisor : ℚ) / 2⌋ / u.divisor
  set y := ⌊(k : ℚ) + (u.divisor : ℚ) / 2⌋ / u.divisor
  have hxy : x * u.divisor ≤ y * u.divisor := Int.mul_le_mul_of_nonneg_right hm (by omega)
  have hrjk : u.minRatio * j ≤ u.minRatio * k := mul_le_mul_of_nonneg_left hjk' hr
  have h1 : u.divisor ∣ max (max u.minValue u.divisor) (x * u.divisor) :=
    dvd_max hdv (Int.dvd_mul_left _ _)
  have h2 : u.divisor ∣ max (max u.minValue u.divisor) (y * u.divisor) :=
    dvd_max hdv (Int.dvd_mul_left _ _)
  have key := dvd_gap hd h1 h2 (by omega)
  split at ha <;> split at hb <;> injection ha with ha <;> injection hb with hb <;> subst ha <;>
    subst hb <;> rename_i c1 c2
  · rcases key with h | h <;> omega
  · rcases key with h | h
    · rw [h] at c1; exact absurd (lt_of_lt_of_le c1 hrjk) c2
    · exact h
  · rcases key with h | h <;> omega
  · rcases key with h | h <;> omega

/-- A legal number is not changed by rounding. -/
theorem mkDiv_fixpoint (u : Cfg) (k : Int) (hd : 1 ≤ u.divisor) (hk : u.divisor ∣ k)
    (hm : effMin u ≤ k) (hr : u.minRatio ≤ 1) : mkDiv u k = .ok k := by
  have hk0 : 0 ≤ k := by unfold effMin at hm; omega
  unfold mkDiv
  rw [makeDivisible_eq _ _ _ _ (by exact_mod_cast hk0) hd]
  obtain ⟨x, rfl⟩ := hk
  have hfl : ⌊((u.divisor * x : Int) : ℚ) + (u.divisor : ℚ) / 2⌋ / u.divisor = x := by
    have h1 : u.divisor * x ≤ ⌊((u.divisor * x : Int) : ℚ) + (u.divisor : ℚ) / 2⌋ := by
      rw [Int.le_floor]
      have : (0 : ℚ) ≤ (u.divisor : ℚ) / 2 := by
        have : (1 : ℚ) ≤ u.divisor := by exact_mod_cast hd
        linarith
      linarith
    have h2 : ⌊((u.divisor * x : Int) : ℚ) + (u.divisor : ℚ) / 2⌋ < u.divisor * (x + 1) := by
      rw [Int.floor_lt]
      have : (1 : ℚ) ≤ u.divisor := by exact_mod_cast hd
      push_cast
      linarith
    apply le_antisymm
    · have := Int.ediv_lt_of_lt_mul (c := u.divisor) (b := x + 1) (by omega)
        (by rw [Int.mul_comm]; exact h2)
      omega
    · exact (Int.le_ediv_iff_mul_le (by omega)).2 (by rw [Int.mul_comm]; exact h1)
  simp only [Option.getD_some, hfl]
  have hmax : max (max u.minValue u.divisor) (x * u.divisor) = u.divisor * x := by
    rw [Int.mul_comm x]; unfold effMin at hm; omega
  rw [hmax, if_neg]
  push Not
  have : (0 : ℚ) ≤ ((u.divisor * x : Int) : ℚ) := by exact_mod_cast hk0
  nlinarith

theorem mapM_ok_mem {α β : Type} (f : α → Except Err β) : ∀ (l : List α) (r : List β),
    l.mapM f = .ok r → r.length = l.length ∧ ∀ y ∈ r, ∃ x ∈ l, f x = .ok y
  | [], r, h => by simp [pure, Except.pure] at h; subst h; simp
  | a :: l, r, h => by
    rw [List.mapM_cons] at h
    cases ha : f a with
    | error e => simp [ha, bind, Except.bind] at h
    | ok v =>
      cases hb : l.mapM f with
      | error e => simp [ha, hb, bind, Except.bind] at h
      | ok vs =>
        simp [ha, hb, bind, Except.bind, pure, Except.pure] at h
        subst h
        obtain ⟨h1, h2⟩ := mapM_ok_mem f l vs hb
        refine ⟨by simp [h1], fun y hy => ?_⟩
        rcases List.mem_cons.1 hy with rfl | hy
        · exact ⟨a, by simp, ha⟩
        · obtain ⟨x, hx, hfx⟩ := h2 y hy; exact ⟨x, by simp [hx], hfx⟩

theorem ieee_roundtrip (n : Nat) (k : Int) (hk : 1 ≤ k) (hkn : k ≤ n) (hn : n < 2 ^ 50) :
    pyInt (ieee.mul n (ieee.div k n)) = k ∨ pyInt (ieee.mul n (ieee.div k n)) = k - 1 := by
  have hn0 : (0 : ℚ) < n := by
    have : (0 : Int) < n := by omega
    exact_mod_cast this
  have hk0 : (0 : ℚ) < k := by exact_mod_cast (show (0 : Int) < k by omega)
  have hkb : (k : ℚ) < 2 ^ 50 := by
    have : k < 2 ^ 50 := by omega
    exact_mod_cast this
  have hq : (0 : ℚ) < k / n := div_pos hk0 hn0
  have e1 := abs_le.mp (fl64_error _ hq)
  have hp := fl64_pos _ hq
  have hy : (0 : ℚ) < n * fl64 (k / n) := mul_pos hn0 hp
  have e2 := abs_le.mp (fl64_error _ hy)
  have e3 : (n : ℚ) * (k / n) = k := by field_simp
  have l1 : (n : ℚ) * fl64 (k / n) ≤ k + k / 2 ^ 53 := by
    have := mul_le_mul_of_nonneg_left (show fl64 (k / n) ≤ k / n + k / n / 2 ^ 53 by linarith) hn0.le
    have e4 : (n : ℚ) * (k / n + k / n / 2 ^ 53) = k + k / 2 ^ 53 := by field_simp
    linarith
  have l2 : (k : ℚ) - k / 2 ^ 53 ≤ n * fl64 (k / n) := by
    have := mul_le_mul_of_nonneg_left (show (k : ℚ) / n - k / n / 2 ^ 53 ≤ fl64 (k / n) by linarith) hn0.le
    have e4 : (n : ℚ) * (k / n - k / n / 2 ^ 53) = k - k / 2 ^ 53 := by field_simp
    linarith
  have e5 : ieee.mul n (ieee.div k n) = fl64 (n * fl64 (k / n)) := rfl
  rw [e5]
  generalize hY : (n : ℚ) * fl64 (k / n) = y at *
  have hz := fl64_pos _ hy
  have b1 : fl64 y < k + 1 := by linarith [e2.2]
  have b2 : (k : ℚ) - 1 < fl64 y := by linarith [e2.1]
  have hf : pyInt (fl64 y) = ⌊fl64 y⌋ := by unfold pyInt; rw [if_pos hz.le]
  rw [hf]
  have f1 : ⌊fl64 y⌋ < k + 1 := Int.floor_lt.mpr (by push_cast; exact b1)
  have f2 : k - 1 ≤ ⌊fl64 y⌋ := Int.le_floor.mpr (by push_cast; exact b2.le)
  omega

/-- With a divisor of two or more, one channel less than a multiple is rounded up to it. -/
theorem mkDiv_pred (u : Cfg) (k : Int) (hd : 2 ≤ u.divisor) (hk : u.divisor ∣ k)
    (hm : effMin u ≤ k) (hr : u.minRatio ≤ 1) : mkDiv u (k - 1) = .ok k := by
  have hk2 : 2 ≤ k := by unfold effMin at hm; omega
  have hv : (0 : ℚ) ≤ ((k - 1 : Int) : ℚ) := by exact_mod_cast (show (0 : Int) ≤ k - 1 by omega)
  have hd' : (2 : ℚ) ≤ u.divisor := by exact_mod_cast hd
  unfold mkDiv
  rw [makeDivisible_eq _ _ _ _ hv (by omega)]
  have hfl : ⌊((k - 1 : Int) : ℚ) + (u.divisor : ℚ) / 2⌋ / u.divisor * u.divisor = k := by
    obtain ⟨m, rfl⟩ := hk
    have g1 : u.divisor * m ≤ ⌊((u.divisor * m - 1 : Int) : ℚ) + (u.divisor : ℚ) / 2⌋ := by
      rw [Int.le_floor]; push_cast; linarith
    have g2 : ⌊((u.divisor * m - 1 : Int) : ℚ) + (u.divisor : ℚ) / 2⌋ < u.divisor * m + u.divisor := by
      rw [Int.floor_lt]; push_cast; linarith
    have g3 : ⌊((u.divisor * m - 1 : Int) : ℚ) + (u.divisor : ℚ) / 2⌋ / u.divisor = m := by
      apply le_antisymm
      · have := Int.ediv_lt_of_lt_mul (by omega : 0 < u.divisor)
          (show ⌊((u.divisor * m - 1 : Int) : ℚ) + (u.divisor : ℚ) / 2⌋ < (m + 1) * u.divisor by
            rw [add_mul, one_mul, mul_comm m]; exact g2)
        omega
      · exact Int.le_ediv_of_mul_le (by omega) (by rw [mul_comm]; exact g1)
    rw [g3, mul_comm]
  rw [hfl]
  have hmax : max (max ((some u.minValue).getD u.divisor) u.divisor) k = k := by
    unfold effMin at hm
    exact max_eq_right hm
  dsimp only
  rw [hmax, if_neg]
  have h1 : u.minRatio * ((k - 1 : Int) : ℚ) ≤ ((k - 1 : Int) : ℚ) := mul_le_of_le_one_left hv hr
  have h2 : ((k - 1 : Int) : ℚ) ≤ k := by push_cast; linarith
  exact not_lt.mpr (h1.trans h2)

theorem ieee_set (u : Cfg) (cands : List Choice) (k : Int)
    (hmode : u.ratioMode = true) (hd : 2 ≤ u.divisor) (hr1 : u.minRatio ≤ 1)
    (hk : u.divisor ∣ k) (hm : effMin u ≤ k) (hkn : k ≤ u.n) (hn : u.n < 2 ^ 50)
    (hmem : Choice.ratio (ieee.div k u.n) ∈ cands) :
    ∃ mask, setOneShot ieee u cands (.ratio (ieee.div k u.n)) = .ok mask ∧
      ((popcount mask : Int) = k ∨ (popcount mask : Int) = k - 1) := by
  have hk2 : 2 ≤ k := by unfold effMin at hm; omega
  have hmem' : Choice.value (.ratio (ieee.div k u.n)) ∈ cands.map Choice.value :=
    List.mem_map_of_mem hmem
  have hr := ieee_roundtrip u.n k (by omega) hkn hn
  have h2 : ratio2num ieee u (.ratio (ieee.div k u.n)) = k ∨
      ratio2num ieee u (.ratio (ieee.div k u.n)) = k - 1 := by
    unfold ratio2num
    dsimp only
    rcases hr with h | h <;> rw [h] <;> omega
  have hv : validInt ieee u (.ratio (ieee.div k u.n)) = .ok k := by
    unfold validInt
    rcases h2 with h | h <;> rw [h]
    · exact mkDiv_fixpoint u k (by omega) hk hm hr1
    · exact mkDiv_pred u k hd hk hm hr1
  have ht : toChoice ieee u k = .ok (.ratio (ieee.div k u.n)) := by
    unfold toChoice num2ratio; rw [if_pos hmode, if_neg (by omega)]; rfl
  refine ⟨prefixMask u.n (ratio2num ieee u (.ratio (ieee.div k u.n))), ?_, ?_⟩
  · simp only [setOneShot]
    rw [if_pos hmem', hv]
    simp only [ht]
    rw [if_pos hmem']
  · rcases h2 with h | h <;> rw [h, popcount_prefixMask _ _ (by omega)] <;> omega

theorem popcount_card (m : List Bool) {n : ℕ} (hn : m.length = n) :
    popcount m = (Finset.univ.filter fun i : Fin n => m[(i : ℕ)]? = some true).card := by
  subst hn
  rw [Finset.card_filter, popcount]
  induction m with
  | nil => simp
  | cons b m ih =>
    rw [show (∑ i : Fin (b :: m).length, if (b :: m)[(i : ℕ)]? = some true then 1 else 0) =
      ∑ i : Fin (m.length + 1), if (b :: m)[(i : ℕ)]? = some true then 1 else 0 from rfl, Fin.sum_univ_succ]
    cases b
    · simp only [List.countP_cons, ih]
      simp
    · simp only [List.countP_cons, ih]
      simp [Nat.add_comm]

end Verif.ChannelUnit
