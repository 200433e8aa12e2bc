import Verif.Model.MakeDivisible
import Mathlib.Tactic.Linarith
import Mathlib.Tactic.Ring
import Mathlib.Tactic.FieldSimp
import Mathlib.Tactic.Push

namespace Verif.MakeDivisible
open Verif

theorem pyInt_of_nonneg {q : ℚ} (h : 0 ≤ q) : pyInt q = ⌊q⌋ := by simp [pyInt, h]

/-- `int(v + d/2) // d` is the floor of the real quotient. -/
theorem pyFloorDiv_round (v : ℚ) (d : Int) (hv : 0 ≤ v) (hd : 1 ≤ d) :
    pyFloorDiv (pyInt (v + (d : ℚ) / 2)) d = .ok (⌊v + (d : ℚ) / 2⌋ / d) := by
  have hd' : (1 : ℚ) ≤ d := by exact_mod_cast hd
  have h0 : 0 ≤ v + (d : ℚ) / 2 := by linarith
  rw [pyInt_of_nonneg h0]
  unfold pyFloorDiv
  rw [if_neg (by omega), Int.fdiv_eq_ediv_of_nonneg _ (by omega)]

/-- Bounds of the rounded multiple `k*d`. -/
theorem round_bounds (v : ℚ) (d : Int) (hd : 1 ≤ d) :
    let k := ⌊v + (d : ℚ) / 2⌋ / d
    ((k * d : Int) : ℚ) ≤ v + (d : ℚ) / 2 ∧ v - (d : ℚ) / 2 < ((k * d : Int) : ℚ) := by
  intro k
  have h1 : k * d ≤ ⌊v + (d : ℚ) / 2⌋ := Int.ediv_mul_le _ (by omega)
  have h2 : ⌊v + (d : ℚ) / 2⌋ < (k + 1) * d := by
    have := Int.lt_ediv_add_one_mul_self ⌊v + (d : ℚ) / 2⌋ (show 0 < d by omega)
    exact this
  have f1 : ((⌊v + (d : ℚ) / 2⌋ : Int) : ℚ) ≤ v + (d : ℚ) / 2 := Int.floor_le _
  constructor
  · have : ((k * d : Int) : ℚ) ≤ ((⌊v + (d : ℚ) / 2⌋ : Int) : ℚ) := by exact_mod_cast h1
    linarith
  · have h3 : ⌊v + (d : ℚ) / 2⌋ + 1 ≤ (k + 1) * d := by omega
    have h4 : v + (d : ℚ) / 2 < (((k + 1) * d : Int) : ℚ) := by
      have := Int.lt_floor_add_one (v + (d : ℚ) / 2)
      have h5 : ((⌊v + (d : ℚ) / 2⌋ + 1 : Int) : ℚ) ≤ (((k + 1) * d : Int) : ℚ) := by
        exact_mod_cast h3
      push_cast at h5 ⊢
      linarith
    push_cast at h4 ⊢
    linarith

theorem round_mono (v w : ℚ) (d : Int) (hd : 1 ≤ d) (h : v ≤ w) :
    ⌊v + (d : ℚ) / 2⌋ / d ≤ ⌊w + (d : ℚ) / 2⌋ / d :=
  Int.ediv_le_ediv (by omega) (Int.floor_le_floor (by linarith))

theorem makeDivisible_eq (v : ℚ) (d : Int) (m : Option Int) (r : ℚ) (hv : 0 ≤ v) (hd : 1 ≤ d) :
    makeDivisible v d m r =
      (let m' := max (m.getD d) d
       let new := max m' (⌊v + (d : ℚ) / 2⌋ / d * d)
       if (new : ℚ) < r * v then .ok (new + d) else .ok new) := by
  unfold makeDivisible
  rw [pyFloorDiv_round v d hv hd]
  have : (if m.getD d < d then d else m.getD d) = max (m.getD d) d := by
    split <;> omega
  simp only [this]

theorem mem_rangeUp (stop step : Int) (hs : 0 < step) :
    ∀ (n : Nat) (cur x : Int), stop - cur ≤ n →
      (x ∈ rangeUp stop step n cur ↔ cur ≤ x ∧ x < stop ∧ step ∣ x - cur) := by
  intro n
  induction n with
  | zero =>
    intro cur x h
    simp only [rangeUp, List.not_mem_nil, false_iff]
    intro ⟨h1, h2, _⟩
    simp at h
    omega
  | succ n ih =>
    intro cur x h
    unfold rangeUp
    split
    case isTrue hlt =>
      rw [List.mem_cons, ih (cur + step) x (by push_cast at h; omega)]
      constructor
      · rintro (rfl | ⟨h1, h2, h3⟩)
        · exact ⟨le_refl _, hlt, by simp⟩
        · refine ⟨by omega, h2, ?_⟩
          have : x - cur = (x - (cur + step)) + step := by omega
          rw [this]
          exact Int.dvd_add h3 (Int.dvd_refl _)
      · rintro ⟨h1, h2, h3⟩
        by_cases hx : x = cur
        · exact Or.inl hx
        · right
          obtain ⟨k, hk⟩ := h3
          have hk1 : 0 < k := by
            by_contra hc
            have : step * k ≤ 0 := Int.mul_nonpos_of_nonneg_of_nonpos (by omega) (by omega)
            omega
          have hk2 : step * 1 ≤ step * k := Int.mul_le_mul_of_nonneg_left (by omega) (by omega)
          refine ⟨by omega, h2, ?_⟩
          have : x - (cur + step) = step * (k - 1) := by rw [Int.mul_sub]; omega
          rw [this]
          exact Int.dvd_mul_right _ _
    case isFalse hlt =>
      simp only [List.not_mem_nil, false_iff]
      rintro ⟨h1, h2, _⟩
      omega

theorem rangeUp_ge (stop step : Int) (hs : 0 < step) :
    ∀ (n : Nat) (cur x : Int), x ∈ rangeUp stop step n cur → cur ≤ x := by
  intro n
  induction n with
  | zero => intro cur x h; simp [rangeUp] at h
  | succ n ih =>
    intro cur x h
    unfold rangeUp at h
    split at h
    · rcases List.mem_cons.1 h with rfl | h
      · exact le_refl _
      · have := ih _ _ h; omega
    · simp at h

theorem rangeUp_sorted (stop step : Int) (hs : 0 < step) :
    ∀ (n : Nat) (cur : Int), (rangeUp stop step n cur).Pairwise (· < ·) := by
  intro n
  induction n with
  | zero => intro cur; simp [rangeUp]
  | succ n ih =>
    intro cur
    unfold rangeUp
    split
    · refine List.pairwise_cons.2 ⟨fun x hx => ?_, ih _⟩
      have := rangeUp_ge stop step hs _ _ _ hx
      omega
    · simp

theorem rangeDown_eq (stop step : Int) :
    ∀ (n : Nat) (cur : Int), rangeDown stop step n cur =
      (rangeUp (-stop) (-step) n (-cur)).map (fun x => -x) := by
  intro n
  induction n with
  | zero => intro cur; rfl
  | succ n ih =>
    intro cur
    unfold rangeDown rangeUp
    by_cases h : cur > stop
    · rw [if_pos h, if_pos (by omega), ih, List.map_cons, Int.neg_neg]
      congr 3
      omega
    · rw [if_neg h, if_neg (by omega)]; rfl

end Verif.MakeDivisible
