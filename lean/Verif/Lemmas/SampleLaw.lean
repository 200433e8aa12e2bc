import Verif.Spec.SampleLaw
import Mathlib.Algebra.BigOperators.GroupWithZero.Action
import Mathlib.Algebra.Module.Basic
import Mathlib.Algebra.Order.Ring.Rat
import Mathlib.Algebra.Order.BigOperators.Group.List
import Mathlib.Data.List.Nodup
import Mathlib.Tactic.Ring
import Mathlib.Tactic.Linarith

/-! Helper lemmas for `Verif/Props/SampleLaw.lean`. -/

namespace Verif.SampleLaw
open Verif

variable {C : Type}

theorem range_pick (g : List C) : (List.range g.length).map (pick g) = g.map some := by
  apply List.ext_getElem
  · simp
  · intro i h1 h2
    simp at h1
    simp [pick, h1]

theorem sampled_space (gs : List (List C)) : (draws gs).map (sample gs) = (space gs).map (·.map some) := by
  induction gs with
  | nil => rfl
  | cons g gs ih =>
    rw [draws, space, List.map_flatMap, List.map_flatMap]
    have e1 : ∀ k, ((draws gs).map (k :: ·)).map (sample (g :: gs)) = ((space gs).map (·.map some)).map (pick g k :: ·) := by
      intro k
      rw [← ih, List.map_map, List.map_map]
      rfl
    have e2 : ∀ c : C, ((space gs).map (c :: ·)).map (·.map some) = ((space gs).map (·.map some)).map (some c :: ·) := by
      intro c
      rw [List.map_map, List.map_map]
      rfl
    simp only [e1, e2]
    rw [← List.flatMap_map (f := pick g) (g := fun o => ((space gs).map (·.map some)).map (o :: ·)), range_pick, List.flatMap_map]

theorem draws_length (gs : List (List C)) : (draws gs).length = (gs.map List.length).prod := by
  induction gs with
  | nil => rfl
  | cons g gs ih => simp [draws, List.length_flatMap, ih]

theorem mem_space (gs : List (List C)) (s : List C) : s ∈ space gs ↔ List.Forall₂ (fun c g => c ∈ g) s gs := by
  induction gs generalizing s with
  | nil => simp [space]
  | cons g gs ih =>
    simp only [space, List.mem_flatMap, List.mem_map]
    constructor
    · rintro ⟨c, hc, t, ht, rfl⟩
      exact .cons hc ((ih t).1 ht)
    · intro h
      cases h with
      | cons hc ht => exact ⟨_, hc, _, (ih _).2 ht, rfl⟩

theorem nodup_space (gs : List (List C)) (h : ∀ g ∈ gs, g.Nodup) : (space gs).Nodup := by
  induction gs with
  | nil => simp [space]
  | cons g gs ih =>
    rw [space, List.nodup_flatMap]
    refine ⟨fun c _ => (ih fun g hg => h g (by simp [hg])).map (fun a b e => by simpa using e), ?_⟩
    refine (h g (by simp)).imp ?_
    intro a b hab x hx hy
    obtain ⟨s, -, rfl⟩ := List.mem_map.1 hx
    obtain ⟨t, -, e⟩ := List.mem_map.1 hy
    injection e with e1
    exact hab e1.symm

theorem count_meets (gs : List (List C)) (ps : List (C → Bool)) (h : ps.length = gs.length) :
    (draws gs).countP (fun d => Meets ps (sample gs d)) = (List.zipWith (fun p g => g.countP p) ps gs).prod := by
  have key : ∀ (gs : List (List C)) (ps : List (C → Bool)), ps.length = gs.length →
      ((space gs).map (·.map some)).countP (Meets ps) = (List.zipWith (fun p g => g.countP p) ps gs).prod := by
    intro gs
    induction gs with
    | nil =>
      intro ps h
      cases ps with
      | nil => rfl
      | cons p ps => simp at h
    | cons g gs ih =>
      intro ps h
      cases ps with
      | nil => simp at h
      | cons p ps =>
        rw [List.zipWith_cons_cons, List.prod_cons, ← ih ps (by simpa using h), space, List.map_flatMap]
        clear h
        induction g with
        | nil => simp
        | cons c g ihg =>
          rw [List.flatMap_cons, List.countP_append, ihg, List.countP_cons]
          have e : (((space gs).map (c :: ·)).map (·.map some)).countP (Meets (p :: ps)) =
              (if p c = true then 1 else 0) * ((space gs).map (·.map some)).countP (Meets ps) := by
            rw [List.map_map, List.countP_map, List.countP_map]
            by_cases hp : p c = true
            · rw [if_pos hp, one_mul]
              apply List.countP_congr
              intro x _
              simp [Meets, hp]
            · rw [if_neg hp, zero_mul, List.countP_eq_zero]
              intro x _
              simp [Meets, hp]
          rw [e]
          ring
  rw [← key gs ps h, ← sampled_space, List.countP_map]
  rfl

theorem histories_length (gs : List (List C)) (t : ℕ) : (histories gs t).length = (draws gs).length ^ t := by
  induction t with
  | zero => rfl
  | succ t ih => simp [histories, List.length_flatMap, ih, pow_succ, Nat.mul_comm]

theorem histories_all (gs : List (List C)) (P : List ℕ → Bool) (t : ℕ) :
    (histories gs t).countP (fun h => h.all P) = (draws gs).countP P ^ t := by
  induction t with
  | zero => rfl
  | succ t ih =>
    rw [histories, pow_succ, Nat.mul_comm, ← ih]
    generalize draws gs = l
    induction l with
    | nil => simp
    | cons d l ihl =>
      rw [List.flatMap_cons, List.countP_append, ihl, List.countP_cons, List.countP_map]
      by_cases hd : P d = true
      · have : (histories gs t).countP ((fun h => h.all P) ∘ (d :: ·)) = (histories gs t).countP (fun h => h.all P) := by
          apply List.countP_congr
          intro x _
          simp [hd]
        rw [this, if_pos hd]
        ring
      · have : (histories gs t).countP ((fun h => h.all P) ∘ (d :: ·)) = 0 := by
          rw [List.countP_eq_zero]
          intro x _
          simp [hd]
        rw [this, if_neg hd]
        ring

/-- The steps of all histories that meet a condition. -/
theorem histories_sum (gs : List (List C)) (P : List ℕ → Bool) (n m t : ℕ)
    (hk : (draws gs).countP P * n = m * (draws gs).length) :
    ((histories gs t).map fun h => h.countP P).sum * n = t * m * (histories gs t).length := by
  induction t with
  | zero => simp [histories]
  | succ t ih =>
    have key : ∀ l : List (List ℕ), ((l.flatMap fun d => (histories gs t).map (d :: ·)).map fun h => h.countP P).sum =
        l.countP P * (histories gs t).length + l.length * ((histories gs t).map fun h => h.countP P).sum := by
      intro l
      induction l with
      | nil => simp
      | cons d l ihl =>
        rw [List.flatMap_cons, List.map_append, List.sum_append, ihl, List.map_map, List.countP_cons, List.length_cons]
        have : ((histories gs t).map ((fun h => h.countP P) ∘ (d :: ·))).sum =
            (if P d = true then 1 else 0) * (histories gs t).length + ((histories gs t).map fun h => h.countP P).sum := by
          generalize histories gs t = H
          induction H with
          | nil => simp
          | cons h H ihH =>
            rw [List.map_cons, List.sum_cons, ihH, List.map_cons, List.sum_cons, List.length_cons, Function.comp, List.countP_cons]
            ring
        rw [this]
        ring
    have hl : (histories gs (t + 1)).length = (draws gs).length * (histories gs t).length := by
      simp [histories, List.length_flatMap]
    rw [hl]
    rw [histories, key]
    calc ((draws gs).countP P * (histories gs t).length + (draws gs).length * ((histories gs t).map fun h => h.countP P).sum) * n
        = (draws gs).countP P * n * (histories gs t).length +
            (draws gs).length * (((histories gs t).map fun h => h.countP P).sum * n) := by ring
      _ = _ := by rw [hk, ih]; ring

/-- The draws in which the first group takes a choice. -/
theorem count_head [DecidableEq C] (g : List C) (gs : List (List C)) (c : C) :
    (draws (g :: gs)).countP (fun d => decide ((sample (g :: gs) d).head? = some (some c))) * g.length =
      g.count c * (draws (g :: gs)).length := by
  have key : ((draws (g :: gs)).map (sample (g :: gs))).countP (fun o => decide (o.head? = some (some c))) =
      g.count c * (space gs).length := by
    rw [sampled_space, space, List.map_flatMap]
    induction g with
    | nil => simp
    | cons x g ih =>
      rw [List.flatMap_cons, List.countP_append, ih, List.count_cons, List.map_map, List.countP_map]
      by_cases h : x = c
      · have : (space gs).countP ((fun o : List (Option C) => decide (o.head? = some (some c))) ∘ ((·.map some) ∘ (x :: ·))) =
            (space gs).length := by
          rw [List.countP_eq_length]
          intro s _
          simp [h]
        rw [this]
        simp [h]
        ring
      · have : (space gs).countP ((fun o : List (Option C) => decide (o.head? = some (some c))) ∘ ((·.map some) ∘ (x :: ·))) = 0 := by
          rw [List.countP_eq_zero]
          intro s _
          simp [h]
        rw [this]
        simp [h]
  have hs : (space gs).length = (draws gs).length := by
    have := congrArg List.length (sampled_space gs)
    simpa using this.symm
  rw [List.countP_map] at key
  have e : (draws (g :: gs)).countP (fun d => decide ((sample (g :: gs) d).head? = some (some c))) = g.count c * (draws gs).length := by
    rw [← hs, ← key]
    rfl
  rw [e, draws_length, draws_length, List.map_cons, List.prod_cons]
  ring

theorem take_sum_le (ws : List ℚ) (h : ∀ w ∈ ws, 0 ≤ w) {i j : ℕ} (hij : i ≤ j) : (ws.take i).sum ≤ (ws.take j).sum := by
  obtain ⟨k, rfl⟩ := Nat.exists_eq_add_of_le hij
  rw [List.take_add, List.sum_append]
  have : 0 ≤ ((ws.drop i).take k).sum :=
    List.sum_nonneg fun x hx => h x (List.mem_of_mem_drop (List.mem_of_mem_take hx))
  linarith

theorem accumulate_last (ws : List ℚ) (h : ws ≠ []) : (accumulate ws).getLast? = some ws.sum := by
  cases ws with
  | nil => exact absurd rfl h
  | cons w ws => simp [accumulate, List.range_succ]

theorem accumulate_init (w : ℚ) (ws : List ℚ) :
    (accumulate (w :: ws)).dropLast = (List.range ws.length).map fun (i : ℕ) => ((w :: ws).take (i + 1)).sum := by
  rw [accumulate, List.length_cons, List.range_succ, List.map_append]
  simp

/-- The length of the prefix of a sorted table below a bound. -/
theorem prefix_length (f : ℕ → ℚ) (n : ℕ) (x : ℚ) (hm : ∀ i j, i ≤ j → f i ≤ f j) (j : ℕ) (hj : j ≤ n) :
    (((List.range n).map f).takeWhile fun c => decide (c ≤ x)).length = j ↔
      (∀ i, i < j → f i ≤ x) ∧ (j < n → x < f j) := by
  induction n generalizing f j with
  | zero =>
    have : j = 0 := by omega
    subst this
    simp
  | succ n ih =>
    rw [List.range_succ_eq_map, List.map_cons, List.map_map, List.takeWhile_cons]
    by_cases h0 : f 0 ≤ x
    · simp only [h0, decide_true, if_true, List.length_cons]
      cases j with
      | zero =>
        simp only [Nat.succ_ne_zero, false_iff, not_and, Nat.add_eq_zero_iff, one_ne_zero, and_false]
        intro _ h
        exact absurd (h (by omega)) (not_lt.2 h0)
      | succ j =>
        have := ih (f ∘ Nat.succ) (fun a b hab => hm _ _ (by simpa using hab)) j (by omega)
        rw [Nat.add_right_cancel_iff, this]
        constructor
        · rintro ⟨h1, h2⟩
          refine ⟨fun i hi => ?_, fun h => h2 (by omega)⟩
          cases i with
          | zero => exact h0
          | succ i => exact h1 i (by omega)
        · rintro ⟨h1, h2⟩
          exact ⟨fun i hi => h1 (i + 1) (by omega), fun h => h2 (by omega)⟩
    · simp only [h0, decide_false, Bool.false_eq_true, if_false, List.length_nil]
      constructor
      · rintro rfl
        exact ⟨fun i hi => absurd hi (by omega), fun _ => not_le.1 h0⟩
      · rintro ⟨h1, -⟩
        by_contra hne
        exact h0 (h1 0 (by omega))

end Verif.SampleLaw
