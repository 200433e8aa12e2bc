import Verif.Spec.DsnasArch

/-! Helper lemmas for `Verif/Props/DsnasArch.lean`. -/

namespace Verif.DsnasArch
open Verif

variable {ι : Type} [Fintype ι] [DecidableEq ι] {C : ι → Type} [∀ m, Fintype (C m)] [∀ m, DecidableEq (C m)]

theorem expSum_pos {C : Type} [Fintype C] (k : C) (a : C → ℝ) : 0 < ∑ j, Real.exp (a j) :=
  Finset.sum_pos (fun _ _ => Real.exp_pos _) ⟨k, Finset.mem_univ k⟩

theorem softmax_pos {C : Type} [Fintype C] (k : C) (a : C → ℝ) : 0 < softmax a k :=
  div_pos (Real.exp_pos _) (expSum_pos k a)

theorem update_deriv {C : Type} [Fintype C] [DecidableEq C] (a : C → ℝ) (j i : C) (x : ℝ) :
    HasDerivAt (fun x => Function.update a j x i) (if i = j then 1 else 0) x := by
  by_cases h : i = j
  · subst h
    simp only [Function.update_self, if_true]
    exact hasDerivAt_id x
  · simp only [Function.update_of_ne h, if_neg h]
    exact hasDerivAt_const x _

theorem softmax_deriv {C : Type} [Fintype C] [DecidableEq C] (a : C → ℝ) (j k : C) :
    HasDerivAt (fun x => softmax (Function.update a j x) k) (softmax a k * ((if k = j then 1 else 0) - softmax a j)) (a j) := by
  have he : ∀ i, HasDerivAt (fun x => Real.exp (Function.update a j x i)) (Real.exp (a i) * (if i = j then 1 else 0)) (a j) := by
    intro i
    have := (update_deriv a j i (a j)).exp
    rwa [Function.update_eq_self] at this
  have hs : HasDerivAt (fun x => ∑ i, Real.exp (Function.update a j x i)) (Real.exp (a j)) (a j) := by
    have := HasDerivAt.fun_sum (u := Finset.univ) (fun i _ => he i)
    simpa using this
  have hpos := expSum_pos k a
  have hd := (he k).fun_div hs (by rw [Function.update_eq_self]; exact hpos.ne')
  rw [Function.update_eq_self] at hd
  unfold softmax
  refine hd.congr_deriv ?_
  have := hpos.ne'
  field_simp

theorem logTerm_oneHot {C : Type} [Fintype C] [DecidableEq C] (a : C → ℝ) (k : C) :
    logTerm (oneHot k) a = Real.log (softmax a k) := by
  unfold logTerm oneHot
  simp

theorem logTerm_deriv {C : Type} [Fintype C] [DecidableEq C] (a : C → ℝ) (j k : C) :
    HasDerivAt (fun x => logTerm (oneHot k) (Function.update a j x)) ((if k = j then 1 else 0) - softmax a j) (a j) := by
  simp only [logTerm_oneHot]
  have h := (softmax_deriv a j k).log (by rw [Function.update_eq_self]; exact (softmax_pos k a).ne')
  rw [Function.update_eq_self] at h
  convert h using 1
  have := (softmax_pos k a).ne'
  field_simp

/-- Sums over mutables of which one changes. -/
theorem sum_deriv (a : (m : ι) → C m → ℝ) (m : ι) (j : C m) (f : (m : ι) → (C m → ℝ) → ℝ) (d : ℝ)
    (h : HasDerivAt (fun x => f m (Function.update (a m) j x)) d (a m j)) :
    HasDerivAt (fun x => ∑ n, f n (Function.update a m (Function.update (a m) j x) n)) d (a m j) := by
  have h1 : ∀ n ∈ Finset.univ, HasDerivAt (fun x => f n (Function.update a m (Function.update (a m) j x) n)) (if n = m then d else 0) (a m j) := by
    intro n _
    by_cases hn : n = m
    · subst hn
      simpa using h
    · simp only [Function.update_of_ne hn, if_neg hn]
      exact hasDerivAt_const _ _
  have := HasDerivAt.fun_sum h1
  simpa using this

theorem step_ok {O : Type} (t : Task ι C) (opt : O → ((m : ι) → C m → ℝ) → ((m : ι) → C m → ℝ) → O × ((m : ι) → C m → ℝ))
    (k : (m : ι) → C m) (r : ι → ℝ) (s : St ι C O) (hs : s.grad = none ∨ s.grad = some fun _ _ => 0) :
    mutatorStep t false opt k r s = .ok ⟨(opt s.opt s.a (gradient t k s.a)).2, some fun _ _ => 0, (opt s.opt s.a (gradient t k s.a)).1⟩ := by
  unfold mutatorStep
  rcases hs with h | h
  · rw [h]; simp [handle, Except.map]
  · rw [h]; simp [handle, Except.map]

theorem softmax_lt {C : Type} [Fintype C] [DecidableEq C] (a b : C → ℝ) (k l : C) (hl : l ≠ k)
    (h : ∀ j, j ≠ k → b k - b j < a k - a j) : softmax b k < softmax a k := by
  unfold softmax
  rw [div_lt_div_iff₀ (expSum_pos k b) (expSum_pos k a), Finset.mul_sum, Finset.mul_sum]
  apply Finset.sum_lt_sum
  · intro j _
    rw [← Real.exp_add, ← Real.exp_add, Real.exp_le_exp]
    by_cases hj : j = k
    · subst hj; linarith
    · linarith [h j hj]
  · refine ⟨l, Finset.mem_univ l, ?_⟩
    rw [← Real.exp_add, ← Real.exp_add, Real.exp_lt_exp]
    linarith [h l hl]

theorem softmax_gap {C : Type} [Fintype C] [DecidableEq C] (a : C → ℝ) (k : C) (c : ℝ) (hc : 0 < c) (l : C) (hl : l ≠ k) :
    softmax (fun j => a j - c * ((if k = j then 1 else 0) - softmax a j)) k < softmax a k := by
  have hk1 : softmax a k < 1 := by
    unfold softmax
    rw [div_lt_one (expSum_pos k a), ← Finset.add_sum_erase _ _ (Finset.mem_univ k)]
    have : 0 < ∑ x ∈ Finset.univ.erase k, Real.exp (a x) :=
      Finset.sum_pos (fun _ _ => Real.exp_pos _) ⟨l, by simp [hl]⟩
    linarith
  apply softmax_lt a _ k l hl
  intro j hj
  simp only [if_true, if_neg (Ne.symm hj)]
  have h1 : 0 < c * (1 - softmax a k) := mul_pos hc (by linarith)
  have h2 : 0 < c * softmax a j := mul_pos hc (softmax_pos j a)
  nlinarith

theorem singles_groups {K : Type} [DecidableEq K] (net : Groups.Net K) (b : Groups.B K) (hb : b.names = [])
    (h1 : ∀ e ∈ net, ∃ m, e.2 = [m]) : (Groups.singles net b).names = [] ∧
      (∀ i, i < b.groups.length → (Groups.singles net b).groups[i]? = b.groups[i]?) ∧
      (Groups.singles net b).groups.length = b.groups.length + net.length ∧
      ∀ i n m, net[i]? = some (n, [m]) → (Groups.singles net b).groups[b.groups.length + i]? = some ((m.pre, b.groups.length + i), [m]) := by
  induction net generalizing b with
  | nil => exact ⟨hb, fun _ _ => rfl, rfl, by simp⟩
  | cons e net ih =>
    obtain ⟨n, ms⟩ := e
    obtain ⟨m, hm⟩ := h1 (n, ms) (by simp)
    simp only at hm
    subst hm
    have e1 : Groups.singles ((n, [m]) :: net) b = Groups.singles net ⟨b.groups ++ [((m.pre, b.groups.length), [m])], b.names, b.aliases⟩ := by
      rw [Groups.singles, if_neg (by rw [hb]; simp)]
      rfl
    obtain ⟨a1, a2, a3, a4⟩ := ih ⟨b.groups ++ [((m.pre, b.groups.length), [m])], b.names, b.aliases⟩ hb (fun e he => h1 e (by simp [he]))
    simp only [List.length_append, List.length_singleton] at a2 a3 a4
    rw [e1]
    refine ⟨a1, ?_, ?_, ?_⟩
    · intro i hi
      rw [a2 i (by omega), List.getElem?_append_left hi]
    · rw [a3, List.length_cons]; omega
    · intro i n' m' hi
      cases i with
      | zero =>
        simp only [List.getElem?_cons_zero, Option.some.injEq, Prod.mk.injEq, List.cons.injEq, and_true] at hi
        rw [Nat.add_zero, a2 _ (by omega)]
        simp [hi.2]
      | succ i =>
        rw [List.getElem?_cons_succ] at hi
        have := a4 i n' m' hi
        rwa [show b.groups.length + 1 + i = b.groups.length + (i + 1) by omega] at this

end Verif.DsnasArch
