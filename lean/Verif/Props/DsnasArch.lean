import Verif.Lemmas.DsnasArch

/-! C58: the architecture update of DSNAS. -/

namespace Verif.DsnasArch
open Verif

variable {ι : Type} [Fintype ι] [DecidableEq ι] {C : ι → Type} [∀ m, Fintype (C m)] [∀ m, DecidableEq (C m)]

open Classical in
/-- C58: the gradient of the mutator loss for the parameter of choice `j`, when `k` were sampled:
the gradient of the log-probability of the sampled choice, and the FLOPs of the sampled choice
weighted by its probability if the subnet is too large. -/
theorem C58_gradient (t : Task ι C) (k : (m : ι) → C m) (a : (m : ι) → C m → ℝ) (m : ι) (j : C m) :
    gradient t k a m j = ((if k m = j then 1 else 0) - softmax (a m) j) *
      ((1 + if t.limit ≤ t.subnet a then t.coef * t.flops m (k m) * softmax (a m) (k m) else 0) / t.world) := by
  unfold gradient
  apply HasDerivAt.deriv
  unfold mutatorLoss
  have h1 := (sum_deriv a m j (fun n v => logTerm (oneHot (k n)) v) _ (logTerm_deriv (a m) j (k m))).div_const t.world
  by_cases h : t.limit ≤ t.subnet a
  · simp only [ge_iff_le, if_pos h]
    have h2 := ((sum_deriv a m j (fun n v => softmax v (k n) * t.flops n (k n)) _ ((softmax_deriv (a m) j (k m)).mul_const (t.flops m (k m)))).mul_const
      t.coef).div_const t.world
    convert h1.fun_add h2 using 1
    ring
  · simp only [ge_iff_le, if_neg h]
    convert h1.add_const 0 using 1
    ring

/-! ### Rewards -/

/-- C58 is violated: the rewards are applied to gradients that were used and cleared before, so
the whole search does not depend on them, for any optimizer. -/
theorem C58_reward_violated {O : Type} (t : Task ι C)
    (opt : O → ((m : ι) → C m → ℝ) → ((m : ι) → C m → ℝ) → O × ((m : ι) → C m → ℝ))
    (xs ys : List (((m : ι) → C m) × (ι → ℝ))) (h : xs.map (·.1) = ys.map (·.1)) (a : (m : ι) → C m → ℝ) (o : O) :
    run t false opt xs ⟨a, none, o⟩ = run t false opt ys ⟨a, none, o⟩ ∧ ∃ s, run t false opt xs ⟨a, none, o⟩ = .ok s := by
  have key : ∀ (xs ys : List (((m : ι) → C m) × (ι → ℝ))) (s : St ι C O), (s.grad = none ∨ s.grad = some fun _ _ => 0) →
      xs.map (·.1) = ys.map (·.1) → run t false opt xs s = run t false opt ys s ∧ ∃ s', run t false opt xs s = .ok s' := by
    intro xs
    induction xs with
    | nil =>
      intro ys s _ h
      cases ys with
      | nil => exact ⟨rfl, s, rfl⟩
      | cons y ys => simp at h
    | cons x xs ih =>
      intro ys s hs h
      cases ys with
      | nil => simp at h
      | cons y ys =>
        simp only [List.map_cons, List.cons.injEq] at h
        rw [run, run, step_ok t opt x.1 x.2 s hs, step_ok t opt y.1 y.2 s hs, h.1]
        exact ih ys _ (Or.inr rfl) h.2
  exact key xs ys _ (Or.inl rfl) h

/-- C58 is violated with PyTorch 2.0 or later, where `zero_grad` removes the gradients: every
architecture update fails. -/
theorem C58_cleared_violated {O : Type} (t : Task ι C)
    (opt : O → ((m : ι) → C m → ℝ) → ((m : ι) → C m → ℝ) → O × ((m : ι) → C m → ℝ))
    (x : ((m : ι) → C m) × (ι → ℝ)) (xs : List (((m : ι) → C m) × (ι → ℝ))) (s : St ι C O) :
    run t true opt (x :: xs) s = .error .attribute := by
  rfl

/-- C58 is violated in its aim: an update by gradient descent makes every sampled choice less
probable, also when the loss falls with the weight of that choice (a negative reward), so the
search does not learn which choices are good. -/
theorem C58_less_likely_violated (t : Task ι C) (k : (m : ι) → C m) (reward : ι → ℝ) (a : (m : ι) → C m → ℝ) (lr : ℝ) (hlr : 0 < lr)
    (hw : 0 < t.world) (hf : t.subnet a < t.limit) :
    ∃ s, mutatorStep t false (descent lr) k reward ⟨a, none, ()⟩ = .ok s ∧
      ∀ m, (∃ l, l ≠ k m) → softmax (s.a m) (k m) < softmax (a m) (k m) := by
  refine ⟨_, step_ok t _ k reward _ (Or.inl rfl), ?_⟩
  rintro m ⟨l, hl⟩
  have h := softmax_gap (a m) (k m) (lr / t.world) (by positivity) l hl
  convert h using 2
  funext j
  simp only [descent, C58_gradient, if_neg (not_le.2 hf)]
  ring

example (a : (m : Unit) → Bool → ℝ) : ∃ s, mutatorStep (⟨1, 0, fun _ _ => 1, 5, fun _ => 4⟩ : Task Unit fun _ => Bool) false (descent (1 / 10))
    (fun _ => true) (fun _ => -7) ⟨a, none, ()⟩ = .ok s ∧ softmax (s.a ()) true < softmax (a ()) true := by
  obtain ⟨s, h1, h2⟩ := C58_less_likely_violated (⟨1, 0, fun _ _ => 1, 5, fun _ => 4⟩ : Task Unit fun _ => Bool) (fun _ => true) (fun _ => -7) a
    (1 / 10) (by norm_num) (by norm_num) (by norm_num)
  exact ⟨s, h1, h2 () ⟨false, by simp⟩⟩

/-! ### Parameters of a module -/

/-- C58: without aliases and custom groups every searchable module uses the architecture
parameters of its own group. Missing: aliases and custom groups, see `C58_params_violated`. -/
theorem C58_params_partial {K : Type} [DecidableEq K] (net : Groups.Net K) (hn : (net.map (·.1)).Nodup)
    (h1 : ∀ e ∈ net, ∃ m : Groups.Mut K, e.2 = [m] ∧ m.aka = none) (n : K) (m : Groups.Mut K) (h : (n, [m]) ∈ net) :
    paramGroup net [] n = .ok [m] := by
  have hal : Groups.aliasNames net = [] := by
    have : Groups.aliasPairs net = [] := by
      unfold Groups.aliasPairs
      rw [List.flatMap_eq_nil_iff]
      intro e he
      obtain ⟨m, h2, h3⟩ := h1 e he
      simp [h2, h3]
    unfold Groups.aliasNames
    rw [this]; rfl
  obtain ⟨a1, -, a3, a4⟩ := singles_groups net ⟨[], [], []⟩ rfl (fun e he => (h1 e he).imp fun _ h => h.1)
  have hb : Groups.build net [] = .ok (Groups.singles net ⟨[], [], []⟩).groups := by
    unfold Groups.build
    rw [if_pos rfl]
    unfold Groups.buildRest
    rw [Groups.customGroups, hal]
    simp only [Groups.aliasGroups, Groups.finish]
    rw [a1]
    simp
  obtain ⟨i, hi⟩ := List.getElem?_of_mem h
  have hil : i < net.length := (List.getElem?_eq_some_iff.1 hi).1
  have hif : net.findIdx? (fun e => decide (e.1 = n)) = some i := by
    rw [List.findIdx?_eq_some_iff_getElem]
    refine ⟨hil, by simp [(List.getElem?_eq_some_iff.1 hi).2], ?_⟩
    intro j hj
    simp only [decide_eq_true_eq]
    intro hjn
    have h3 : (net.map (·.1))[j]'(by simp; omega) = (net.map (·.1))[i]'(by simpa using hil) := by
      simp only [List.getElem_map, hjn, (List.getElem?_eq_some_iff.1 hi).2]
    have := (hn.getElem_inj_iff).1 h3
    omega
  have hff : net.filter (fun e => !e.2.isEmpty) = net := by
    rw [List.filter_eq_self]
    intro e he
    obtain ⟨m, h2, -⟩ := h1 e he
    simp [h2]
  have hmo : Groups.mutOf net n = some m := by
    have hf : net.find? (fun p => decide (p.1 = n)) = some (n, [m]) := by
      rw [List.find?_eq_some_iff_getElem]
      refine ⟨by simp, i, hil, (List.getElem?_eq_some_iff.1 hi).2, ?_⟩
      intro j hj
      have := (List.findIdx?_eq_some_iff_getElem.1 hif).2.2 j hj
      simpa using this
    unfold Groups.mutOf Groups.get?
    rw [hf]
    rfl
  have hg : (Groups.singles net ⟨[], [], []⟩).groups.find? (fun g => decide (g.1 = (m.pre, i))) = some ((m.pre, i), [m]) := by
    have h4 := a4 i n m hi
    simp only [List.length_nil, Nat.zero_add] at h4 a3 a4
    rw [List.find?_eq_some_iff_getElem]
    refine ⟨by simp, i, by omega, (List.getElem?_eq_some_iff.1 h4).2, ?_⟩
    intro j hj
    have hjl : j < net.length := by omega
    obtain ⟨m', h5, -⟩ := h1 net[j] (List.getElem_mem hjl)
    have h6 := a4 j net[j].1 m' (by rw [List.getElem?_eq_some_iff]; exact ⟨hjl, by rw [← h5]⟩)
    rw [(List.getElem?_eq_some_iff.1 h6).2]
    simp only [Bool.not_eq_eq_eq_not, Bool.not_true, decide_eq_false_iff_not, Prod.mk.injEq, not_and]
    intro _; omega
  unfold paramGroup
  rw [hb]
  simp only [hmo, hff, hif, hg]

example : paramGroup [("op1", [⟨1, none, "module"⟩]), ("op2", [⟨2, none, "value"⟩])] [] "op2" = .ok [⟨2, none, "value"⟩] := by
  decide +kernel

/-- C58 is violated with aliases: groups are numbered with the aliases first, but the parameters
are looked up by the place of the module. Here the loss of `op1` uses the parameters of `op2`. -/
theorem C58_params_violated :
    paramGroup [("op1", [⟨1, none, "module"⟩]), ("op2", [⟨2, some "a", "module"⟩])] [] "op1" = .ok [⟨2, some "a", "module"⟩] := by
  decide +kernel

/-- C58 is violated with shared aliases: there are fewer groups than modules, and the first
architecture update fails. -/
theorem C58_shared_violated :
    paramGroup [("op1", [⟨1, some "a", "module"⟩]), ("op2", [⟨2, some "a", "module"⟩])] [] "op2" = .error .key := by
  decide +kernel

/-- C58, the parameters of something that is no module of the network are refused with a ValueError, provided that the groups
can be made. -/
theorem C58_params_refused {K : Type} [DecidableEq K] (net : Groups.Net K) (custom : List (List K)) (n : K) (e : Err)
    (hn : ∀ x ∈ net, x.1 ≠ n) : paramGroup net custom n = .error e ↔
      Groups.build net custom = .error e ∨ ((Groups.build net custom).toOption.isSome = true ∧ e = .value) := by
  have hf : (net.filter (fun x => !x.2.isEmpty)).findIdx? (fun x => decide (x.1 = n)) = none := by
    rw [List.findIdx?_eq_none_iff]
    intro x hx
    simpa using hn x (List.mem_filter.1 hx).1
  unfold paramGroup
  cases h : Groups.build net custom with
  | error e' => simp [Except.toOption]
  | ok gs =>
    dsimp only
    rw [hf]
    simp [Except.toOption, eq_comm]

end Verif.DsnasArch
