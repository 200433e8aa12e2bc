import Verif.Lemmas.QuantModes

namespace Verif.QuantModes
open Verif

/-! ### Lemmas -/

/-! ### C66: bringing the graphs in step -/

/-- After synchronising, every fake quantiser of every other mode is the one of the source mode with
the same name; all other modules, the source and modes that are not configured stay as they were. -/
theorem C66_sync (modes : List ℕ) (src : ℕ) (ms ms' : Models) (h : sync modes src ms = .ok ms') :
    ∃ state, ms src = some state ∧ ms' src = some state ∧ (∀ m, m ∉ modes → ms' m = ms m) ∧
      ∀ m ∈ modes, m ≠ src → ∃ g g', ms m = some g ∧ ms' m = some g' ∧ List.Forall₂ (Stepped state) g g' := by
  unfold sync at h
  cases hs : ms src with
  | none => rw [hs] at h; exact absurd h (by simp)
  | some state =>
    rw [hs] at h
    obtain ⟨a, b⟩ := sync_modes _ _ _ _ _ h
    exact ⟨state, rfl, by rw [a src (.inr rfl), hs], fun m hm => a m (.inl hm), b⟩

/-- Synchronising succeeds exactly if the source exists and every other mode has a graph that fits. -/
theorem C66_sync_succeeds (modes : List ℕ) (src : ℕ) (ms : Models) :
    (∃ ms', sync modes src ms = .ok ms') ↔
      ∃ state, ms src = some state ∧ ∀ m ∈ modes, m ≠ src → ∃ g, ms m = some g ∧ Fits state g := by
  unfold sync
  cases hs : ms src with
  | none => simp
  | some state =>
    constructor
    · rintro ⟨ms', h⟩
      exact ⟨state, rfl, sync_modes_fits _ _ _ _ _ h⟩
    · rintro ⟨_, e, h⟩
      cases e
      exact sync_modes_ok _ _ _ _ h

example : Fits [(5, .fq ⟨[2, 3], [0, 0], [1], [], true⟩)] [(5, .fq ⟨[1], [0], [0], [7], true⟩), (6, .other [4])] := by
  refine ⟨by simp, fun p q h => ?_⟩
  simp only [List.mem_cons, Prod.mk.injEq, Slot.fq.injEq, reduceCtorEq, and_false, List.not_mem_nil, or_false] at h
  obtain ⟨rfl, rfl⟩ := h
  exact ⟨_, rfl, rfl⟩

/-- DISAGREEMENT: the check for missing children asks for the parent, so a graph with a `None` child
cannot be synchronised: `AttributeError`. -/
theorem C66_missing_child_violated (modes : List ℕ) (src m p : ℕ) (ms : Models) (g : Graph) (hm : m ∈ modes) (hne : m ≠ src)
    (hg : ms m = some g) (hp : (p, Slot.absent) ∈ g) : ∀ ms', sync modes src ms ≠ .ok ms' := by
  intro ms' h
  obtain ⟨state, _, f⟩ := (C66_sync_succeeds modes src ms).1 ⟨ms', h⟩
  obtain ⟨g', e, f1, _⟩ := f m hm hne
  rw [hg] at e
  cases e
  exact f1 p hp

/-! ### Training -/

/-- After one or more epochs of training, all graphs have the fake quantisers of the training graph. -/
theorem C66_train (f : Effect) (modes : List ℕ) (epochs : List (List ℕ)) (he : epochs ≠ []) (ms ms' : Models)
    (h : train f modes epochs ms = .ok ms') :
    ∃ state, ms' loss = some state ∧ ∀ m ∈ modes, m ≠ loss → ∃ g, ms' m = some g ∧ InStep state g := by
  induction epochs generalizing ms with
  | nil => exact absurd rfl he
  | cons xs epochs ih =>
    rw [train] at h
    cases h1 : epoch f modes xs ms with
    | error e => rw [h1] at h; exact absurd h (by simp)
    | ok ms1 =>
      rw [h1] at h
      dsimp only at h
      by_cases hn : epochs = []
      · subst hn
        simp only [train, Except.ok.injEq] at h
        subst h
        obtain ⟨state, _, e2, _, e4⟩ := C66_sync _ _ _ _ h1
        refine ⟨state, e2, fun m hm hne => ?_⟩
        obtain ⟨g, g', _, f2, f3⟩ := e4 m hm hne
        exact ⟨g', f2, forall_inStep f3⟩
      · exact ih hn ms1 h

/-- Synchronising never disturbs training: the training graph is what the batches made of it. -/
theorem C66_train_graph (f : Effect) (modes : List ℕ) (epochs : List (List ℕ)) (ms ms' : Models)
    (h : train f modes epochs ms = .ok ms') :
    ms' loss = (ms loss).map fun g => epochs.flatten.foldl (fun g x => runGraph f x g) g := by
  induction epochs generalizing ms with
  | nil =>
    simp only [train, Except.ok.injEq] at h
    subst h
    cases ms loss <;> rfl
  | cons xs epochs ih =>
    rw [train] at h
    cases h1 : epoch f modes xs ms with
    | error e => rw [h1] at h; exact absurd h (by simp)
    | ok ms1 =>
      rw [h1] at h
      dsimp only at h
      obtain ⟨state, e1, e2, _, _⟩ := C66_sync _ _ _ _ h1
      rw [ih ms1 h, e2, ← e1, runAll_self]
      cases ms loss with
      | none => rfl
      | some g => simp [List.foldl_append]

/-- If the graphs fit at the start, no number of epochs makes training fail. -/
theorem C66_train_succeeds (f : Effect) (hf : ∀ x p q, (f x p q).minmax = q.minmax) (modes : List ℕ) (epochs : List (List ℕ)) (ms : Models)
    (state : Graph) (hs : ms loss = some state) (h : ∀ m ∈ modes, m ≠ loss → ∃ g, ms m = some g ∧ Fits state g) :
    ∃ ms', train f modes epochs ms = .ok ms' := by
  induction epochs generalizing ms state with
  | nil => exact ⟨ms, rfl⟩
  | cons xs epochs ih =>
    have hl : runAll f loss xs ms loss = some (xs.foldl (fun g x => runGraph f x g) state) := by rw [runAll_self, hs]; rfl
    obtain ⟨ms1, h1⟩ := (C66_sync_succeeds modes loss (runAll f loss xs ms)).2 ⟨_, hl, fun m hm hne => by
      obtain ⟨g, e1, e2⟩ := h m hm hne
      exact ⟨g, by rw [runAll_other _ _ _ hne]; exact e1, fits_run f hf xs _ _ e2⟩⟩
    obtain ⟨st, e1, e2, _, e4⟩ := C66_sync _ _ _ _ h1
    obtain ⟨ms2, h2⟩ := ih ms1 st e2 fun m hm hne => by
      obtain ⟨g, g', _, f2, f3⟩ := e4 m hm hne
      exact ⟨g', f2, forall_fits f3⟩
    refine ⟨ms2, ?_⟩
    rw [train]
    have : epoch f modes xs ms = .ok ms1 := h1
    rw [this]
    exact h2

/-- DISAGREEMENT: without the mode `loss` among the configured ones training runs on the float model,
without any fake quantisation, and fails with `KeyError` at the end of the first epoch. -/
theorem C66_loss_missing_violated (f : Effect) (modes xs : List ℕ) (rest : List (List ℕ)) (ms : Models) (h : ms loss = none) :
    runAll f loss xs ms = ms ∧ (∀ x, (forward f loss x ms).1 = false) ∧ train f modes (xs :: rest) ms = .error .key := by
  have h1 : ∀ x, forward f loss x ms = (false, ms) := fun x => by unfold forward; rw [h]
  have h2 : runAll f loss xs ms = ms := by
    unfold runAll
    induction xs with
    | nil => rfl
    | cons x xs ih => rw [List.foldl_cons, h1]; exact ih
  refine ⟨h2, fun x => by rw [h1], ?_⟩
  have : epoch f modes xs ms = .error .key := by unfold epoch; rw [h2]; unfold sync; rw [h]
  rw [train, this]

/-! ### Construction -/

/-- A newly built model has one graph per configured mode; every fake quantiser has scales of one,
zero points of zero and an observer that has seen nothing (if it keeps minimum and maximum), and all
graphs agree with the graph of the mode `tensor`. -/
theorem C66_create (f : Effect) (prepare : ℕ → Graph) (modes : List ℕ) (dummy : ℕ) (ms : Models)
    (h : create f prepare modes dummy = .ok ms) :
    ∃ t, ms tensor = some t ∧ ∀ m ∈ modes, ∃ g, ms m = some g ∧ g.map Prod.fst = (prepare m).map Prod.fst ∧
      (m ≠ tensor → InStep t g) ∧
      ∀ p q, (p, Slot.fq q) ∈ g → (∀ x ∈ q.scale, x = 1) ∧ (∀ x ∈ q.zp, x = 0) ∧ (q.minmax = true → q.stats = []) := by
  obtain ⟨ht, ms1, h1, rfl⟩ := create_split h
  obtain ⟨state, e1, e2, _, e4⟩ := C66_sync _ _ _ _ h1
  rw [Function.update_self, Option.some.injEq] at e1
  have clean : ∀ (g : Graph) p q, (p, Slot.fq q) ∈ g.map resetOne → (∀ x ∈ q.scale, x = 1) ∧ (∀ x ∈ q.zp, x = 0) ∧ (q.minmax = true → q.stats = []) := by
    intro g p q hq
    obtain ⟨s, _, rfl⟩ := reset_mem hq
    refine ⟨fun x hx => ?_, fun x hx => ?_, fun hm => ?_⟩
    · obtain ⟨_, _, e⟩ := List.mem_map.1 hx; exact e.symm
    · obtain ⟨_, _, e⟩ := List.mem_map.1 hx; exact e.symm
    · exact if_pos hm
  have names : ∀ g : Graph, (g.map resetOne).map Prod.fst = g.map Prod.fst := by
    intro g
    rw [List.map_map]
    refine List.map_congr_left fun a _ => ?_
    obtain ⟨p, s⟩ := a
    cases s <;> rfl
  have hT : reset ms1 tensor = some (state.map resetOne) := by unfold reset; rw [e2]; rfl
  refine ⟨state.map resetOne, hT, fun m hm => ?_⟩
  by_cases hne : m = tensor
  · subst hne
    refine ⟨_, hT, ?_, fun x => absurd rfl x, clean _⟩
    rw [names, ← e1]
    unfold runGraph
    rw [List.map_map]
    refine List.map_congr_left fun a _ => ?_
    obtain ⟨p, s⟩ := a
    cases s <;> rfl
  · obtain ⟨g, g', f1, f2, f3⟩ := e4 m hm hne
    rw [Function.update_of_ne hne, if_pos hm, Option.some.injEq] at f1
    refine ⟨g'.map resetOne, by unfold reset; rw [f2]; rfl, ?_, fun _ => ?_, clean _⟩
    · rw [names, f1, forall_names f3]
    · intro p q hq
      obtain ⟨s, hs, rfl⟩ := reset_mem hq
      have := forall_inStep f3 p s hs
      unfold At at *
      rw [lookup_reset, this]
      rfl

/-- The modes differ. -/
example : tensor ≠ predict ∧ tensor ≠ loss ∧ predict ≠ loss := by decide

example : (create toBatch (fun _ => [(5, .fq ⟨[1], [0], [1], [], false⟩), (6, .other [4])]) [tensor, predict, loss] 9).toOption.map (fun ms => ms loss)
    = some (some [(5, .fq ⟨[1], [0], [1], [9], false⟩), (6, .other [4])]) := by decide +kernel

example : ((create toBatch (fun _ => [(5, .fq ⟨[1], [0], [1], [], true⟩)]) [tensor, predict, loss] 9).toOption.bind
    fun ms => (train toBatch [tensor, predict, loss] [[3, 4], [8]] ms).toOption).map (fun ms => ms predict)
    = some (some [(5, .fq ⟨[8], [0], [1], [8], true⟩)]) := by decide +kernel

/-- DISAGREEMENT: the dummy input of the construction stays in the statistics of observers that do not
keep minimum and maximum, such as histograms: calibration starts with the random dummy already seen. -/
theorem C66_histogram_violated (f : Effect) (prepare : ℕ → Graph) (modes : List ℕ) (dummy : ℕ) (ms : Models)
    (h : create f prepare modes dummy = .ok ms) (p : ℕ) (q : Fq) (hq : (p, Slot.fq q) ∈ prepare tensor)
    (hm : (f dummy p q).minmax = false) :
    ∃ g q', ms tensor = some g ∧ (p, Slot.fq q') ∈ g ∧ q'.stats = (f dummy p q).stats := by
  obtain ⟨ht, ms1, h1, rfl⟩ := create_split h
  obtain ⟨state, e1, e2, _, _⟩ := C66_sync _ _ _ _ h1
  rw [Function.update_self, Option.some.injEq] at e1
  refine ⟨state.map resetOne, { f dummy p q with scale := (f dummy p q).scale.map fun _ => 1, zp := (f dummy p q).zp.map fun _ => 0, stats := if (f dummy p q).minmax then [] else (f dummy p q).stats }, by unfold reset; rw [e2]; rfl, ?_, ?_⟩
  · refine List.mem_map.2 ⟨(p, .fq (f dummy p q)), ?_, rfl⟩
    rw [← e1]
    exact List.mem_map.2 ⟨_, hq, rfl⟩
  · simp [hm]

/-- DISAGREEMENT: a model without the mode `tensor` cannot be built: `KeyError`. -/
theorem C66_tensor_missing_violated (f : Effect) (prepare : ℕ → Graph) (modes : List ℕ) (dummy : ℕ) (h : tensor ∉ modes) :
    create f prepare modes dummy = .error .key := by
  unfold create buildModels
  dsimp only
  rw [if_neg h]

/-- A mode that is not configured runs the float model and touches no fake quantiser; a configured one
touches only its own graph. -/
theorem C66_forward (f : Effect) (mode x : ℕ) (ms : Models) :
    ((forward f mode x ms).1 = true ↔ (ms mode).isSome) ∧ (∀ m, m ≠ mode → (forward f mode x ms).2 m = ms m) ∧
    (ms mode = none → (forward f mode x ms).2 = ms) := by
  unfold forward
  cases h : ms mode with
  | none => exact ⟨by simp, fun _ _ => rfl, fun _ => rfl⟩
  | some g => exact ⟨by simp, fun m hm => Function.update_of_ne hm _ _, fun e => absurd e (by simp)⟩

/-- DISAGREEMENT: post-training calibration only reaches the graph of the mode `predict`, and no
synchronisation follows: however long a newly built model is calibrated, its `tensor` and `loss`
graphs still quantise with scales of one. -/
theorem C66_ptq_violated (f : Effect) (prepare : ℕ → Graph) (modes : List ℕ) (dummy : ℕ) (ms : Models)
    (h : create f prepare modes dummy = .ok ms) (xs : List ℕ) (m : ℕ) (hm : m ∈ modes) (hp : m ≠ predict) :
    ∃ g, calibrate f xs ms m = some g ∧ ∀ p q, (p, Slot.fq q) ∈ g → ∀ x ∈ q.scale, x = 1 := by
  obtain ⟨_, _, e⟩ := C66_create f prepare modes dummy ms h
  obtain ⟨g, e1, _, _, e2⟩ := e m hm
  refine ⟨g, ?_, fun p q hq => (e2 p q hq).1⟩
  unfold calibrate
  rw [runAll_other _ _ _ hp, e1]

/-- Calibration itself: the graph that is evaluated and deployed has seen every batch, in order. -/
theorem C66_calibrate (f : Effect) (xs : List ℕ) (ms : Models) (g : Graph) (hg : ms predict = some g) :
    calibrate f xs ms predict = some (xs.foldl (fun g x => runGraph f x g) g) := by
  unfold calibrate
  rw [runAll_self, hg]
  rfl

/-- The error of a missing child (a module registered as `None`, such as an absent
downsampling layer) after modules that are no fake quantisers. -/
theorem C66_missing_child_error (src m : ℕ) (rest : List ℕ) (ms : Models) (state : Graph) (hs : ms src = some state)
    (hm : m ≠ src) (pre post : Graph) (p : ℕ) (hpre : ∀ q ∈ pre, ∃ w, q.2 = .other w)
    (hg : ms m = some (pre ++ (p, .absent) :: post)) : sync (m :: rest) src ms = .error .attribute := by
  have key : (pre ++ (p, .absent) :: post).mapM (syncOne state) = .error .attribute := by
    clear hg
    induction pre with
    | nil => simp [List.mapM_cons, syncOne, bind, Except.bind]
    | cons q pre ih =>
      obtain ⟨i, sl⟩ := q
      obtain ⟨w, hw⟩ := hpre (i, sl) (by simp)
      simp only at hw
      subst hw
      rw [List.cons_append, List.mapM_cons, ih (fun q hq => hpre q (by simp [hq]))]
      rfl
  simp only [sync, hs, syncModes, if_neg hm, hg, key]

example : sync [1] 0 (fun i => if i = 0 then some [] else some [(3, .other [1]), (4, .absent)]) = .error .attribute :=
  C66_missing_child_error 0 1 [] _ [] (by simp) (by decide) [(3, .other [1])] [] 4 (by simp) (by simp)

/-- The models cannot be built without the graph that the dummy input is sent through, and can be with it. -/
theorem C66_build_refused (f : Effect) (prepare : ℕ → Graph) (modes : List ℕ) (dummy : ℕ) (e : Err) :
    buildModels f prepare modes dummy = .error e ↔ e = .key ∧ tensor ∉ modes := by
  unfold buildModels
  by_cases h : tensor ∈ modes
  · simp [h]
  · simp [h, eq_comm (a := e)]

/-- Copying from a mode that was not built is a `KeyError`. -/
theorem C66_sync_refused (modes : List ℕ) (src : ℕ) (ms : Models) (h : ms src = none) : sync modes src ms = .error .key := by
  simp [sync, h]

end Verif.QuantModes
