import Verif.Spec.QuantModes

/-! Helper lemmas for `Verif/Props/QuantModes.lean`. -/

namespace Verif.QuantModes
open Verif

theorem find_eq (g : Graph) (p : ℕ) (q : Fq) : find g p = some q ↔ At g p q := by
  unfold find At
  cases h : g.lookup p with
  | none => simp
  | some s => cases s <;> simp

theorem sync_one (src : Graph) (a b : ℕ × Slot) (h : syncOne src a = .ok b) : Stepped src a b := by
  obtain ⟨p, s⟩ := a
  cases s with
  | absent => exact absurd h (by simp [syncOne])
  | other w =>
    simp only [syncOne, Except.ok.injEq] at h
    subst h; exact ⟨rfl, rfl⟩
  | fq q =>
    simp only [syncOne] at h
    cases hf : find src p with
    | none => rw [hf] at h; exact absurd h (by simp)
    | some s =>
      rw [hf] at h
      dsimp only at h
      by_cases hm : s.minmax = q.minmax
      · rw [if_pos hm, Except.ok.injEq] at h
        subst h
        refine ⟨rfl, s, ?_, (find_eq _ _ _).1 hf⟩
        cases s; cases q; simp at hm; simp [hm]
      · rw [if_neg hm] at h; exact absurd h (by simp)

theorem sync_one_ok (src : Graph) (a : ℕ × Slot) (h1 : a.2 ≠ .absent)
    (h2 : ∀ q, a.2 = .fq q → ∃ s, At src a.1 s ∧ s.minmax = q.minmax) : ∃ b, syncOne src a = .ok b := by
  obtain ⟨p, s⟩ := a
  cases s with
  | absent => exact absurd rfl h1
  | other w => exact ⟨_, rfl⟩
  | fq q =>
    obtain ⟨s, hs, hm⟩ := h2 q rfl
    refine ⟨(p, .fq { q with scale := s.scale, zp := s.zp, flags := s.flags, stats := s.stats }), ?_⟩
    simp only [syncOne]
    rw [(find_eq src p s).2 hs]
    dsimp only
    rw [if_pos hm]

theorem sync_graph (src : Graph) : ∀ (g g' : Graph), g.mapM (syncOne src) = .ok g' → List.Forall₂ (Stepped src) g g' := by
  intro g
  induction g with
  | nil =>
    intro g' h
    simp only [List.mapM_nil, pure, Except.pure, Except.ok.injEq] at h
    subst h; exact .nil
  | cons a g ih =>
    intro g' h
    rw [List.mapM_cons] at h
    cases h1 : syncOne src a with
    | error e => rw [h1] at h; exact absurd h (by simp [bind, Except.bind])
    | ok b =>
      cases h2 : g.mapM (syncOne src) with
      | error e => rw [h1, h2] at h; exact absurd h (by simp [bind, Except.bind])
      | ok r =>
        rw [h1, h2] at h
        simp only [bind, Except.bind, pure, Except.pure, Except.ok.injEq] at h
        subst h
        exact .cons (sync_one _ _ _ h1) (ih _ h2)

theorem sync_graph_ok (src g : Graph) : (∃ g', g.mapM (syncOne src) = .ok g') ↔ Fits src g := by
  induction g with
  | nil => exact ⟨fun _ => ⟨by simp, by simp⟩, fun _ => ⟨[], rfl⟩⟩
  | cons a g ih =>
    constructor
    · rintro ⟨g', h⟩
      rw [List.mapM_cons] at h
      cases h1 : syncOne src a with
      | error e => rw [h1] at h; exact absurd h (by simp [bind, Except.bind])
      | ok b =>
        cases h2 : g.mapM (syncOne src) with
        | error e => rw [h1, h2] at h; exact absurd h (by simp [bind, Except.bind])
        | ok r =>
          obtain ⟨f1, f2⟩ := ih.1 ⟨r, h2⟩
          obtain ⟨p, s⟩ := a
          refine ⟨fun p' hp => ?_, fun p' q hp => ?_⟩
          · rcases List.mem_cons.1 hp with e | e
            · rw [← e] at h1; exact absurd h1 (by simp [syncOne])
            · exact f1 p' e
          · rcases List.mem_cons.1 hp with e | e
            · rw [← e] at h1
              simp only [syncOne] at h1
              cases hf : find src p' with
              | none => rw [hf] at h1; exact absurd h1 (by simp)
              | some s' =>
                rw [hf] at h1
                dsimp only at h1
                by_cases hm : s'.minmax = q.minmax
                · exact ⟨s', (find_eq _ _ _).1 hf, hm⟩
                · rw [if_neg hm] at h1; exact absurd h1 (by simp)
            · exact f2 p' q e
    · rintro ⟨f1, f2⟩
      obtain ⟨b, hb⟩ := sync_one_ok src a (fun e => f1 a.1 (by rw [← e]; simp)) fun q e => f2 a.1 q (by rw [← e]; simp)
      obtain ⟨r, hr⟩ := ih.2 ⟨fun p hp => f1 p (by simp [hp]), fun p q hp => f2 p q (by simp [hp])⟩
      exact ⟨b :: r, by rw [List.mapM_cons, hb, hr]; rfl⟩

theorem stepped_trans {src : Graph} {a b c : ℕ × Slot} (h1 : Stepped src a b) (h2 : Stepped src b c) : Stepped src a c := by
  obtain ⟨p, s⟩ := a
  obtain ⟨p', s'⟩ := b
  obtain ⟨e, h1⟩ := h1
  obtain ⟨e', h2⟩ := h2
  dsimp only at e h1 h2 e'
  subst e
  refine ⟨e', ?_⟩
  cases s with
  | absent => exact h1.elim
  | other w => dsimp only at h1; subst h1; exact h2
  | fq q => dsimp only at h1; obtain ⟨q', e, _⟩ := h1; subst e; exact h2

theorem forall_trans {src : Graph} : ∀ {a b c : Graph}, List.Forall₂ (Stepped src) a b → List.Forall₂ (Stepped src) b c → List.Forall₂ (Stepped src) a c
  | _, _, _, .nil, .nil => .nil
  | _, _, _, .cons x xs, .cons y ys => .cons (stepped_trans x y) (forall_trans xs ys)

theorem forall_inStep {src : Graph} {a b : Graph} (h : List.Forall₂ (Stepped src) a b) : InStep src b := by
  intro p q hp
  induction h with
  | nil => exact absurd hp (by simp)
  | @cons x y xs ys hxy _ ih =>
    rcases List.mem_cons.1 hp with e | e
    · subst e
      obtain ⟨e1, e2⟩ := hxy
      obtain ⟨p', s⟩ := x
      dsimp only at e1 e2
      subst e1
      cases s with
      | absent => exact e2.elim
      | other w => exact absurd e2 (by simp)
      | fq q' =>
        dsimp only at e2
        obtain ⟨q'', e, h⟩ := e2
        cases e; exact h
    · exact ih e

theorem forall_fits {src : Graph} {a b : Graph} (h : List.Forall₂ (Stepped src) a b) : Fits src b := by
  refine ⟨fun p hp => ?_, fun p q hp => ⟨q, forall_inStep h p q hp, rfl⟩⟩
  induction h with
  | nil => exact absurd hp (by simp)
  | @cons x y xs ys hxy _ ih =>
    rcases List.mem_cons.1 hp with e | e
    · subst e
      obtain ⟨_, e2⟩ := hxy
      obtain ⟨p', s⟩ := x
      cases s with
      | absent => exact e2.elim
      | other w => exact absurd e2 (by simp)
      | fq q' => obtain ⟨_, e, _⟩ := e2; exact absurd e (by simp)
    · exact ih e

theorem forall_names {src a b : Graph} (h : List.Forall₂ (Stepped src) a b) : b.map Prod.fst = a.map Prod.fst := by
  induction h with
  | nil => rfl
  | cons hx _ ih => rw [List.map_cons, List.map_cons, hx.1, ih]

theorem sync_modes (src : ℕ) (state : Graph) (modes : List ℕ) : ∀ (ms ms' : Models), syncModes src state modes ms = .ok ms' →
    (∀ m, m ∉ modes ∨ m = src → ms' m = ms m) ∧
    (∀ m ∈ modes, m ≠ src → ∃ g g', ms m = some g ∧ ms' m = some g' ∧ List.Forall₂ (Stepped state) g g') := by
  induction modes with
  | nil =>
    intro ms ms' h
    simp only [syncModes, Except.ok.injEq] at h
    subst h
    exact ⟨fun _ _ => rfl, fun m hm => absurd hm (by simp)⟩
  | cons k modes ih =>
    intro ms ms' h
    rw [syncModes] at h
    by_cases hk : k = src
    · rw [if_pos hk] at h
      obtain ⟨a, b⟩ := ih ms ms' h
      refine ⟨fun m hm => a m ?_, fun m hm hne => b m ?_ hne⟩
      · rcases hm with hm | hm
        · exact .inl fun x => hm (by simp [x])
        · exact .inr hm
      · rcases List.mem_cons.1 hm with e | e
        · exact absurd (e.trans hk) hne
        · exact e
    · rw [if_neg hk] at h
      cases hg : ms k with
      | none => rw [hg] at h; exact absurd h (by simp)
      | some g =>
        rw [hg] at h
        dsimp only at h
        cases hs : g.mapM (syncOne state) with
        | error e => rw [hs] at h; exact absurd h (by simp)
        | ok g1 =>
          rw [hs] at h
          dsimp only at h
          obtain ⟨a, b⟩ := ih _ ms' h
          have st := sync_graph _ _ _ hs
          refine ⟨fun m hm => ?_, fun m hm hne => ?_⟩
          · have hmk : m ≠ k := by
              rcases hm with hm | hm
              · exact fun e => hm (by simp [e])
              · exact fun e => hk (e ▸ hm)
            rw [a m (by rcases hm with hm | hm; exact .inl fun x => hm (by simp [x]); exact .inr hm), Function.update_of_ne hmk]
          · by_cases hmk : m = k
            · subst hmk
              by_cases hin : m ∈ modes
              · obtain ⟨g2, g3, e1, e2, e3⟩ := b m hin hne
                rw [Function.update_self, Option.some.injEq] at e1
                subst e1
                exact ⟨g, g3, hg, e2, forall_trans st e3⟩
              · refine ⟨g, g1, hg, ?_, st⟩
                rw [a m (.inl hin), Function.update_self]
            · have hin : m ∈ modes := (List.mem_cons.1 hm).resolve_left hmk
              obtain ⟨g2, g3, e1, e2, e3⟩ := b m hin hne
              rw [Function.update_of_ne hmk] at e1
              exact ⟨g2, g3, e1, e2, e3⟩

theorem sync_modes_ok (src : ℕ) (state : Graph) (modes : List ℕ) : ∀ (ms : Models),
    (∀ m ∈ modes, m ≠ src → ∃ g, ms m = some g ∧ Fits state g) → ∃ ms', syncModes src state modes ms = .ok ms' := by
  induction modes with
  | nil => exact fun ms _ => ⟨ms, rfl⟩
  | cons k modes ih =>
    intro ms h
    rw [syncModes]
    by_cases hk : k = src
    · rw [if_pos hk]; exact ih ms fun m hm => h m (by simp [hm])
    · rw [if_neg hk]
      obtain ⟨g, e1, e2⟩ := h k (by simp) hk
      obtain ⟨g', e3⟩ := (sync_graph_ok _ _).2 e2
      rw [e1]; dsimp only; rw [e3]; dsimp only
      refine ih _ fun m hm hne => ?_
      by_cases e : m = k
      · subst e
        exact ⟨g', by rw [Function.update_self], forall_fits (sync_graph _ _ _ e3)⟩
      · obtain ⟨g2, f1, f2⟩ := h m (by simp [hm]) hne
        exact ⟨g2, by rw [Function.update_of_ne e]; exact f1, f2⟩

theorem sync_modes_fits (src : ℕ) (state : Graph) (modes : List ℕ) : ∀ (ms ms' : Models), syncModes src state modes ms = .ok ms' →
    ∀ m ∈ modes, m ≠ src → ∃ g, ms m = some g ∧ Fits state g := by
  induction modes with
  | nil => exact fun ms ms' _ m hm => absurd hm (by simp)
  | cons k modes ih =>
    intro ms ms' h m hm hne
    rw [syncModes] at h
    by_cases hk : k = src
    · rw [if_pos hk] at h
      exact ih ms ms' h m ((List.mem_cons.1 hm).resolve_left fun e => hne (e.trans hk)) hne
    · rw [if_neg hk] at h
      cases hg : ms k with
      | none => rw [hg] at h; exact absurd h (by simp)
      | some g =>
        rw [hg] at h
        dsimp only at h
        cases hs : g.mapM (syncOne state) with
        | error e => rw [hs] at h; exact absurd h (by simp)
        | ok g1 =>
          rw [hs] at h
          dsimp only at h
          by_cases hmk : m = k
          · subst hmk; exact ⟨g, hg, (sync_graph_ok _ _).1 ⟨g1, hs⟩⟩
          · obtain ⟨g2, f1, f2⟩ := ih _ _ h m ((List.mem_cons.1 hm).resolve_left hmk) hne
            rw [Function.update_of_ne hmk] at f1
            exact ⟨g2, f1, f2⟩

theorem runAll_other (f : Effect) (mode m : ℕ) (hm : m ≠ mode) (xs : List ℕ) (ms : Models) : runAll f mode xs ms m = ms m := by
  unfold runAll
  induction xs generalizing ms with
  | nil => rfl
  | cons x xs ih =>
    rw [List.foldl_cons, ih]
    unfold forward
    cases ms mode with
    | none => rfl
    | some g => exact Function.update_of_ne hm _ _

theorem runAll_self (f : Effect) (mode : ℕ) (xs : List ℕ) (ms : Models) :
    runAll f mode xs ms mode = (ms mode).map fun g => xs.foldl (fun g x => runGraph f x g) g := by
  unfold runAll
  induction xs generalizing ms with
  | nil => cases h : ms mode <;> simp [h]
  | cons x xs ih =>
    rw [List.foldl_cons, ih]
    unfold forward
    cases h : ms mode with
    | none => dsimp only; rw [h]; rfl
    | some g => simp [Function.update_self]

theorem at_run (f : Effect) (x : ℕ) (g : Graph) (p : ℕ) (s : Fq) (h : At g p s) : At (runGraph f x g) p (f x p s) := by
  unfold At runGraph at *
  induction g with
  | nil => exact absurd h (by simp)
  | cons a g ih =>
    obtain ⟨p', s'⟩ := a
    rw [List.lookup_cons] at h
    rw [List.map_cons]
    by_cases e : p = p'
    · subst e
      simp only [beq_self_eq_true, if_true, Option.some.injEq] at h
      subst h
      simp [List.lookup_cons]
    · have e' : (p == p') = false := by simpa using e
      rw [e'] at h
      have := ih h
      cases s' <;> simpa [List.lookup_cons, e'] using this

theorem fits_run (f : Effect) (hf : ∀ x p q, (f x p q).minmax = q.minmax) (xs : List ℕ) (src g : Graph) (h : Fits src g) :
    Fits (xs.foldl (fun g x => runGraph f x g) src) g := by
  induction xs generalizing src with
  | nil => exact h
  | cons x xs ih =>
    refine ih _ ⟨h.1, fun p q hp => ?_⟩
    obtain ⟨s, e1, e2⟩ := h.2 p q hp
    exact ⟨f x p s, at_run f x src p s e1, by rw [hf, e2]⟩

theorem lookup_reset (g : Graph) (p : ℕ) : (g.map resetOne).lookup p = (g.lookup p).map fun s => (resetOne (p, s)).2 := by
  induction g with
  | nil => rfl
  | cons a g ih =>
    obtain ⟨p', s⟩ := a
    rw [List.map_cons, List.lookup_cons]
    by_cases e : p = p'
    · subst e
      cases s <;> simp [resetOne, List.lookup_cons]
    · have e' : (p == p') = false := by simpa using e
      cases s <;> simp only [resetOne, List.lookup_cons, e'] <;> exact ih

theorem create_split {f : Effect} {prepare : ℕ → Graph} {modes : List ℕ} {dummy : ℕ} {ms : Models}
    (h : create f prepare modes dummy = .ok ms) :
    tensor ∈ modes ∧ ∃ ms1 : Models, sync modes tensor (Function.update (fun m => if m ∈ modes then some (prepare m) else none) tensor (some (runGraph f dummy (prepare tensor)))) = .ok ms1 ∧ ms = reset ms1 := by
  unfold create at h
  unfold buildModels at h
  dsimp only at h
  by_cases ht : tensor ∈ modes
  · rw [if_pos ht] at h
    dsimp only at h
    refine ⟨ht, ?_⟩
    have e : (forward f tensor dummy fun m => if m ∈ modes then some (prepare m) else none).2 = Function.update (fun m => if m ∈ modes then some (prepare m) else none) tensor (some (runGraph f dummy (prepare tensor))) := by
      unfold forward
      dsimp only
      rw [if_pos ht]
    rw [e] at h
    split at h
    · exact absurd h (by simp)
    · rename_i ms1 hms
      simp only [Except.ok.injEq] at h
      exact ⟨ms1, hms, h.symm⟩
  · rw [if_neg ht] at h; exact absurd h (by simp)

theorem reset_mem {g : Graph} {p : ℕ} {q : Fq} (h : (p, Slot.fq q) ∈ g.map resetOne) :
    ∃ s, (p, Slot.fq s) ∈ g ∧ q = { s with scale := s.scale.map fun _ => 1, zp := s.zp.map fun _ => 0, stats := if s.minmax then [] else s.stats } := by
  obtain ⟨⟨p', s⟩, h1, h2⟩ := List.mem_map.1 h
  cases s with
  | absent => exact absurd h2 (by simp [resetOne])
  | other w => exact absurd h2 (by simp [resetOne])
  | fq s =>
    simp only [resetOne, Prod.mk.injEq, Slot.fq.injEq] at h2
    obtain ⟨rfl, rfl⟩ := h2
    exact ⟨s, h1, rfl⟩

end Verif.QuantModes
