import Verif.Spec.DistillAlgos

/-! Helper lemmas for `Verif/Props/DistillAlgos.lean`. -/

namespace Verif.DistillAlgos
open Verif

theorem lookup_some {l : List (String × Datum)} {n : String} {d : Datum} (h : l.lookup n = some d) : (n, d) ∈ l := by
  induction l with
  | nil => simp at h
  | cons x xs ih =>
    rw [List.lookup_cons] at h
    by_cases e : (n == x.1) = true
    · rw [e] at h
      dsimp only at h
      obtain ⟨a, b⟩ := x
      simp only [Option.some.injEq] at h
      have : n = a := by simpa using e
      subst this h
      simp
    · rw [Bool.not_eq_true] at e
      rw [e] at h
      exact List.mem_cons_of_mem _ (ih h)

theorem lookup_none {l : List (String × Datum)} {n : String} (h : l.lookup n = none) (d : Datum) : (n, d) ∉ l := by
  induction l with
  | nil => simp
  | cons x xs ih =>
    rw [List.lookup_cons] at h
    by_cases e : (n == x.1) = true
    · rw [e] at h
      simp at h
    · rw [Bool.not_eq_true] at e
      rw [e] at h
      intro hm
      rcases List.mem_cons.1 hm with h2 | h2
      · rw [← h2] at e
        simp at e
      · exact ih h h2

theorem lookup_mem {l : List (String × Datum)} (hn : (l.map (·.1)).Nodup) {n : String} {d : Datum} (h : (n, d) ∈ l) :
    l.lookup n = some d := by
  induction l with
  | nil => simp at h
  | cons x xs ih =>
    rw [List.map_cons, List.nodup_cons] at hn
    rw [List.lookup_cons]
    rcases List.mem_cons.1 h with h2 | h2
    · subst h2
      simp
    · have : (n == x.1) = false := by
        rw [beq_eq_false_iff_ne]
        intro e
        exact hn.1 (e ▸ List.mem_map.2 ⟨(n, d), h2, rfl⟩)
      rw [this]
      exact ih hn.2 h2

theorem inputs_ok {byot : Bool} {s t : List (String × Datum)} : ∀ {is : List Info} {ds : List Datum},
    inputs byot s t is = .ok ds → ∀ d, d ∈ ds ↔ ∃ i ∈ is, getRecord byot s t i = .ok d
  | [], ds, h, d => by
    simp only [inputs, Except.ok.injEq] at h
    subst h
    simp
  | i :: is, ds, h, d => by
    rw [inputs] at h
    generalize hq : getRecord byot s t i = q at h
    cases q with
    | error e => simp at h
    | ok a =>
      dsimp only at h
      generalize hr : inputs byot s t is = r at h
      cases r with
      | error e => simp at h
      | ok as =>
        simp only [Except.ok.injEq] at h
        subst h
        have ih := inputs_ok hr d
        simp only [List.mem_cons, ih, exists_eq_or_imp, hq, Except.ok.injEq]
        exact or_congr_left eq_comm

theorem inputs_all {byot : Bool} {s t : List (String × Datum)} : ∀ {is : List Info},
    (∀ i ∈ is, ∃ d, getRecord byot s t i = .ok d) → ∃ ds, inputs byot s t is = .ok ds
  | [], _ => ⟨[], rfl⟩
  | i :: is, h => by
    obtain ⟨d, hd⟩ := h i (by simp)
    obtain ⟨ds, hds⟩ := inputs_all (is := is) fun j hj => h j (List.mem_cons_of_mem _ hj)
    exact ⟨d :: ds, by rw [inputs, hd]; dsimp only; rw [hds]⟩

theorem inputs_error {byot : Bool} {s t : List (String × Datum)} {e : Err} : ∀ {is : List Info} {i : Info},
    i ∈ is → getRecord byot s t i = .error e → ∃ e', inputs byot s t is = .error e'
  | j :: is, i, hi, h => by
    rw [inputs]
    generalize hq : getRecord byot s t j = q
    cases q with
    | error e' => exact ⟨e', rfl⟩
    | ok a =>
      rcases List.mem_cons.1 hi with h2 | h2
      · subst h2
        rw [h] at hq
        cases hq
      · obtain ⟨e', he⟩ := inputs_error h2 h
        exact ⟨e', by dsimp only; rw [he]⟩

theorem losses_ok {byot : Bool} {s t : List (String × Datum)} : ∀ {cfg : List (String × List Info)}
    {ls : List (String × Bool)}, distillLosses byot s t cfg = .ok ls →
    List.Forall₂ (fun c l => l.1 = c.1 ∧ ∃ ds, inputs byot s t c.2 = .ok ds ∧ l.2 = ds.any (·.grad)) cfg ls
  | [], ls, h => by
    simp only [distillLosses, Except.ok.injEq] at h
    subst h
    exact .nil
  | c :: cs, ls, h => by
    rw [distillLosses] at h
    generalize hq : inputs byot s t c.2 = q at h
    cases q with
    | error e => simp at h
    | ok ds =>
      dsimp only at h
      generalize hr : distillLosses byot s t cs = r at h
      cases r with
      | error e => simp at h
      | ok ls' =>
        simp only [Except.ok.injEq] at h
        subst h
        exact .cons ⟨rfl, ds, hq, rfl⟩ (losses_ok hr)

theorem losses_all {byot : Bool} {s t : List (String × Datum)} : ∀ {cfg : List (String × List Info)},
    (∀ c ∈ cfg, ∀ i ∈ c.2, ∃ d, getRecord byot s t i = .ok d) → ∃ ls, distillLosses byot s t cfg = .ok ls
  | [], _ => ⟨[], rfl⟩
  | c :: cs, h => by
    obtain ⟨ds, hds⟩ := inputs_all (h c (by simp))
    obtain ⟨ls, hls⟩ := losses_all (cfg := cs) fun d hd => h d (List.mem_cons_of_mem _ hd)
    exact ⟨_, by rw [distillLosses, hds]; dsimp only; rw [hls]⟩

theorem losses_error {byot : Bool} {s t : List (String × Datum)} {e : Err} : ∀ {cfg : List (String × List Info)}
    {c : String × List Info} {i : Info}, c ∈ cfg → i ∈ c.2 → getRecord byot s t i = .error e →
    ∃ e', distillLosses byot s t cfg = .error e'
  | b :: cs, c, i, hc, hi, h => by
    rw [distillLosses]
    generalize hq : inputs byot s t b.2 = q
    cases q with
    | error e' => exact ⟨e', rfl⟩
    | ok a =>
      rcases List.mem_cons.1 hc with h2 | h2
      · subst h2
        obtain ⟨e', he⟩ := inputs_error hi h
        rw [he] at hq
        cases hq
      · obtain ⟨e', he⟩ := losses_error h2 hi h
        exact ⟨e', by dsimp only; rw [he]⟩

theorem names_of {byot : Bool} {s t : List (String × Datum)} {cfg : List (String × List Info)}
    {ls : List (String × Bool)} (h : distillLosses byot s t cfg = .ok ls) : ls.map (·.1) = cfg.map (·.1) := by
  have := losses_ok h
  clear h
  induction this with
  | nil => rfl
  | cons h1 _ ih => simp [h1.1, ih]

theorem prefix_names (p : String) (ls : List (String × Bool)) :
    (addPrefix p ls).map (·.1) = (ls.map (·.1)).map fun n => p ++ "." ++ n := by
  simp [addPrefix]

theorem task_names (s : Run) : (taskLosses s).map (·.1) = s.losses.map ("student." ++ ·) := by
  unfold taskLosses
  rw [prefix_names, List.map_map, List.map_map]
  rfl

/-- With overriding deliveries that hold nothing, any call raises. -/
theorem runCalls_empty (m : Dels) (hm : Empty m) (ho : ∀ i, (m i).override = true) : ∀ calls : List Nat,
    Empty (runCalls m calls).1 ∧ (calls ≠ [] → (runCalls m calls).2 = .error .assertion)
  | [] => ⟨hm, by simp⟩
  | i :: is => by
    have hc : (m i).call (.ok ()) = (m i, ⟨.error .assertion, false⟩) := by
      unfold Delivery.Delivery.call
      rw [if_pos (ho i), hm i]
    rw [runCalls, hc]
    dsimp only
    refine ⟨fun j => ?_, fun _ => rfl⟩
    by_cases e : j = i
    · simp only [e, if_true]
      exact hm i
    · simp only [e, if_false]
      exact hm j

theorem empty_override {m : Dels} (h : Empty m) (b : Bool) : Empty (setOverride m b) := h

/-- Recording calls: the queues grow by the calls. -/
theorem runCalls_record (m : Dels) (ho : ∀ i, (m i).override = false) (calls : List Nat)
    (h : ∀ i, (m i).queue.length + calls.count i ≤ (m i).max) :
    (runCalls m calls).2 = .ok () ∧ ∀ i, ((runCalls m calls).1 i).queue.length = (m i).queue.length + calls.count i ∧
      ((runCalls m calls).1 i).max = (m i).max ∧ ((runCalls m calls).1 i).override = false := by
  induction calls generalizing m with
  | nil => exact ⟨rfl, fun i => ⟨by simp [runCalls], rfl, ho i⟩⟩
  | cons j js ih =>
    have hj := h j
    rw [List.count_cons_self] at hj
    have hc : (m j).call (.ok ()) = ({ m j with queue := (m j).queue ++ [()] }, ⟨.ok (), true⟩) := by
      unfold Delivery.Delivery.call
      rw [if_neg (by rw [ho j]; simp), if_pos (by omega)]
    rw [runCalls, hc]
    dsimp only
    have key := ih (fun i => if i = j then { m j with queue := (m j).queue ++ [()] } else m i)
      (fun i => by
        by_cases e : i = j
        · simp only [e, if_true]
          exact ho j
        · simp only [e, if_false]
          exact ho i)
      (fun i => by
        by_cases e : i = j
        · subst e
          simp only [if_true, List.length_append, List.length_singleton]
          omega
        · simp only [e, if_false]
          have := h i
          rw [List.count_cons_of_ne (Ne.symm e)] at this
          exact this)
    refine ⟨key.1, fun i => ?_⟩
    obtain ⟨k1, k2, k3⟩ := key.2 i
    refine ⟨?_, ?_, k3⟩
    · rw [k1]
      by_cases e : i = j
      · subst e
        simp only [if_true, List.length_append, List.length_singleton, List.count_cons_self]
        omega
      · simp only [e, if_false]
        rw [List.count_cons_of_ne (Ne.symm e)]
    · rw [k2]
      by_cases e : i = j
      · subst e
        simp
      · simp [e]

/-- Overriding calls: the queues shrink by the calls. -/
theorem runCalls_replay (m : Dels) (ho : ∀ i, (m i).override = true) (calls : List Nat)
    (h : ∀ i, calls.count i ≤ (m i).queue.length) :
    (runCalls m calls).2 = .ok () ∧ ∀ i, ((runCalls m calls).1 i).queue.length + calls.count i = (m i).queue.length ∧
      ((runCalls m calls).1 i).max = (m i).max := by
  induction calls generalizing m with
  | nil => exact ⟨rfl, fun i => ⟨by simp [runCalls], rfl⟩⟩
  | cons j js ih =>
    have hj := h j
    rw [List.count_cons_self] at hj
    obtain ⟨v, q, hq⟩ : ∃ v q, (m j).queue = v :: q := by
      cases hq : (m j).queue with
      | nil => rw [hq] at hj; simp at hj
      | cons v q => exact ⟨v, q, rfl⟩
    have hc : (m j).call (.ok ()) = ({ m j with queue := q }, ⟨.ok v, false⟩) := by
      unfold Delivery.Delivery.call
      rw [if_pos (ho j), hq]
    rw [hq, List.length_cons] at hj
    rw [runCalls, hc]
    dsimp only
    have key := ih (fun i => if i = j then { m j with queue := q } else m i)
      (fun i => by
        by_cases e : i = j
        · simp only [e, if_true]
          exact ho j
        · simp only [e, if_false]
          exact ho i)
      (fun i => by
        by_cases e : i = j
        · subst e
          simp only [if_true]
          omega
        · simp only [e, if_false]
          have := h i
          rw [List.count_cons_of_ne (Ne.symm e)] at this
          exact this)
    refine ⟨key.1, fun i => ?_⟩
    obtain ⟨k1, k2⟩ := key.2 i
    refine ⟨?_, ?_⟩
    · by_cases e : i = j
      · subst e
        simp only [if_true] at k1
        rw [List.count_cons_self, hq, List.length_cons]
        omega
      · simp only [e, if_false] at k1
        rw [List.count_cons_of_ne (Ne.symm e)]
        exact k1
    · rw [k2]
      by_cases e : i = j
      · subst e
        simp
      · simp [e]

/-- A call for which nothing was recorded raises. -/
theorem runCalls_missing (m : Dels) (ho : ∀ i, (m i).override = true) (j : Nat) (hj : (m j).queue = []) :
    ∀ calls : List Nat, j ∈ calls → (runCalls m calls).2 = .error .assertion
  | i :: is, h => by
    rw [runCalls]
    cases hq : (m i).queue with
    | nil =>
      have hc : (m i).call (.ok ()) = (m i, ⟨.error .assertion, false⟩) := by
        unfold Delivery.Delivery.call
        rw [if_pos (ho i), hq]
      rw [hc]
    | cons v q =>
      have hc : (m i).call (.ok ()) = ({ m i with queue := q }, ⟨.ok v, false⟩) := by
        unfold Delivery.Delivery.call
        rw [if_pos (ho i), hq]
      rw [hc]
      dsimp only
      have hne : j ≠ i := fun e => by rw [← e, hj] at hq; cases hq
      refine runCalls_missing _ (fun k => ?_) j ?_ is ?_
      · by_cases e : k = i
        · simp only [e, if_true]
          exact ho i
        · simp only [e, if_false]
          exact ho k
      · simp only [hne, if_false]
        exact hj
      · rcases List.mem_cons.1 h with h2 | h2
        · exact absurd h2 hne
        · exact h2

/-- A recording pass leaves the other deliveries alone. -/
theorem runCalls_other (m : Dels) (j : Nat) : ∀ calls : List Nat, j ∉ calls → (runCalls m calls).1 j = m j
  | [], _ => rfl
  | i :: is, h => by
    rw [runCalls]
    have hne : j ≠ i := fun e => h (by simp [e])
    generalize ((m i).call (.ok ())).2.result = q
    cases q with
    | error e => simp [hne]
    | ok _ =>
      dsimp only
      rw [runCalls_other _ j is (fun h2 => h (List.mem_cons_of_mem _ h2))]
      simp [hne]

theorem noGrad_mem {l : List (String × Datum)} {n : String} {d : Datum} (h : (n, d) ∈ noGrad l) : d.grad = false := by
  unfold noGrad at h
  obtain ⟨x, _, hx⟩ := List.mem_map.1 h
  cases hx
  rfl

theorem noGrad_names (l : List (String × Datum)) : (noGrad l).map (·.1) = l.map (·.1) := by
  simp [noGrad]

theorem noGrad_single {l : List (String × Datum)} {n : String} {d : Datum} (h : (n, d) ∈ noGrad l) :
    ∃ d', (n, d') ∈ l ∧ d'.single = d.single := by
  unfold noGrad at h
  obtain ⟨x, hm, hx⟩ := List.mem_map.1 h
  cases hx
  exact ⟨x.2, hm, rfl⟩

theorem made_noGrad {l : List (String × Datum)} {n : String} : Made (noGrad l) n ↔ Made l n := by
  constructor
  · rintro ⟨d, h⟩
    obtain ⟨d', h', _⟩ := noGrad_single h
    exact ⟨d', h'⟩
  · rintro ⟨d, h⟩
    exact ⟨{ d with grad := false }, List.mem_map.2 ⟨(n, d), h, rfl⟩⟩

theorem getRecord_ok {byot : Bool} {s t : List (String × Datum)} {i : Info}
    (h : Made (if i.fromStudent then s else t) i.recorder)
    (hs : byot = true → i.fromStudent = false → ∀ d, (i.recorder, d) ∈ t → d.single = true) :
    ∃ d, getRecord byot s t i = .ok d := by
  unfold getRecord
  cases hl : (if i.fromStudent then s else t).lookup i.recorder with
  | none =>
    obtain ⟨d, hd⟩ := h
    exact absurd hd (lookup_none hl d)
  | some d =>
    dsimp only
    by_cases hb : (byot && !i.fromStudent) = true
    · rw [if_pos hb]
      rw [Bool.and_eq_true, Bool.not_eq_true'] at hb
      have hm := lookup_some hl
      rw [hb.2] at hm
      rw [if_pos (hs hb.1 hb.2 d (by simpa using hm))]
      exact ⟨_, rfl⟩
    · rw [if_neg hb]
      exact ⟨_, rfl⟩

/-- When the record of an input carries a gradient. -/
theorem getRecord_grad {byot : Bool} {s t : List (String × Datum)} (hs : (s.map (·.1)).Nodup) (ht : (t.map (·.1)).Nodup)
    {i : Info} {d : Datum} (h : getRecord byot s t i = .ok d) :
    d.grad = true ↔ Flows (if i.fromStudent then s else t) i.recorder ∧ (byot = true → i.fromStudent = true) := by
  unfold getRecord at h
  have hn : ((if i.fromStudent then s else t).map (·.1)).Nodup := by
    cases i.fromStudent
    · exact ht
    · exact hs
  generalize (if i.fromStudent then s else t) = l at h hn
  generalize hl : l.lookup i.recorder = q at h
  cases q with
  | none => simp at h
  | some a =>
    dsimp only at h
    have hf : Flows l i.recorder ↔ a.grad = true := by
      constructor
      · rintro ⟨b, hb, hg⟩
        have := lookup_mem hn hb
        rw [hl, Option.some.injEq] at this
        rw [this]
        exact hg
      · exact fun hg => ⟨a, lookup_some hl, hg⟩
    rw [hf]
    cases byot <;> cases hfs : i.fromStudent <;> rw [hfs] at h
    · cases h
      simp
    · cases h
      simp
    · by_cases hsg : a.single = true
      · simp [hsg] at h
        rw [← h]
        simp
      · simp [hsg] at h
    · cases h
      simp

theorem self_records_nodup (o : SelfOpts) {s : Run} (h : Once s) : ((selfRecords o s).map (·.1)).Nodup := by
  unfold selfRecords
  by_cases hc : o.calculate = true
  · rw [if_pos hc]; exact h
  · rw [if_neg hc]
    by_cases ht : o.trainable = true
    · rw [if_pos ht]; exact h
    · rw [if_neg ht, noGrad_names]; exact h

theorem self_made (o : SelfOpts) (s : Run) (n : String) : Made (selfRecords o s) n ↔ Made s.records n := by
  unfold selfRecords
  by_cases hc : o.calculate = true
  · rw [if_pos hc]
  · rw [if_neg hc]
    by_cases ht : o.trainable = true
    · rw [if_pos ht]
    · rw [if_neg ht, made_noGrad]

theorem self_flows (o : SelfOpts) (s : Run) (n : String) :
    Flows (selfRecords o s) n ↔ Flows s.records n ∧ (o.calculate = true ∨ o.trainable = true) := by
  unfold selfRecords
  by_cases hc : o.calculate = true
  · rw [if_pos hc]; simp [hc]
  · rw [if_neg hc]
    by_cases ht : o.trainable = true
    · rw [if_pos ht]; simp [ht]
    · rw [if_neg ht]
      constructor
      · rintro ⟨d, hd, hg⟩
        rw [noGrad_mem hd] at hg
        cases hg
      · rintro ⟨_, h | h⟩
        · exact absurd h hc
        · exact absurd h ht

theorem self_single {o : SelfOpts} {s : Run} {n : String} {d : Datum} (h : (n, d) ∈ selfRecords o s) :
    ∃ d', (n, d') ∈ s.records ∧ d'.single = d.single := by
  unfold selfRecords at h
  by_cases hc : o.calculate = true
  · rw [if_pos hc] at h; exact ⟨d, h, rfl⟩
  · rw [if_neg hc] at h
    by_cases ht : o.trainable = true
    · rw [if_pos ht] at h; exact ⟨d, h, rfl⟩
    · rw [if_neg ht] at h; exact noGrad_single h

theorem selfLoss_nocalls (o : SelfOpts) (cfg : List (String × List Info)) (m : Dels) (s : Run) (h : s.calls = []) :
    (selfLoss o cfg m s).2 = (match distillLosses o.byot (selfRecords o s) (selfRecords o s) cfg with
      | .error e => .error e
      | .ok ds => .ok ((if o.calculate then taskLosses s else []) ++ addPrefix "distill" ds)) := by
  unfold selfLoss
  rw [h]
  dsimp only [runCalls]
  cases distillLosses o.byot (selfRecords o s) (selfRecords o s) cfg <;> rfl

end Verif.DistillAlgos
