import Verif.Lemmas.DistillAlgos

namespace Verif.DistillAlgos
open Verif

/-! ## Property C93 -/

/-- A step of self distillation without delivered functions, when the pass left every
record the losses ask for (and, with `BYOTDistiller`, single tensors for the self
teacher): the task losses are reported exactly when they are asked for, every
distillation loss is reported once, in the order of the configuration. -/
theorem C93_self (o : SelfOpts) (cfg : List (String × List Info)) (m : Dels) (s : Run) (hc : s.calls = [])
    (hm : ∀ c ∈ cfg, ∀ i ∈ c.2, Made s.records i.recorder)
    (hs : o.byot = true → ∀ c ∈ cfg, ∀ i ∈ c.2, i.fromStudent = false → ∀ d, (i.recorder, d) ∈ s.records → d.single = true) :
    ∃ ls, (selfLoss o cfg m s).2 = .ok ls ∧ ls.map (·.1) = reported o.calculate s cfg := by
  obtain ⟨ds, hds⟩ := losses_all (byot := o.byot) (s := selfRecords o s) (t := selfRecords o s) (cfg := cfg)
    fun c hcc i hi => getRecord_ok (by rw [ite_self]; exact (self_made o s _).2 (hm c hcc i hi))
      fun hb hf d hd => by
        obtain ⟨d', h1, h2⟩ := self_single hd
        rw [← h2]
        exact hs hb c hcc i hi hf d' h1
  refine ⟨_, by rw [selfLoss_nocalls o cfg m s hc, hds], ?_⟩
  rw [List.map_append, prefix_names, names_of hds, List.map_map]
  unfold reported
  congr 1
  cases o.calculate
  · rfl
  · exact task_names s

/-- Which losses train the student in a step of self distillation: the task losses, and
a distillation loss exactly when one of its inputs carries a gradient of the pass and the
pass ran with gradients; with `BYOTDistiller` only the inputs taken from the student
count. -/
theorem C93_self_gradient (o : SelfOpts) (cfg : List (String × List Info)) (m : Dels) (s : Run) (ho : Once s) (hc : s.calls = [])
    (ls : List (String × Bool)) (h : (selfLoss o cfg m s).2 = .ok ls) :
    ∃ ds, ls = (if o.calculate then s.losses.map fun l => ("student." ++ l, true) else []) ++ ds ∧
    List.Forall₂ (fun c l => l.1 = "distill." ++ c.1 ∧ (l.2 = true ↔ (o.calculate = true ∨ o.trainable = true) ∧
      ∃ i ∈ c.2, Flows s.records i.recorder ∧ (o.byot = true → i.fromStudent = true))) cfg ds := by
  rw [selfLoss_nocalls o cfg m s hc] at h
  generalize hq : distillLosses o.byot (selfRecords o s) (selfRecords o s) cfg = q at h
  cases q with
  | error e => simp at h
  | ok ds =>
    simp only [Except.ok.injEq] at h
    refine ⟨addPrefix "distill" ds, ?_, ?_⟩
    · rw [← h]
      congr 1
      cases o.calculate
      · rfl
      · simp only [if_true, taskLosses, addPrefix, List.map_map]
        rfl
    · have key := losses_ok hq
      clear h hq
      induction key with
      | nil => exact .nil
      | @cons c l cs ls' h1 _ ih =>
        refine .cons ⟨by rw [← h1.1]; rfl, ?_⟩ ih
        obtain ⟨_, xs, hx, hl⟩ := h1
        dsimp only
        rw [hl, List.any_eq_true]
        have hn := self_records_nodup o ho
        constructor
        · rintro ⟨d, hd, hg⟩
          obtain ⟨i, hi, hr⟩ := (inputs_ok hx d).1 hd
          have := (getRecord_grad hn hn hr).1 hg
          rw [ite_self, self_flows] at this
          exact ⟨this.1.2, i, hi, this.1.1, this.2⟩
        · rintro ⟨hg, i, hi, hf, hb⟩
          have hmade : ∃ d, getRecord o.byot (selfRecords o s) (selfRecords o s) i = .ok d := by
            generalize hr : getRecord o.byot (selfRecords o s) (selfRecords o s) i = r
            cases r with
            | ok d => exact ⟨d, rfl⟩
            | error e =>
              obtain ⟨e', he⟩ := inputs_error hi hr
              rw [he] at hx
              cases hx
          obtain ⟨d, hd⟩ := hmade
          refine ⟨d, (inputs_ok hx d).2 ⟨i, hi, hd⟩, ?_⟩
          rw [getRecord_grad hn hn hd, ite_self, self_flows]
          exact ⟨⟨hf, hg⟩, hb⟩

example : (selfLoss ⟨true, true, true⟩ demoCfg fresh demoRun).2.toOption =
    some [("student.loss_cls", true), ("distill.loss_kl", true), ("distill.loss_aux", false)] := by decide +kernel

/-- DISAGREEMENT: `SelfDistill` says that the recorders of the self teacher "require
detach()", but only `BYOTDistiller` detaches. With the default distiller a loss whose
inputs all come from the self teacher pulls the teacher side towards the student: its
gradient is that of the records themselves. -/
theorem C93_self_teacher_violated (o : SelfOpts) (hb : o.byot = false) (ht : o.calculate = true ∨ o.trainable = true) (name r : String)
    (m : Dels) (s : Run) (ho : Once s) (hc : s.calls = []) (hf : Flows s.records r) :
    ∃ ls, (selfLoss o [(name, [⟨false, r⟩])] m s).2 = .ok ls ∧ ("distill." ++ name, true) ∈ ls := by
  obtain ⟨d, hd, hg⟩ := hf
  obtain ⟨ls, hls, _⟩ := C93_self o [(name, [⟨false, r⟩])] m s hc
    (by simp only [List.mem_singleton, forall_eq]; exact ⟨d, hd⟩) (by rw [hb]; simp)
  refine ⟨ls, hls, ?_⟩
  obtain ⟨ds, rfl, h2⟩ := C93_self_gradient o _ m s ho hc ls hls
  cases h2 with
  | @cons _ l _ ls' h1 h2 =>
    cases h2
    have : l.2 = true := h1.2.2 ⟨ht, ⟨false, r⟩, by simp, ⟨d, hd, hg⟩, by rw [hb]; simp⟩
    rw [List.mem_append]
    right
    obtain ⟨a, b⟩ := l
    simp only at h1 this
    rw [h1.1, this]
    simp

example : (selfLoss ⟨false, true, true⟩ demoCfg fresh demoRun).2.toOption =
    some [("student.loss_cls", true), ("distill.loss_kl", true), ("distill.loss_aux", true)] := by decide +kernel

/-- With `BYOTDistiller` no gradient reaches the self teacher: a loss without inputs of
the student trains nothing. -/
theorem C93_self_detached (o : SelfOpts) (hb : o.byot = true) (cfg : List (String × List Info)) (m : Dels) (s : Run) (ho : Once s)
    (hc : s.calls = []) (ls : List (String × Bool)) (h : (selfLoss o cfg m s).2 = .ok ls) (c : String × List Info) (hcc : c ∈ cfg)
    (ht : ∀ i ∈ c.2, i.fromStudent = false) : ("distill." ++ c.1, false) ∈ ls := by
  obtain ⟨ds, rfl, h2⟩ := C93_self_gradient o cfg m s ho hc ls h
  rw [List.mem_append]
  right
  clear h
  induction h2 with
  | nil => simp at hcc
  | @cons b l cs ls' h1 _ ih =>
    rcases List.mem_cons.1 hcc with h3 | h3
    · subst h3
      have : l.2 = false := by
        rw [Bool.eq_false_iff]
        intro hl
        obtain ⟨_, i, hi, _, hfs⟩ := h1.2.1 hl
        rw [ht i hi] at hfs
        exact absurd (hfs hb) (by simp)
      obtain ⟨a, b⟩ := l
      simp only at h1 this
      rw [h1.1, this]
      simp
    · exact List.mem_cons_of_mem _ (ih h3)

example : demoCfg.length = 2 ∧ Once demoRun := by
  unfold Once; decide +kernel

/-- DISAGREEMENT: `student_trainable=False` ("whether the student is trainable") has no
effect on `SelfDistill` as long as the task losses are calculated, the default: the step
is the same, and the task losses train the student. -/
theorem C93_self_frozen_violated (byot : Bool) (cfg : List (String × List Info)) (m : Dels) (s : Run) :
    (selfLoss ⟨byot, true, false⟩ cfg m s).2 = (selfLoss ⟨byot, true, true⟩ cfg m s).2 ∧
    ∀ ls, (selfLoss ⟨byot, true, false⟩ cfg m s).2 = .ok ls → ∀ l ∈ s.losses, ("student." ++ l, true) ∈ ls := by
  refine ⟨rfl, ?_⟩
  intro ls h l hl
  unfold selfLoss at h
  dsimp only at h
  generalize (runCalls (setOverride m true) s.calls).2 = q at h
  cases q with
  | error e => simp at h
  | ok _ =>
    dsimp only at h
    generalize distillLosses byot (selfRecords ⟨byot, true, false⟩ s) (selfRecords ⟨byot, true, false⟩ s) cfg = r at h
    cases r with
    | error e => simp at h
    | ok ds =>
      simp only [if_true, Except.ok.injEq] at h
      rw [← h, List.mem_append]
      left
      unfold taskLosses addPrefix
      rw [List.map_map]
      exact List.mem_map.2 ⟨l, hl, rfl⟩

/-- Without the task losses a student that is not trainable is not trained by any loss. Missing: training with the task losses,
see `C93_self_frozen_violated`. -/
theorem C93_self_frozen_partial (byot : Bool) (cfg : List (String × List Info)) (m : Dels) (s : Run) (ho : Once s) (hc : s.calls = [])
    (ls : List (String × Bool)) (h : (selfLoss ⟨byot, false, false⟩ cfg m s).2 = .ok ls) : ∀ l ∈ ls, l.2 = false := by
  obtain ⟨ds, he, h2⟩ := C93_self_gradient ⟨byot, false, false⟩ cfg m s ho hc ls h
  rw [if_neg (by simp), List.nil_append] at he
  subst he
  clear h
  induction h2 with
  | nil => simp
  | @cons b l cs ls' h1 _ ih =>
    intro x hx
    rcases List.mem_cons.1 hx with h3 | h3
    · subst h3
      rw [Bool.eq_false_iff]
      intro hl
      have := (h1.2.1 hl).1
      simp at this
    · exact ih x h3

example : (selfLoss ⟨false, false, false⟩ demoCfg fresh demoRun).2.toOption =
    some [("distill.loss_kl", false), ("distill.loss_aux", false)] := by decide +kernel

/-- DISAGREEMENT: `SelfDistill` accepts deliveries but never records for them: in every
history of steps, every step whose pass calls a delivered function ends with an assertion
error. -/
theorem C93_self_delivery_fails (o : SelfOpts) (cfg : List (String × List Info)) (m : Dels) (hm : Empty m) (ss : List Run) :
    (selfTrain o cfg m ss).length = ss.length ∧
    ∀ x ∈ (selfTrain o cfg m ss).zip ss, x.2.calls ≠ [] → x.1 = .error .assertion := by
  induction ss generalizing m with
  | nil => exact ⟨rfl, by simp [selfTrain]⟩
  | cons s ss ih =>
    have hr := runCalls_empty (setOverride m true) (empty_override hm true) (fun _ => rfl) s.calls
    have h1 : Empty (selfLoss o cfg m s).1 := by
      unfold selfLoss
      dsimp only
      generalize (runCalls (setOverride m true) s.calls).2 = q
      cases q with
      | error e => exact hr.1
      | ok _ =>
        dsimp only
        generalize distillLosses o.byot (selfRecords o s) (selfRecords o s) cfg = r
        cases r with
        | error e => exact hr.1
        | ok _ => exact hr.1
    have h2 := ih _ h1
    rw [selfTrain]
    refine ⟨by rw [List.length_cons, List.length_cons, h2.1], ?_⟩
    rw [List.zip_cons_cons]
    intro x hx hcx
    rcases List.mem_cons.1 hx with h3 | h3
    · subst h3
      dsimp only at hcx ⊢
      unfold selfLoss
      dsimp only
      rw [hr.2 hcx]
    · exact h2.2 x h3 hcx

example : (selfTrain ⟨true, true, true⟩ demoCfg fresh [demoRun, { demoRun with calls := [0] }]).map (·.toOption.isSome) =
    [true, false] := by decide +kernel

/-- DISAGREEMENT: `BYOTDistiller` detaches records that may be tuples (a layer returning
several features): such an input of the self teacher ends every step with an error. -/
theorem C93_byot_tuple_fails (o : SelfOpts) (hb : o.byot = true) (cfg : List (String × List Info)) (m : Dels) (s : Run)
    (c : String × List Info) (hc : c ∈ cfg) (i : Info) (hi : i ∈ c.2) (ht : i.fromStudent = false)
    (hd : ∀ d, (i.recorder, d) ∈ s.records → d.single = false) : ∃ e, (selfLoss o cfg m s).2 = .error e := by
  have hg : ∃ e, getRecord o.byot (selfRecords o s) (selfRecords o s) i = .error e := by
    unfold getRecord
    rw [ite_self]
    cases hl : (selfRecords o s).lookup i.recorder with
    | none => exact ⟨_, rfl⟩
    | some d =>
      dsimp only
      obtain ⟨d', h1, h2⟩ := self_single (lookup_some hl)
      rw [if_pos (by rw [hb, ht]; rfl), if_neg (by rw [← h2, hd d' h1]; simp)]
      exact ⟨_, rfl⟩
  obtain ⟨e, he⟩ := hg
  obtain ⟨e', he'⟩ := losses_error hc hi he
  unfold selfLoss
  dsimp only
  rw [he']
  generalize (runCalls (setOverride m true) s.calls).2 = q
  cases q with
  | error e => exact ⟨e, rfl⟩
  | ok _ => exact ⟨e', rfl⟩

example : getRecord true [] [("deep", ⟨2, false, true⟩)] ⟨false, "deep"⟩ = .error .attribute := by rfl

/-- A step with a feature teacher, when each delivered function is called as often by the
features of the teacher as by the student and the queues suffice: the task losses and,
until distillation is stopped, every distillation loss; the deliveries are empty again,
so that the same holds in every history of such steps. -/
theorem C93_fpn (o : FpnOpts) (cfg : List (String × List Info)) (m : Dels) (hm : Empty m) (xs : List (Run × Run))
    (h : ∀ x ∈ xs, (∀ i, x.1.calls.count i = x.2.calls.count i ∧ x.1.calls.count i ≤ (m i).max) ∧
      ∀ c ∈ cfg, ∀ i ∈ c.2, Made (if i.fromStudent then x.2.records else x.1.records) i.recorder) :
    List.Forall₂ (fun x r => ∃ ls, r = .ok ls ∧ ls.map (·.1) = reported true x.2 (if o.stopped then [] else cfg)) xs
      (fpnTrain o cfg m xs) := by
  induction xs generalizing m with
  | nil => exact .nil
  | cons x xs ih =>
    obtain ⟨hcalls, hmade⟩ := h x (by simp)
    have h1 := runCalls_record (setOverride m false) (fun _ => rfl) x.1.calls (fun i => by
      have := (hcalls i).2
      have e : ((setOverride m false) i).queue.length = 0 := by
        show (m i).queue.length = 0
        rw [hm i]; rfl
      rw [e]
      show 0 + _ ≤ (m i).max
      omega)
    have h2 := runCalls_replay (setOverride (runCalls (setOverride m false) x.1.calls).1 true) (fun _ => rfl) x.2.calls (fun i => by
      have := (h1.2 i).1
      have e := (hcalls i).1
      show _ ≤ ((runCalls (setOverride m false) x.1.calls).1 i).queue.length
      omega)
    obtain ⟨ds, hds⟩ := losses_all (byot := false) (s := x.2.records)
      (t := if o.teacherTrainable then x.1.records else noGrad x.1.records) (cfg := cfg)
      fun c hcc i hi => getRecord_ok (by
        have := hmade c hcc i hi
        cases hf : i.fromStudent <;> rw [hf] at this
        · cases o.teacherTrainable
          · exact made_noGrad.2 this
          · exact this
        · exact this) (by simp)
    have hstate : (fpnLoss o cfg m x.1 x.2).1 =
        (runCalls (setOverride (runCalls (setOverride m false) x.1.calls).1 true) x.2.calls).1 := by
      unfold fpnLoss
      dsimp only
      rw [h1.1]
      dsimp only
      rw [h2.1]
      dsimp only
      rw [hds]
      cases o.stopped <;> rfl
    have hout : (fpnLoss o cfg m x.1 x.2).2 =
        .ok (taskLosses x.2 ++ if o.stopped then [] else addPrefix "distill" ds) := by
      unfold fpnLoss
      dsimp only
      rw [h1.1]
      dsimp only
      rw [h2.1]
      dsimp only
      rw [hds]
      cases o.stopped
      · rfl
      · simp
    have hq : ∀ i, (((fpnLoss o cfg m x.1 x.2).1) i).queue = [] ∧ (((fpnLoss o cfg m x.1 x.2).1) i).max = (m i).max := by
      intro i
      rw [hstate]
      have a := (h1.2 i).1
      have b := (h2.2 i).1
      have e := (hcalls i).1
      have z : ((setOverride m false) i).queue.length = 0 := by
        show (m i).queue.length = 0
        rw [hm i]; rfl
      have b' : ((runCalls (setOverride (runCalls (setOverride m false) x.1.calls).1 true) x.2.calls).1 i).queue.length +
        x.2.calls.count i = ((runCalls (setOverride m false) x.1.calls).1 i).queue.length := b
      refine ⟨List.length_eq_zero_iff.1 (by omega), ?_⟩
      rw [(h2.2 i).2]
      show ((runCalls (setOverride m false) x.1.calls).1 i).max = _
      rw [(h1.2 i).2.1]
      rfl
    rw [fpnTrain]
    refine .cons ⟨_, hout, ?_⟩ (ih _ (fun i => (hq i).1) fun y hy => ?_)
    · rw [List.map_append, task_names]
      unfold reported
      congr 1
      cases o.stopped
      · simp only [Bool.false_eq_true, if_false]
        rw [prefix_names, names_of hds, List.map_map]
        rfl
      · rfl
    · obtain ⟨a, b⟩ := h y (List.mem_cons_of_mem _ hy)
      exact ⟨fun i => ⟨(a i).1, by rw [(hq i).2]; exact (a i).2⟩, b⟩

example : (fpnTrain ⟨false, true, true, false⟩ [("loss_fpn", [⟨true, "shallow"⟩, ⟨false, "deep"⟩])] fresh
    [({ demoRun with calls := [0] }, { demoRun with calls := [0] }), (demoRun, demoRun)]).map (·.toOption) =
    [some [("student.loss_cls", true), ("distill.loss_fpn", true)], some [("student.loss_cls", true), ("distill.loss_fpn", true)]] := by
  decide +kernel

/-- Which distillation losses of a step with a feature teacher train anything: those
with an input that carries a gradient, the records of the teacher only when it is
trainable. -/
theorem C93_fpn_gradient (o : FpnOpts) (hst : o.stopped = false) (cfg : List (String × List Info)) (m : Dels) (t s : Run) (ht : Once t)
    (hs : Once s) (ls : List (String × Bool)) (h : (fpnLoss o cfg m t s).2 = .ok ls) :
    ∃ ds, ls = (s.losses.map fun l => ("student." ++ l, true)) ++ ds ∧
    List.Forall₂ (fun c l => l.1 = "distill." ++ c.1 ∧ (l.2 = true ↔ ∃ i ∈ c.2,
      if i.fromStudent then Flows s.records i.recorder else o.teacherTrainable = true ∧ Flows t.records i.recorder)) cfg ds := by
  unfold fpnLoss at h
  dsimp only at h
  generalize hr : runCalls (setOverride m false) t.calls = r at h
  obtain ⟨r1, r2⟩ := r
  cases r2 with
  | error e => simp at h
  | ok _ =>
    dsimp only at h
    generalize (runCalls (setOverride r1 true) s.calls).2 = q at h
    cases q with
    | error e => simp at h
    | ok _ =>
      dsimp only at h
      rw [hst, if_neg (by simp)] at h
      generalize hq : distillLosses false s.records (if o.teacherTrainable then t.records else noGrad t.records) cfg = q at h
      cases q with
      | error e => simp at h
      | ok ds =>
        simp only [Except.ok.injEq] at h
        refine ⟨addPrefix "distill" ds, ?_, ?_⟩
        · rw [← h]
          congr 1
          simp only [taskLosses, addPrefix, List.map_map]
          rfl
        · have key := losses_ok hq
          clear h hq
          have hn : ((if o.teacherTrainable then t.records else noGrad t.records).map (·.1)).Nodup := by
            cases o.teacherTrainable
            · simp only [Bool.false_eq_true, if_false]
              rw [noGrad_names]
              exact ht
            · exact ht
          have hfl : ∀ i : Info, (Flows (if i.fromStudent then s.records else if o.teacherTrainable then t.records else noGrad t.records)
              i.recorder ∧ (false = true → i.fromStudent = true)) ↔
              (if i.fromStudent then Flows s.records i.recorder else o.teacherTrainable = true ∧ Flows t.records i.recorder) := by
            intro i
            cases i.fromStudent
            · cases o.teacherTrainable
              · simp only [Bool.false_eq_true, if_false, false_and, iff_false]
                rintro ⟨⟨d, hd, hg⟩, _⟩
                rw [noGrad_mem hd] at hg
                cases hg
              · simp
            · simp
          induction key with
          | nil => exact .nil
          | @cons c l cs ls' h1 _ ih =>
            refine .cons ⟨by rw [← h1.1]; rfl, ?_⟩ ih
            obtain ⟨_, xs, hx, hl⟩ := h1
            dsimp only
            rw [hl, List.any_eq_true]
            constructor
            · rintro ⟨d, hd, hg⟩
              obtain ⟨i, hi, hrec⟩ := (inputs_ok hx d).1 hd
              exact ⟨i, hi, (hfl i).1 ((getRecord_grad hs hn hrec).1 hg)⟩
            · rintro ⟨i, hi, hf⟩
              have hmade : ∃ d, getRecord false s.records (if o.teacherTrainable then t.records else noGrad t.records) i = .ok d := by
                generalize hrr : getRecord false s.records (if o.teacherTrainable then t.records else noGrad t.records) i = r
                cases r with
                | ok d => exact ⟨d, rfl⟩
                | error e =>
                  obtain ⟨e', he⟩ := inputs_error hi hrr
                  rw [he] at hx
                  cases hx
              obtain ⟨d, hd⟩ := hmade
              exact ⟨d, (inputs_ok hx d).2 ⟨i, hi, hd⟩, (getRecord_grad hs hn hd).2 ((hfl i).2 hf)⟩

example : (fpnLoss ⟨false, true, true, false⟩ demoCfg fresh demoRun demoRun).2.toOption =
    some [("student.loss_cls", true), ("distill.loss_kl", true), ("distill.loss_aux", false)] := by decide +kernel

/-- DISAGREEMENT: `FpnTeacherDistill` takes the options `student_trainable` and
`calculate_student_loss` of `SingleTeacherDistill` and ignores both: whatever their
values, a step that succeeds reports all task losses, and they train the student. -/
theorem C93_fpn_options_violated (tt st ca st' ca' stopped : Bool) (cfg : List (String × List Info)) (m : Dels) (t s : Run) :
    fpnLoss ⟨tt, st, ca, stopped⟩ cfg m t s = fpnLoss ⟨tt, st', ca', stopped⟩ cfg m t s ∧
    ∀ ls, (fpnLoss ⟨tt, false, false, stopped⟩ cfg m t s).2 = .ok ls → ∀ l ∈ s.losses, ("student." ++ l, true) ∈ ls := by
  refine ⟨rfl, ?_⟩
  intro ls h l hl
  have hmem : ("student." ++ l, true) ∈ taskLosses s := by
    unfold taskLosses addPrefix
    rw [List.map_map]
    exact List.mem_map.2 ⟨l, hl, rfl⟩
  unfold fpnLoss at h
  dsimp only at h
  generalize runCalls (setOverride m false) t.calls = r at h
  obtain ⟨r1, r2⟩ := r
  cases r2 with
  | error e => simp at h
  | ok _ =>
    dsimp only at h
    generalize (runCalls (setOverride r1 true) s.calls).2 = q at h
    cases q with
    | error e => simp at h
    | ok _ =>
      dsimp only at h
      cases stopped
      · generalize distillLosses false s.records (if tt then t.records else noGrad t.records) cfg = q at h
        cases q with
        | error e => simp at h
        | ok ds =>
          simp only [Bool.false_eq_true, if_false, Except.ok.injEq] at h
          rw [← h, List.mem_append]
          exact Or.inl hmem
      · simp only [if_true, Except.ok.injEq] at h
        rw [← h]
        exact hmem

/-- DISAGREEMENT: the teacher of `FpnTeacherDistill` runs without its head, so a delivery
of a function of the head (label assignment, for example) is never filled: the step of a
student that calls it ends with an assertion error. -/
theorem C93_fpn_head_fails (o : FpnOpts) (cfg : List (String × List Info)) (m : Dels) (t s : Run) (j : Nat) (hj : (m j).queue = [])
    (ht : j ∉ t.calls) (hs : j ∈ s.calls) (hok : (runCalls (setOverride m false) t.calls).2 = .ok ()) :
    (fpnLoss o cfg m t s).2 = .error .assertion := by
  unfold fpnLoss
  dsimp only
  rw [hok]
  dsimp only
  rw [runCalls_missing (setOverride (runCalls (setOverride m false) t.calls).1 true) (fun _ => rfl) j (by
    show ((runCalls (setOverride m false) t.calls).1 j).queue = []
    rw [runCalls_other _ j _ ht]
    exact hj) s.calls hs]

example : (fpnLoss ⟨false, true, true, false⟩ [] fresh { demoRun with calls := [0] } { demoRun with calls := [0, 1] }).2.toOption = none ∧
    (runCalls (setOverride fresh false) [0]).2 = .ok () := by decide +kernel

/-- Nor is there a record of the head of the teacher: a loss asking for it ends every
step in which distillation is on with an error. -/
theorem C93_fpn_record_fails (o : FpnOpts) (ho : o.stopped = false) (cfg : List (String × List Info)) (m : Dels) (t s : Run)
    (c : String × List Info) (hc : c ∈ cfg) (i : Info) (hi : i ∈ c.2) (hf : i.fromStudent = false) (hn : ¬ Made t.records i.recorder) :
    ∃ e, (fpnLoss o cfg m t s).2 = .error e := by
  have hg : getRecord false s.records (if o.teacherTrainable then t.records else noGrad t.records) i = .error .assertion := by
    unfold getRecord
    rw [hf, if_neg (by simp)]
    have hn' : ¬ Made (if o.teacherTrainable then t.records else noGrad t.records) i.recorder := by
      cases o.teacherTrainable
      · exact fun h => hn (made_noGrad.1 h)
      · exact hn
    cases hl : (if o.teacherTrainable then t.records else noGrad t.records).lookup i.recorder with
    | none => rfl
    | some d => exact absurd ⟨d, lookup_some hl⟩ hn'
  obtain ⟨e', he'⟩ := losses_error hc hi hg
  unfold fpnLoss
  dsimp only
  rw [ho, he']
  generalize runCalls (setOverride m false) t.calls = r
  obtain ⟨r1, r2⟩ := r
  cases r2 with
  | error e => exact ⟨e, rfl⟩
  | ok _ =>
    dsimp only
    generalize (runCalls (setOverride r1 true) s.calls).2 = q
    cases q with
    | error e => exact ⟨e, rfl⟩
    | ok _ => exact ⟨e', rfl⟩

example : ¬ Made demoRun.records "head" := by
  rintro ⟨d, h⟩
  simp [demoRun] at h

end Verif.DistillAlgos
