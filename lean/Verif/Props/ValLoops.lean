import Verif.Lemmas.ValLoops

namespace Verif.ValLoops
open Verif Sandwich

variable {σ B R : Type}

/-! ### Theorems -/

/-- C73: a validation of a supernet reports, for the largest, the smallest and each random
subnet, the metrics over the whole dataset in evaluation mode, with the batch norm statistics of
that subnet and whatever was validated before, and its resources. Each has a name of its own.
The hooks are called around the batches and once around everything, and the evaluator is left
empty. -/
theorem C73_subnets (w : World σ B R) (hw : w.Regular) (hl : w.Leading) (n : Nat) (st : St σ R) (h0 : st.results = []) :
    let after := (subnetRun w false (some (kinds .autoslim n)) st).2
    let report : Dict := named "max_subnet" (update (w.quality w.maxNet (w.fresh w.maxNet)) (w.resources w.maxNet)) ++
      named "min_subnet" (update (w.quality w.minNet (w.fresh w.minNet)) (w.resources w.minNet)) ++
      (List.range n).flatMap fun i =>
        let s := w.sample (st.draws + i)
        (update (w.quality s (w.fresh s)) (w.resources s)).map fun x =>
          ("random".toList ++ Nat.toDigits 10 i ++ "_subnet".toList ++ '.' :: x.1, x.2)
    after.events = st.events ++ [.beforeVal, .beforeEpoch] ++ (List.replicate (n + 2) w.iters).flatten ++
      [.afterEpoch report, .afterVal] ∧
    (report.map (·.1)).Nodup ∧ after.results = [] ∧ after.draws = st.draws + n := by
  intro after report
  have a := after_kinds w hw hl ((st.call .beforeVal).call .beforeEpoch) h0 n
  obtain ⟨⟨a1, a2, a3⟩, a4, _⟩ := a
  have hd : ∀ s, ((w.measured s).map (·.1)).Nodup := fun s => update_keys _ _ (hw.metrics _)
  have hr := total_eq (kinds .autoslim n) (kinds_nodup .autoslim n) (w.byKind ((st.call .beforeVal).call .beforeEpoch).draws)
    (by intro k; cases k <;> first | exact hd _ | exact List.nodup_nil)
  have hrep : ((kinds .autoslim n).foldl (kindStep w) ([], (st.call .beforeVal).call .beforeEpoch)).1 = report := by
    rw [a1, hr]
    show List.flatMap _ (Kind.max :: Kind.min :: (List.range n).map .random) = _
    rw [List.flatMap_cons, List.flatMap_cons, List.flatMap_map, ← List.append_assoc]
    rfl
  refine ⟨?_, ?_, a2, a4⟩
  · show (((kinds .autoslim n).foldl (kindStep w) ([], (st.call .beforeVal).call .beforeEpoch)).2.events ++
      [.afterEpoch ((kinds .autoslim n).foldl (kindStep w) ([], (st.call .beforeVal).call .beforeEpoch)).1]) ++ [.afterVal] = _
    rw [a3, hrep]
    simp [St.call, kinds]
  · rw [← hrep, a1]
    have := update_keys (V := ℚ)
    unfold total
    generalize w.byKind _ = f
    have : ∀ (ks : List Kind) (d : Dict), (d.map (·.1)).Nodup →
        ((ks.foldl (fun d k => update d (addPrefix (f k) k.prefix)) d).map (·.1)).Nodup := by
      intro ks
      induction ks with
      | nil => intro d h; exact h
      | cons k ks ih => intro d h; exact ih _ (update_keys _ _ h)
    exact this _ _ (by simp)

/-- C73: after calibration a layer reads the statistics that were recorded for it, whatever was
stored before, exactly when its active channels are the first ones. -/
theorem C73_calibration (m : List Bool) :
    (∀ (w : World σ B R) (s : σ) (l : Nat) (old : Nat → Nat → ℚ), w.mask s l = some m →
      (w.recorded s l).length = m.count true → w.read s (w.calibrate s old) l = w.recorded s l) ↔ Leading m ∨ IsEmpty σ := by
  constructor
  · intro h
    by_cases hs : IsEmpty σ
    · exact .inr hs
    rw [not_isEmpty_iff] at hs
    obtain ⟨s⟩ := hs
    refine .inl (leading_of_early m fun c hc => ?_)
    have := h
      { batches := [], size := 0, maxNet := s, minNet := s, sample := fun _ => s, subnets := []
        mask := fun _ _ => some m, recorded := fun _ _ => List.replicate (m.count true) 0
        outputs := fun _ _ _ _ => [], teacher := fun _ _ => [], metrics := fun _ => [], resources := fun _ => [] }
      s 0 (fun _ _ => 1) rfl (by simp)
    simp only [World.read, World.calibrate, picked] at this
    by_contra hlt
    have hmem : (1 : ℚ) ∈ List.replicate (m.count true) (0 : ℚ) := by
      rw [← this, List.mem_map]
      refine ⟨(true, c), ?_, ?_⟩
      · rw [List.mem_filter]
        exact ⟨List.mem_zipIdx_iff_getElem?.2 hc, rfl⟩
      · rw [List.getElem?_eq_none (by simpa using hlt)]
        rfl
    have := List.eq_of_mem_replicate hmem
    norm_num at this
  · rintro (h | h) w s l old hm hr
    · have hc : w.calibrate s old l = fun c => (w.recorded s l)[c]?.getD (old l c) := by
        funext c
        simp only [World.calibrate, hm]
      simp only [World.read, hm]
      rw [hc]
      exact picked_leading_recorded m h _ hr _
    · exact (h.false s).elim

example : Leading [true, true, false] ∧ ¬ Leading [true, false, true] := by
  refine ⟨⟨2, 1, rfl⟩, ?_⟩
  rintro ⟨a, b, h⟩
  have h1 := congrArg (List.count true) h
  have h2 := congrArg List.length h
  simp [List.count_append, List.count_replicate] at h1 h2
  subst h1
  have : b = 1 := by omega
  subst this
  exact absurd h (by decide)

/-- C73, DISAGREEMENT: when an inactive channel comes before an active one, as with masks chosen by the
norm of the filters, calibration stores the new statistics in the first channels of the layer,
which need not be the active ones. With the second of two channels active the subnet is
validated with the old statistics of that channel. -/
theorem C73_mask_violated (r : ℚ) (old : Nat → Nat → ℚ) (h : old 0 1 ≠ r) :
    (oneLayer [false, true] [r]).read () ((oneLayer [false, true] [r]).calibrate () old) 0 = [old 0 1] ∧
    (oneLayer [false, true] [r]).read () ((oneLayer [false, true] [r]).calibrate () old) 0 ≠ [r] := by
  have e : (oneLayer [false, true] [r]).read () ((oneLayer [false, true] [r]).calibrate () old) 0 = [old 0 1] := rfl
  rw [e]
  exact ⟨rfl, by simpa using h⟩

/-- C73: a fixed subnet is validated as it is, with statistics of its own. The statistics of
layers that are not run and of channels beyond the active ones are kept. -/
theorem C73_fixed (w : World σ B R) (hw : w.Regular) (hl : w.Leading) (ks : Option (List Kind)) (st : St σ R) (h0 : st.results = []) :
    let after := (subnetRun w true ks st).2
    after.events = st.events ++ [.beforeVal, .beforeEpoch] ++ w.iters ++
      [.afterEpoch (named "fix_subnet" (update (w.quality st.net (w.fresh st.net)) (w.resources st.net))), .afterVal] ∧
    after.net = st.net ∧ after.results = [] ∧
    ∀ l c, (w.mask st.net l = none ∨ (w.recorded st.net l).length ≤ c) → after.stats l c = st.stats l c := by
  have e : subnetRun w true ks st = (none, ((({ (st.call .beforeVal).call .beforeEpoch with
      stats := w.calibrate st.net st.stats, training := false, results := [],
      events := ((st.call .beforeVal).call .beforeEpoch).events ++ w.iters } : St σ R).call
        (.afterEpoch (update [] (addPrefix (w.measured st.net) "fix_subnet".toList)))).call .afterVal)) := by
    unfold subnetRun
    simp only [if_true, evaluateOnce_eq w hw hl ((st.call .beforeVal).call .beforeEpoch) h0]
    rfl
  have hd : ((w.measured st.net).map (·.1)).Nodup := update_keys _ _ (hw.metrics _)
  have hn : update [] (addPrefix (w.measured st.net) "fix_subnet".toList) = named "fix_subnet" (w.measured st.net) := by
    have a := addPrefix_eq (w.measured st.net) "fix_subnet".toList hd
    have k : ((addPrefix (w.measured st.net) "fix_subnet".toList).map (·.1)).Nodup := by
      unfold addPrefix
      have : ∀ (l d : Dict), (d.map (·.1)).Nodup →
          ((l.foldl (fun d x => put d ("fix_subnet".toList ++ '.' :: x.1) x.2) d).map (·.1)).Nodup := by
        intro l
        induction l with
        | nil => intro d h; exact h
        | cons x l ih => intro d h; exact ih _ (put_keys d _ _ h)
      exact this _ _ (by simp)
    rw [update_new _ _ (by simpa using k), a]
    rfl
  intro after
  show (subnetRun w true ks st).2.events = _ ∧ (subnetRun w true ks st).2.net = _ ∧ (subnetRun w true ks st).2.results = _ ∧
    ∀ l c, _ → (subnetRun w true ks st).2.stats l c = _
  rw [e]
  refine ⟨?_, rfl, rfl, fun l c h => ?_⟩
  · rw [hn]
    simp [St.call, World.measured]
  · show w.calibrate st.net st.stats l c = _
    unfold World.calibrate
    rcases h with h | h
    · rw [h]
    · cases w.mask st.net l with
      | none => rfl
      | some m => simp [List.getElem?_eq_none h]

/-- C73, DISAGREEMENT: the loop validates nothing and reports no metrics, without a warning,
for an algorithm without `sample_kinds` (any but AutoSlim and BigNAS) unless
`evaluate_fixed_subnet` is set. -/
theorem C73_silent_violated (w : World σ B R) (st : St σ R) :
    (subnetRun w false none st).2 = { st with events := st.events ++ [.beforeVal, .beforeEpoch, .afterEpoch [], .afterVal] } := by
  simp [subnetRun, St.call]

/-- C73, DISAGREEMENT: validation changes the model. Whatever subnet was chosen before, a
validation of the supernet leaves the last one it validated, with the running statistics of its
channels replaced by calibrated ones; a checkpoint saved afterwards contains them. -/
theorem C73_untouched_violated (w : World σ B R) (hw : w.Regular) (hl : w.Leading) (n : Nat) (st : St σ R) (h0 : st.results = []) :
    let after := (subnetRun w false (some (kinds .autoslim n)) st).2
    after.net = (if n = 0 then w.minNet else w.sample (st.draws + (n - 1))) ∧
    ∀ l, w.read after.net after.stats l = w.fresh after.net l := by
  obtain ⟨_, _, a, _, _, old, b⟩ := after_kinds w hw hl ((st.call .beforeVal).call .beforeEpoch) h0 n
  refine ⟨a, fun l => ?_⟩
  show w.read _ ((kinds .autoslim n).foldl (kindStep w) ([], (st.call .beforeVal).call .beforeEpoch)).2.stats l = _
  rw [b]
  exact congrFun (read_calibrate w hw hl _ old) l

/-! ### Slimmable networks -/

/-- C73: a validation of a slimmable network reports the metrics of every configured subnet
under its number, over the whole dataset, in evaluation mode and with the statistics as they
are. -/
theorem C73_slimmable (w : World σ B R) (hw : w.Regular) (st : St σ R) (h0 : st.results = []) :
    let after := (slimmableRun w st).2
    let report : Dict := w.subnets.zipIdx.flatMap fun q =>
      (w.quality q.1 (w.read q.1 st.stats)).map fun x => ("subnet_".toList ++ Nat.toDigits 10 q.2 ++ '.' :: x.1, x.2)
    after.events = st.events ++ [.beforeVal] ++ (List.replicate w.subnets.length (.beforeEpoch :: w.iters)).flatten ++
      [.afterEpoch report, .afterVal] ∧
    after.stats = st.stats ∧ after.net = w.subnets.getLast?.getD st.net ∧ after.results = [] := by
  obtain ⟨a1, a2, a3, a4, a5, a6⟩ := slimmable_fold w hw (st.call .beforeVal) w.subnets 0 ([], st.call .beforeVal) h0 rfl
  have hr := total_eq (kinds .slimmable w.subnets.length) (kinds_nodup .slimmable _) (fun k => match k with
    | .subnet i => (w.subnets[i]?).elim [] fun s => w.quality s (w.read s st.stats) | _ => [])
    (by
      intro k
      cases k with
      | subnet i =>
        show (((w.subnets[i]?).elim [] fun s => w.quality s (w.read s st.stats)).map (·.1)).Nodup
        cases w.subnets[i]? with
        | none => exact List.nodup_nil
        | some s => exact hw.metrics _
      | _ => exact List.nodup_nil)
  have hrep : (w.subnets.zipIdx.foldl (slimmableStep w) ([], st.call .beforeVal)).1 = w.subnets.zipIdx.flatMap fun q =>
      (w.quality q.1 (w.read q.1 st.stats)).map fun x => ("subnet_".toList ++ Nat.toDigits 10 q.2 ++ '.' :: x.1, x.2) := by
    rw [a1]
    have h1 : kinds .slimmable w.subnets.length = (List.range w.subnets.length).map .subnet := rfl
    rw [h1] at hr
    unfold total at hr
    rw [List.foldl_map, List.flatMap_map] at hr
    rw [← List.range_eq_range']
    simp only [Nat.sub_zero]
    refine hr.trans ?_
    rw [List.zipIdx_eq_zip_range', ← List.range_eq_range', List.zip_eq_zipWith]
    have : ∀ (g : σ → Dict) (l : List σ) (k : ℕ), ((List.range' k l.length).flatMap fun i =>
        ((l[i - k]?).elim [] g).map fun x => ((Kind.subnet i).prefix ++ '.' :: x.1, x.2)) =
        (List.zipWith Prod.mk l (List.range' k l.length)).flatMap fun q =>
          (g q.1).map fun x => ("subnet_".toList ++ Nat.toDigits 10 q.2 ++ '.' :: x.1, x.2) := by
      intro g l
      induction l with
      | nil => intro k; rfl
      | cons s l ih =>
        intro k
        rw [List.length_cons, List.range'_succ, List.flatMap_cons, List.zipWith_cons_cons, List.flatMap_cons, Nat.sub_self]
        refine congrArg₂ (· ++ ·) rfl ?_
        rw [← ih]
        refine List.flatMap_congr fun i hi => ?_
        have : k + 1 ≤ i := by have := List.mem_range'_1.1 hi; omega
        rw [show i - k = (i - (k + 1)) + 1 by omega, List.getElem?_cons_succ]
    have h2 := this (fun s => w.quality s (w.read s st.stats)) w.subnets 0
    simp only [Nat.sub_zero] at h2
    rw [← List.range_eq_range'] at h2
    exact h2
  intro after report
  refine ⟨?_, a3, a4, a2⟩
  show ((w.subnets.zipIdx.foldl (slimmableStep w) ([], st.call .beforeVal)).2.events ++
    [.afterEpoch (w.subnets.zipIdx.foldl (slimmableStep w) ([], st.call .beforeVal)).1]) ++ [.afterVal] = _
  rw [a6, hrep]
  simp [St.call, report]

/-- C73, DISAGREEMENT: the hooks of an epoch are not called in pairs. A validation of a slimmable
network calls `before_val_epoch` once for every subnet (with no subnets not at all), and
`after_val_epoch` once. -/
theorem C73_pairs_violated (w : World σ B R) (hw : w.Regular) (st : St σ R) (h0 : st.results = []) (he : st.events = []) :
    ((slimmableRun w st).2.events.filter (· matches .beforeEpoch)).length = w.subnets.length ∧
    ((slimmableRun w st).2.events.filter (· matches .afterEpoch _)).length = 1 := by
  obtain ⟨a, _⟩ := C73_slimmable w hw st h0
  have it : ∀ l : List Nat, (l.flatMap fun i => [Event.beforeIter i, .afterIter i]).filter (· matches .beforeEpoch) = [] ∧
      (l.flatMap fun i => [Event.beforeIter i, .afterIter i]).filter (· matches .afterEpoch _) = [] := by
    intro l
    induction l with
    | nil => exact ⟨rfl, rfl⟩
    | cons i l ih => simp [List.flatMap_cons, ih]
  have rep : ∀ n, (((List.replicate n (Event.beforeEpoch :: w.iters)).flatten).filter (· matches .beforeEpoch)).length = n ∧
      (((List.replicate n (Event.beforeEpoch :: w.iters)).flatten).filter (· matches .afterEpoch _)).length = 0 := by
    intro n
    induction n with
    | zero => exact ⟨rfl, rfl⟩
    | succ n ih =>
      have h1 := it (List.range w.batches.length)
      rw [List.replicate_succ, List.flatten_cons, List.filter_append, List.filter_append, List.length_append,
        List.length_append, ih.1, ih.2]
      unfold World.iters
      simp [h1]
      omega
  rw [a, he]
  simp only [List.filter_append, List.length_append, (rep _).1, (rep _).2]
  exact ⟨by simp, by simp⟩

/-! ### Distillation and iterative pruning -/

/-- C73: a validation with a teacher reports every metric of the teacher under `teacher.` and every
metric of the student under its own name, unless that is the name of a metric of the teacher;
both are taken over the whole dataset in evaluation mode. -/
theorem C73_teacher (w : World σ B R) (hw : w.Regular) (st : St σ R) (h0 : st.results = []) :
    let student := w.quality st.net (w.read st.net st.stats)
    let teacher := w.metrics (w.batches.flatMap (w.teacher false))
    ∃ report : Dict, (teacherRun w st).2.events = st.events ++ [.beforeVal, .beforeEpoch] ++ w.iters ++ [.beforeEpoch] ++ w.iters ++
        [.afterEpoch report, .afterVal] ∧
      (∀ k v, teacher.lookup k = some v → report.lookup ("teacher.".toList ++ k) = some v) ∧
      (∀ x, (∀ k ∈ teacher.map (·.1), x ≠ "teacher.".toList ++ k) → report.lookup x = student.lookup x) ∧
      (teacherRun w st).2.net = st.net ∧ (teacherRun w st).2.stats = st.stats ∧ (teacherRun w st).2.results = [] := by
  intro student teacher
  have e : teacherRun w st = (none, ({ st with
      training := false, results := [],
      events := st.events ++ [.beforeVal, .beforeEpoch] ++ w.iters ++ [.beforeEpoch] ++ w.iters ++
        [.afterEpoch (teacher.foldl (fun m x => put m ("teacher.".toList ++ x.1) x.2) student), .afterVal] } : St σ R)) := by
    unfold teacherRun
    simp only [loop_eq, loopTeacher_eq, St.evaluate, St.call, h0, List.nil_append, List.take_of_length_le (hw.student _ _),
      List.take_of_length_le hw.teacher]
    simp [student, teacher, World.quality]
  obtain ⟨l1, l2⟩ := lookup_prefix teacher "teacher.".toList (hw.metrics _) student
  rw [e]
  exact ⟨_, rfl, l1, l2, rfl, rfl, rfl⟩

/-- C73: a validation of self-distillation reports exactly the metrics of the student, under
`student.`. -/
theorem C73_self (w : World σ B R) (hw : w.Regular) (st : St σ R) (h0 : st.results = []) :
    (selfRun w st).2 = { st with
      training := false
      results := []
      events := st.events ++ [.beforeVal, .beforeEpoch] ++ w.iters ++
        [.afterEpoch (named "student" (w.quality st.net (w.read st.net st.stats))), .afterVal] } := by
  have hn : ((w.quality st.net (w.read st.net st.stats)).foldl (fun d x => put d ("student.".toList ++ x.1) x.2) []) =
      named "student" (w.quality st.net (w.read st.net st.stats)) := by
    have a := addPrefix_eq (w.quality st.net (w.read st.net st.stats)) "student".toList (hw.metrics _)
    have hs : "student.".toList = "student".toList ++ ['.'] := by decide +kernel
    unfold addPrefix at a
    unfold named
    rw [← a, hs]
    simp only [List.append_assoc, List.singleton_append]
  unfold selfRun
  simp only [loop_eq, St.evaluate, St.call, h0, List.nil_append, List.take_of_length_le (hw.student _ _)]
  rw [show w.metrics (w.batches.flatMap (w.outputs false st.net (w.read st.net st.stats))) =
    w.quality st.net (w.read st.net st.stats) from rfl, hn]
  simp

/-- C73: a validation during iterative pruning reports and returns the metrics of the current
subnet, and stores exactly this subnet with its statistics: after any validations the files hold
the last one. -/
theorem C73_pruned (w : World σ B R) (hw : w.Regular) (st : St σ R) (h0 : st.results = []) :
    let m := w.quality st.net (w.read st.net st.stats)
    itePruneRun w st = (some m, { st with
      training := false
      results := []
      file := some (st.net, st.stats)
      events := st.events ++ [.beforeVal, .beforeEpoch] ++ w.iters ++ [.afterEpoch m, .afterVal] }) := by
  unfold itePruneRun
  simp only [loop_eq, St.evaluate, St.call, h0, List.nil_append, List.take_of_length_le (hw.student _ _)]
  simp [World.quality]

/-- C73, DISAGREEMENT: of the loops only the one of iterative pruning returns the metrics, as
`Runner.val` expects; after the others `Runner.val` returns nothing. -/
theorem C73_returned_violated (w : World σ B R) (st : St σ R) (fixed : Bool) (ks : Option (List Kind)) :
    (subnetRun w fixed ks st).1 = none ∧ (slimmableRun w st).1 = none ∧ (teacherRun w st).1 = none ∧
      (selfRun w st).1 = none := ⟨rfl, rfl, rfl, rfl⟩

/-! ### A concrete case -/

example : tiny.Regular ∧ tiny.Leading := by
  refine ⟨⟨?_, ?_, ?_, ?_⟩, ?_⟩
  · intro s l m h
    simp only [tiny, Option.some.injEq] at h ⊢
    by_cases hs : s = 1 <;> simp [hs] at h ⊢ <;> subst h <;> rfl
  · intro s r; simp [tiny]
  · simp [tiny]
  · intro l; simp [tiny]
  · intro s l m h
    simp only [tiny, Option.some.injEq] at h
    by_cases hs : s = 1 <;> simp [hs] at h <;> subst h
    · exact ⟨1, 1, rfl⟩
    · exact ⟨2, 0, rfl⟩

example : (subnetRun tiny false (some (kinds .autoslim 1)) ⟨0, fun _ _ => 0, true, [], 0, [], none⟩).2.events.getLast? =
    some .afterVal ∧
    update (tiny.quality 2 (tiny.fresh 2)) (tiny.resources 2) = [("acc".toList, 39), ("flops".toList, 2)] := by
  decide +kernel

end Verif.ValLoops
