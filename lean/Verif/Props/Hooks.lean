import Verif.Lemmas.Hooks

namespace Verif.Hooks
open Verif

/-! ### Dumping of subnets -/

/-- C74: a training that starts or resumes after `start` epochs dumps a subnet after exactly the
epochs whose number is a multiple of the interval, and after the last one if `save_last` is set,
each under its own number and each drawn anew; the model keeps its subnet. -/
theorem C74_dump_epochs (h : Dump) (hb : h.byEpoch = true) (t : Train) (work : Path) (start : Nat) :
    (t.run start).foldl (h.call t work) h.start =
      ⟨some (h.folder work), 0, ((List.range' (start + 1) (t.maxEpochs - start)).filter (h.due t.maxEpochs)).length,
        h.files (h.folder work) ((List.range' (start + 1) (t.maxEpochs - start)).filter (h.due t.maxEpochs)) 0⟩ := by
  unfold Train.run
  rw [part_epoch h hb, step_fold, beforeTrain_start]
  simp [Dump.start]

/-- C74: the same by iterations. -/
theorem C74_dump_iters (h : Dump) (hb : h.byEpoch = false) (t : Train) (work : Path) (start : Nat) :
    (t.run start).foldl (h.call t work) h.start =
      ⟨some (h.folder work), 0,
        ((List.range' (start * t.iters + 1) ((t.maxEpochs - start) * t.iters)).filter (h.due (t.maxEpochs * t.iters))).length,
        h.files (h.folder work)
          ((List.range' (start * t.iters + 1) ((t.maxEpochs - start) * t.iters)).filter (h.due (t.maxEpochs * t.iters))) 0⟩ := by
  unfold Train.run
  rw [part_iter h hb, step_fold, beforeTrain_start]
  simp [Dump.start]

/-- C74: a training stopped after any number of epochs and resumed dumps the same files as one
that was not stopped. -/
theorem C74_dump_resumed (h : Dump) (t : Train) (work : Path) (stop : Nat) (hs : stop ≤ t.maxEpochs) :
    (((t.part 0 stop).foldl (h.call t work) h.start).files ++ ((t.run stop).foldl (h.call t work) h.start).files).map
        (fun f => (f.1, f.2.1)) =
      ((t.run 0).foldl (h.call t work) h.start).files.map (fun f => (f.1, f.2.1)) := by
  have fm : ∀ dir xs d, (h.files dir xs d).map (fun f => (f.1, f.2.1)) = xs.map fun x => (dir, h.tmpl x) := by
    intro dir xs d
    unfold Dump.files
    rw [List.map_map]
    have : ((fun f : Path × String × Nat => (f.1, f.2.1)) ∘ fun p : Nat × Nat => (dir, h.tmpl p.1, p.2)) =
        (fun x => (dir, h.tmpl x)) ∘ Prod.fst := rfl
    rw [this, ← List.map_map, List.zipIdx_map_fst]
  cases hb : h.byEpoch with
  | true =>
    rw [C74_dump_epochs h hb, C74_dump_epochs h hb, part_epoch h hb, step_fold, beforeTrain_start]
    simp only [Dump.start, List.nil_append, Option.getD_some, List.map_append, fm]
    rw [← List.map_append, ← List.filter_append]
    congr 2
    rw [Nat.sub_zero, Nat.sub_zero, Nat.add_comm stop 1, Nat.zero_add, List.range'_append_1]
    congr 1
    omega
  | false =>
    rw [C74_dump_iters h hb, C74_dump_iters h hb, part_iter h hb, step_fold, beforeTrain_start]
    simp only [Dump.start, List.nil_append, Option.getD_some, List.map_append, fm]
    rw [← List.map_append, ← List.filter_append]
    congr 2
    rw [Nat.sub_zero, Nat.sub_zero, Nat.zero_mul, Nat.add_comm (stop * t.iters) 1, Nat.zero_add, List.range'_append_1, ← Nat.add_mul]
    congr 2
    omega

/-- C74, DISAGREEMENT: `max_keep_subnets` has no effect. With interval 1 every epoch leaves a
file, whatever the number of subnets to keep. -/
theorem C74_keep_violated (h : Dump) (hb : h.byEpoch = true) (hi : h.interval = 1) (t : Train) (work : Path) (keep : Int) :
    (((t.run 0).foldl (Dump.call { h with maxKeep := keep } t work) (Dump.start { h with maxKeep := keep })).files).length = t.maxEpochs := by
  rw [C74_dump_epochs { h with maxKeep := keep } hb]
  have : (List.range' (0 + 1) (t.maxEpochs - 0)).filter (Dump.due { h with maxKeep := keep } t.maxEpochs) =
      List.range' (0 + 1) (t.maxEpochs - 0) := by
    rw [List.filter_eq_self]
    intro x _
    simp [Dump.due, hi]
  rw [this]
  simp [Dump.files]

/-- C74, DISAGREEMENT: `out_dir` grows with every training of the same runner: the files of the
second one are written to a folder inside that of the first. -/
theorem C74_folder_violated (h : Dump) (o work : Path) (ho : h.outDir = some o) (h1 : o ≠ work)
    (h2 : o ++ [work.getLast?.getD ""] ≠ work) :
    ((h.start.beforeTrain work).beforeTrain work).out = some (h.folder work ++ [work.getLast?.getD ""]) := by
  rw [beforeTrain_start]
  unfold Dump.folder
  rw [ho]
  simp only [if_neg h1]
  unfold DumpSt.beforeTrain
  simp [h2]

/-! ### Estimates -/

/-- C74: with interval 1 resources are estimated once after every validation. Missing: other intervals, see
`C74_estimate_violated` and `C74_never_violated`. -/
theorem C74_estimate_partial (t : Train) (start : Nat) :
    (t.run start).filter (estimates 1 true) =
      ((List.range' (start + 1) (t.maxEpochs - start)).filter t.validates).map fun e => .valEpoch e (e * t.iters) := by
  rw [estimate_run]
  congr 2
  funext e
  simp

/-- C74, DISAGREEMENT: `interval` counts one epoch too many. Resources are estimated after the
validations for which the number of finished epochs plus one is a multiple of it. -/
theorem C74_estimate_violated (n : Nat) (hn : 0 < n) (t : Train) (start : Nat) :
    (t.run start).filter (estimates n true) =
      ((List.range' (start + 1) (t.maxEpochs - start)).filter fun e => t.validates e && decide (n ∣ e + 1)).map
        fun e => .valEpoch e (e * t.iters) := by
  rw [estimate_run]
  congr 2
  funext e
  have : (0 : Int) < n := by exact_mod_cast hn
  rw [decide_eq_true this, Bool.true_and]
  congr 1
  rw [Bool.eq_iff_iff]
  simp only [decide_eq_true_eq]
  exact Int.natCast_dvd_natCast

/-- C74, DISAGREEMENT: if the interval divides the validation interval and the number of epochs, as
when both intervals are the same, nothing is ever estimated (unless the interval is 1). -/
theorem C74_never_violated (n : Nat) (hn : 1 < n) (t : Train) (start : Nat) (hv : n ∣ t.valInterval) (he : n ∣ t.maxEpochs) :
    (t.run start).filter (estimates n true) = [] := by
  rw [C74_estimate_violated n (by omega), List.map_eq_nil_iff, List.filter_eq_nil_iff]
  intro e _ h
  simp only [Bool.and_eq_true, decide_eq_true_eq, Train.validates, Bool.or_eq_true, beq_iff_eq] at h
  have h1 : n ∣ e := by
    rcases h.1.2 with h | h
    · exact hv.trans (Nat.dvd_of_mod_eq_zero h)
    · exact h ▸ he
  have : n ∣ 1 := (Nat.dvd_add_right h1).1 h.2
  have := Nat.dvd_one.1 this
  omega

/-- C74, DISAGREEMENT: with `by_epoch=False` the hook is asked for every batch of a validation, but
looks at the number of training iterations, which does not change meanwhile: resources are
estimated at all batches of a validation or at none. -/
theorem C74_batches_violated (n : Int) (t : Train) (e : Nat) (hv : t.validates (e + 1) = true) :
    (t.epoch e).filter (estimates n false) =
      if 0 < n ∧ n ∣ (((e + 1) * t.iters + 1 : Nat) : Int) then
        (List.range t.valBatches).map (.valIter (e + 1) ((e + 1) * t.iters))
      else [] := by
  have e1 : ∀ l : List Nat, (l.map Moment.afterIter).filter (estimates n false) = [] := by
    intro l; rw [List.filter_map]; simp [Function.comp_def, estimates]
  unfold Train.epoch
  rw [List.filter_append, List.filter_append, e1, if_pos hv, List.filter_append, List.filter_map]
  have e2 : (estimates n false ∘ Moment.valIter (e + 1) ((e + 1) * t.iters)) = fun _ => everyN ((e + 1) * t.iters) n := by
    funext b; simp [estimates]
  rw [e2, everyN_iff]
  by_cases hc : 0 < n ∧ n ∣ (((e + 1) * t.iters + 1 : Nat) : Int)
  · rw [if_pos hc]
    simp only [decide_eq_true hc.1, decide_eq_true hc.2]
    simp [estimates]
  · rw [if_neg hc]
    have : (decide (0 < n) && decide (n ∣ (((e + 1) * t.iters + 1 : Nat) : Int))) = false := by
      rw [Bool.and_eq_false_iff]
      by_cases h1 : 0 < n
      · exact .inr (decide_eq_false fun h2 => hc ⟨h1, h2⟩)
      · exact .inl (decide_eq_false h1)
    rw [this]
    simp [estimates]

example : ((⟨5, 4, 2, 0, 3⟩ : Train).run 0).filter (estimates 2 true) = [] ∧
    ((⟨5, 4, 1, 0, 3⟩ : Train).run 0).filter (estimates 2 true) = [.valEpoch 1 5, .valEpoch 3 15] := by decide +kernel

example : let h : Dump := ⟨2, true, none, 1, true, fun n => s!"subnet_epoch_{n}.yaml"⟩
    (((⟨5, 5, 1, 0, 3⟩ : Train).run 1).foldl (h.call ⟨5, 5, 1, 0, 3⟩ ["work", "exp"]) h.start).files =
      [(["work", "exp"], "subnet_epoch_2.yaml", 0), (["work", "exp"], "subnet_epoch_4.yaml", 1),
        (["work", "exp"], "subnet_epoch_5.yaml", 2)] := by decide +kernel

/-! ### DMCP -/

/-- C74: if sampling subnets of DMCP ends, the files `subnet_1`, `subnet_2`, … hold the first sampled
subnets with FLOPs within five per cent of the target, in order, and there are as many as asked
for; one more such subnet is drawn for the file of the expected subnet. -/
theorem C74_dmcp (flops : Nat → ℚ) (target : ℚ) (ht : 0 < target) (num fuel : Nat) (fs : List (String × Content)) (d : Nat)
    (h : dmcpAfterRun flops target num fuel = some (fs, d)) :
    ∃ ks : List Nat, ks = (List.range d).filter (fun k => decide (Near (target * 1000000) (flops k))) ∧ ks.length = num + 1 ∧
      fs = (ks.take num).zipIdx.map (fun p => (s!"subnet_{p.2 + 1}.json", .direct p.1)) ++ [("excepted_ch.json", .expected)] := by
  obtain ⟨_, ks, h1, h2, h3⟩ := turns_spec flops (target * 1000000) (by linarith) num fuel _ _ _ _ h
  rw [List.length_range] at h2
  rw [Nat.sub_zero, ← List.range_eq_range'] at h1
  refine ⟨ks, h1, h2, ?_⟩
  rw [h3]
  clear h1 h3 h
  obtain ⟨k, hk⟩ : ∃ k, ks = ks.take num ++ [k] := by
    have hl : (ks.drop num).length = 1 := by rw [List.length_drop]; omega
    obtain ⟨k, hk⟩ := List.length_eq_one_iff.1 hl
    exact ⟨k, by rw [← hk, List.take_append_drop]⟩
  rw [hk]
  have hlt : (ks.take num).length = num := by rw [List.length_take]; omega
  generalize ks.take num = l at hlt
  rw [List.take_left' hlt, List.range_succ, List.zipWith_append (by simp [hlt])]
  simp only [List.zipWith_cons_cons, if_true, List.zipWith_nil_left]
  congr 1
  rw [List.zipIdx_eq_zip_range', List.map_zip_eq_zipWith, hlt, ← List.range_eq_range', List.zipWith_comm]
  have : ∀ (is l : List Nat), (∀ i ∈ is, i < num) → List.zipWith (fun b a => if a = num then (("excepted_ch.json", .expected) : String × Content)
      else (s!"subnet_{a + 1}.json", .direct b)) l is = List.zipWith (Function.curry fun p : Nat × Nat => (s!"subnet_{p.2 + 1}.json", Content.direct p.1)) l is := by
    intro is
    induction is with
    | nil => intro l _; simp
    | cons i is ih =>
      intro l hi
      cases l with
      | nil => rfl
      | cons k l =>
        rw [List.zipWith_cons_cons, List.zipWith_cons_cons, ih l fun j hj => hi j (by simp [hj]), if_neg (by have := hi i (by simp); omega)]
        rfl
  exact this _ _ fun i hi => List.mem_range.1 hi

/-- C74: sampling ends exactly when there are enough subnets near the target among those
drawn. -/
theorem C74_dmcp_ends (flops : Nat → ℚ) (target : ℚ) (ht : 0 < target) (num : Nat) :
    (∃ fuel r, dmcpAfterRun flops target num fuel = some r) ↔
      ∃ m, num + 1 ≤ ((List.range m).filter fun k => decide (Near (target * 1000000) (flops k))).length := by
  constructor
  · rintro ⟨fuel, r, h⟩
    obtain ⟨_, ks, h1, h2, _⟩ := turns_spec flops (target * 1000000) (by linarith) num fuel _ _ r.2 r.1 h
    rw [List.length_range] at h2
    rw [Nat.sub_zero, ← List.range_eq_range'] at h1
    exact ⟨r.2, by rw [← h1, h2]⟩
  · rintro ⟨m, hm⟩
    obtain ⟨fuel, r, h⟩ := turns_ends flops (target * 1000000) (by linarith) num (List.range (num + 1)) 0 m
      (by rw [List.length_range, ← List.range_eq_range']; exact hm)
    exact ⟨fuel, r, h⟩

/-- C74, DISAGREEMENT: if all sampled subnets are smaller than 95 per cent of the target, as when
the supernet itself is, the run never ends; the same if all are too large. No subnet is then
exported, even if none was asked for. -/
theorem C74_endless_violated (flops : Nat → ℚ) (target : ℚ) (ht : 0 < target)
    (hf : (∀ k, flops k < target * 1000000 * (95 / 100)) ∨ ∀ k, target * 1000000 * (105 / 100) < flops k) (num fuel : Nat) :
    dmcpAfterRun flops target num fuel = none := by
  cases h : dmcpAfterRun flops target num fuel with
  | none => rfl
  | some r =>
    obtain ⟨m, hm⟩ := (C74_dmcp_ends flops target ht num).1 ⟨fuel, r, h⟩
    have : (List.range m).filter (fun k => decide (Near (target * 1000000) (flops k))) = [] := by
      rw [List.filter_eq_nil_iff]
      intro k _ hk
      have hk : Near (target * 1000000) (flops k) := by simpa using hk
      rcases hf with hf | hf
      · exact absurd hk.1 (not_le.2 (hf k))
      · exact absurd hk.2 (not_le.2 (hf k))
    rw [this] at hm
    simp at hm

/-- C74, DISAGREEMENT: the FLOPs of the exported expected subnet are not compared with the target:
the test is made for a sampled subnet, which is then replaced. Whatever FLOPs the expected subnet
has, it is exported last. -/
theorem C74_expected_violated (flops : Nat → ℚ) (target : ℚ) (ht : 0 < target) (num fuel : Nat) (fs : List (String × Content)) (d : Nat)
    (h : dmcpAfterRun flops target num fuel = some (fs, d)) (e : ℚ) :
    fs.getLast?.map (fun f => (f.1, f.2.flops flops e)) = some ("excepted_ch.json", e) := by
  obtain ⟨ks, _, _, rfl⟩ := C74_dmcp flops target ht num fuel fs d h
  simp [Content.flops]

example : dmcpAfterRun (fun k => if k % 2 = 0 then 5000000 else 1000000 + k) 1 2 100 =
    some ([("subnet_1.json", .direct 1), ("subnet_2.json", .direct 3), ("excepted_ch.json", .expected)], 6) := by
  decide +kernel

/-! ### Visualisation -/

/-- C74: in evaluation mode drawing features leaves the model as it is and uses its running
statistics. Missing: training mode, in which the hook is called, see `C74_visualise_violated`. -/
theorem C74_visualise_partial (b : Bn) (hb : b.training = false) (xs : List ℚ) :
    visualize b xs = (List.replicate xs.length b.mean, b) := by
  induction xs with
  | nil => rfl
  | cons x xs ih =>
    unfold visualize Bn.forward
    simp only [hb, Bool.false_eq_true, if_false, ih]
    rfl

/-- C74, DISAGREEMENT: the hook does not set evaluation mode, and is called when the model is in
training mode. Features are normalised with the statistics of the single image, and every image
drawn changes the running statistics that are trained, except where they agree. -/
theorem C74_visualise_violated (b : Bn) (hb : b.training = true) (hm : 0 < b.momentum) (x : ℚ) :
    (visualize b [x]).1 = [x] ∧ ((visualize b [x]).2 = b ↔ x = b.mean) ∧
      (visualize b [x]).2.mean = (1 - b.momentum) * b.mean + b.momentum * x := by
  have e : visualize b [x] = ([x], { b with mean := (1 - b.momentum) * b.mean + b.momentum * x }) := by
    unfold visualize Bn.forward
    simp only [hb, if_true]
    rfl
  rw [e]
  refine ⟨rfl, ⟨fun h => ?_, fun h => ?_⟩, rfl⟩
  · have := congrArg Bn.mean h
    simp only at this
    have h1 : b.momentum * (x - b.mean) = 0 := by linarith
    rcases mul_eq_zero.1 h1 with h2 | h2
    · exact absurd h2 hm.ne'
    · linarith
  · subst h
    have : (1 - b.momentum) * b.mean + b.momentum * b.mean = b.mean := by ring
    rw [this]

/-- C74: features are drawn when training starts and after the epochs counted from zero that are
multiples of the interval. -/
theorem C74_drawn (interval : Nat) (hi : 0 < interval) (t : Train) (start : Nat) :
    (t.run start).filter (fun m => draws true interval m matches .ok true) =
      (if interval ∣ start then [.beforeTrain start] else []) ++
        ((List.range' start (t.maxEpochs - start)).filter fun e => decide (interval ∣ e)).map .afterEpoch := by
  have h0 : ∀ e, ((draws true interval (.afterEpoch e)) matches .ok true) = decide (interval ∣ e) ∧
      ((draws true interval (.beforeTrain e)) matches .ok true) = decide (interval ∣ e) := by
    intro e
    unfold draws
    simp only [Bool.not_true, Bool.false_eq_true, if_false, if_neg hi.ne']
    by_cases he : interval ∣ e
    · simp [he, Nat.mod_eq_zero_of_dvd he]
    · have : e % interval ≠ 0 := fun h => he (Nat.dvd_of_mod_eq_zero h)
      simp [he, this]
  have h1 : ∀ e, (t.epoch e).filter (fun m => draws true interval m matches .ok true) = if interval ∣ e then [.afterEpoch e] else [] := by
    intro e
    have e1 : ∀ l : List Nat, (l.map Moment.afterIter).filter (fun m => draws true interval m matches .ok true) = [] := by
      intro l; rw [List.filter_map]; simp [Function.comp_def, draws]
    have e2 : ∀ (l : List Nat) a b, (l.map (Moment.valIter a b)).filter (fun m => draws true interval m matches .ok true) = [] := by
      intro l a b; rw [List.filter_map]; simp [Function.comp_def, draws]
    have e3 : (if t.validates (e + 1) then
        (List.range t.valBatches).map (Moment.valIter (e + 1) ((e + 1) * t.iters)) ++ [.valEpoch (e + 1) ((e + 1) * t.iters)]
        else []).filter (fun m => draws true interval m matches .ok true) = [] := by
      by_cases hv : t.validates (e + 1) = true
      · rw [if_pos hv, List.filter_append, e2]
        simp [draws]
      · rw [if_neg hv]; rfl
    unfold Train.epoch
    rw [List.filter_append, List.filter_append, e1, e3, List.nil_append, List.append_nil, List.filter_cons, (h0 e).1]
    by_cases he : interval ∣ e <;> simp [he]
  unfold Train.run Train.part
  rw [List.filter_cons, (h0 start).2]
  have h2 : ∀ l : List Nat, (l.flatMap t.epoch).filter (fun m => draws true interval m matches .ok true) =
      (l.filter fun e => decide (interval ∣ e)).map .afterEpoch := by
    intro l
    induction l with
    | nil => rfl
    | cons e l ih =>
      rw [List.flatMap_cons, List.filter_append, ih, h1, List.filter_cons]
      by_cases he : interval ∣ e <;> simp [he]
  rw [h2]
  by_cases he : interval ∣ start <;> simp [he]

example : ((⟨1, 5, 1, 0, 1⟩ : Train).run 0).filter (fun m => draws true 2 m matches .ok true) =
    [.beforeTrain 0, .afterEpoch 0, .afterEpoch 2, .afterEpoch 4] := by decide +kernel

example : visualize ⟨true, 1, 1 / 2⟩ [3, 5] = ([3, 5], ⟨true, 7 / 2, 1 / 2⟩) ∧
    visualize ⟨false, 1, 1 / 2⟩ [3, 5] = ([1, 1], ⟨false, 1, 1 / 2⟩) := by decide +kernel

example : let h : Dump := ⟨1, true, some ["out"], 1, true, fun n => s!"subnet_epoch_{n}.yaml"⟩
    ((h.start.beforeTrain ["work", "exp"]).beforeTrain ["work", "exp"]).out = some ["out", "exp", "exp"] := by decide +kernel

example : ((⟨2, 4, 1, 0, 3⟩ : Train).epoch 0).filter (estimates 3 false) = [.valIter 1 2 0, .valIter 1 2 1, .valIter 1 2 2] ∧
    ((⟨2, 4, 1, 0, 3⟩ : Train).epoch 1).filter (estimates 3 false) = [] := by decide +kernel

/-- Validations of a run: after every epoch from `valBegin` on whose number is a multiple of the interval, and after the last one. -/
theorem C74_validations (t : Train) (start e i : Nat) :
    .valEpoch e i ∈ t.run start ↔
      start < e ∧ e ≤ t.maxEpochs ∧ t.valBegin ≤ e ∧ (t.valInterval ∣ e ∨ e = t.maxEpochs) ∧ i = e * t.iters := by
  unfold Train.run Train.part
  simp only [List.mem_cons, List.mem_flatMap, List.mem_range'_1, reduceCtorEq, false_or]
  constructor
  · rintro ⟨a, ha, hm⟩
    unfold Train.epoch at hm
    by_cases hv : t.validates (a + 1) = true
    · rw [if_pos hv] at hm
      simp only [List.mem_append, List.mem_map, List.mem_cons, reduceCtorEq, and_false, exists_false, List.not_mem_nil, or_self, false_or,
        or_false, Moment.valEpoch.injEq] at hm
      unfold Train.validates at hv
      simp only [Bool.and_eq_true, decide_eq_true_eq, Bool.or_eq_true, beq_iff_eq] at hv
      obtain ⟨rfl, rfl⟩ := hm
      exact ⟨by omega, by omega, hv.1, hv.2.imp_left Nat.dvd_of_mod_eq_zero, rfl⟩
    · rw [if_neg hv] at hm
      simp at hm
  · rintro ⟨h1, h2, h3, h4, rfl⟩
    refine ⟨e - 1, by omega, ?_⟩
    unfold Train.epoch
    rw [Nat.sub_add_cancel (by omega : 1 ≤ e)]
    have hv : t.validates e = true := by
      unfold Train.validates
      simp only [Bool.and_eq_true, decide_eq_true_eq, Bool.or_eq_true, beq_iff_eq]
      exact ⟨h3, h4.imp_left Nat.mod_eq_zero_of_dvd⟩
    rw [if_pos hv]
    simp

/-- Drawing fails only for an interval of zero epochs with the hook enabled. -/
theorem C74_interval (enabled : Bool) (interval : Nat) (e : Err) (k : Nat) :
    (draws enabled interval (.beforeTrain k) = .error e ↔ enabled = true ∧ interval = 0 ∧ e = .zeroDivision) ∧
    (draws enabled interval (.afterEpoch k) = .error e ↔ enabled = true ∧ interval = 0 ∧ e = .zeroDivision) := by
  unfold draws
  cases enabled <;> by_cases h : interval = 0 <;> simp [h, eq_comm]

example : draws true 0 (.afterEpoch 3) = .error .zeroDivision := by rfl

end Verif.Hooks
