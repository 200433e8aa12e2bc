import Verif.Lemmas.QatLoop

namespace Verif.QatLoop
open Verif

/-- Quantisation-aware training, from any epoch, for any number of epochs and batches: in
every iteration fake quantisation is on, the observer is on exactly before the configured
epoch, batch norm is frozen exactly from the configured epoch on; in the checkpoints and in
validation fake quantisation is on and the observer off. -/
theorem C37_schedule (c : Cfg) (h : c.kind = .qat) (data : Nat → List ℚ) (val : Nat → Option (List ℚ)) (n e : Nat) (s : St)
    (hs : s.f.frozen = false) : ∀ ev ∈ (run c data val e n s).2, Follows c false ev := by
  intro ev hev
  have := (run_follows c h data val n e s ev hev).1
  rwa [hs] at this

/-- And nothing is left out: every batch of every epoch is trained on, one checkpoint per
epoch, validation after it. -/
theorem C37_complete (c : Cfg) (h : c.kind = .qat) (data : Nat → List ℚ) (val : Nat → Option (List ℚ)) (e : Nat) (s : St) :
    ∀ n k i, k < n → i < (data (e + k)).length → ∃ f, Ev.train (e + k) i f ∈ (run c data val e n s).2 := by
  intro n
  induction n generalizing e s with
  | zero => intro k i hk; omega
  | succ n ih =>
    intro k i hk hi
    simp only [run, List.mem_append]
    cases k with
    | zero =>
      refine ⟨prepareTrain c e s.f, Or.inl ?_⟩
      rw [(epochRun_qat c h e _ _ s).2]
      simp only [List.mem_append, List.mem_map]
      exact Or.inl ⟨i, List.mem_range'_1.2 ⟨by omega, by simpa using hi⟩, rfl⟩
    | succ k =>
      obtain ⟨f, hf⟩ := ih (e + 1) (epochRun c e (data e) (val e) s).1 k i (by omega) (by rw [show e + 1 + k = e + (k + 1) by omega]; exact hi)
      rw [show e + 1 + k = e + (k + 1) by omega] at hf
      exact ⟨f, Or.inr hf⟩

/-- Validation after training leaves the quantisation parameters as they are. -/
theorem C37_val (c : Cfg) (h : c.kind = .qat) (e i : Nat) (xs : List ℚ) (s : St) :
    (valBatches c e i xs { s with f := prepareVal c s.f }).1.q = s.q := by
  have : ∀ (xs : List ℚ) (i : Nat) (s : St), s.f.obs = false → (valBatches c e i xs s).1.q = s.q := by
    intro xs
    induction xs with
    | nil => intro i s _; rfl
    | cons x xs ih =>
      intro i s ho
      simp only [valBatches]
      rw [ih _ _ (by exact ho)]
      simp [forward, h, ho]
  exact this xs i { s with f := prepareVal c s.f } (by simp [prepareVal, h])

/-- With learned step sizes the same holds for scales that are not below the smallest
allowed one. Missing: smaller scales, see `C37_val_lsq_violated`. -/
theorem C37_val_lsq_partial (c : Cfg) (h : c.kind = .lsq) (e i : Nat) (xs : List ℚ) (s : St) (hq : c.eps ≤ s.q) :
    (valBatches c e i xs { s with f := prepareVal c s.f }).1.q = s.q := by
  have : ∀ (xs : List ℚ) (i : Nat) (s : St), s.f.obs = false → c.eps ≤ s.q → (valBatches c e i xs s).1.q = s.q := by
    intro xs
    induction xs with
    | nil => intro i s _ _; rfl
    | cons x xs ih =>
      intro i s ho hq
      simp only [valBatches]
      have hfw : forward c s.f x s.q = s.q := by simp [forward, h, ho, hq]
      rw [hfw]
      exact ih _ _ ho hq
  exact this xs i { s with f := prepareVal c s.f } (by simp [prepareVal, h, Flags.val]) hq

/-- A scale that the optimizer drove below the smallest one is changed by validation: the
forward pass of validation clamps the parameter in place. -/
theorem C37_val_lsq_violated (c : Cfg) (h : c.kind = .lsq) (e i : Nat) (x : ℚ) (s : St) (hq : s.q < c.eps) :
    (valBatches c e i [x] { s with f := prepareVal c s.f }).1.q = c.eps ∧ c.eps ≠ s.q := by
  refine ⟨?_, ne_of_gt hq⟩
  simp [valBatches, forward, h, prepareVal, Flags.val, max_eq_right (le_of_lt hq)]

/-- Validation of a model that was never trained here runs with its observers on: it
changes the parameters. -/
theorem C37_val_alone_violated (c : Cfg) (h : c.kind = .qat) (e i : Nat) (x q : ℚ) :
    (valBatches c e i [x] (fresh q)).1.q = c.observe q x := by
  simp [valBatches, forward, h, fresh]

/-- A run of quantisation-aware training that is interrupted after `m` epochs and resumed
from the checkpoint shows the same switches in all later iterations, and ends with the same
parameters. -/
theorem C37_resume (c : Cfg) (h : c.kind = .qat) (data : Nat → List ℚ) (val : Nat → Option (List ℚ)) (m n : Nat) (q : ℚ) :
    let first := run c data val 0 m (fresh q)
    let rest := run c data val m n (resume first.1)
    (run c data val 0 (m + n) (fresh q)).2 = first.2 ++ rest.2 ∧
    (run c data val 0 (m + n) (fresh q)).1.q = rest.1.q := by
  intro first rest
  rw [run_add]
  have hfr : ∀ (m e : Nat) (s : St), (s.f.frozen = true → reached c.bnOff e = true) →
      ((run c data val e m s).1.f.frozen = true → reached c.bnOff (e + m) = true) := by
    intro m
    induction m with
    | zero => intro e s hs; simpa [run] using hs
    | succ m ih =>
      intro e s hs
      simp only [run]
      have := ih (e + 1) (epochRun c e (data e) (val e) s).1 (by
        intro h1
        rw [epochRun_frozen c h] at h1
        apply reached_mono c.bnOff (Nat.le_succ e)
        cases hsf : s.f.frozen with
        | true => exact hs hsf
        | false => simpa [hsf] using h1)
      rw [show e + (m + 1) = e + 1 + m by omega]
      exact this
  have key := hfr m 0 (fresh q) (by simp [fresh])
  rw [Nat.zero_add] at key
  simp only [Nat.zero_add]
  obtain ⟨a, b⟩ := run_resume c h data val n m first.1 (resume first.1) (by
    intro k hk
    simp only [prepareTrain, h, resume, Bool.false_or]
    cases hf1 : first.1.f.frozen with
    | false => simp
    | true => simp [reached_mono c.bnOff hk (key hf1)]) rfl
  exact ⟨by rw [a], b⟩

/-- Learned step sizes: in the first batch of a run the scale is estimated, afterwards it
is learned; batch norm is frozen from its epoch on. -/
theorem C37_lsq (c : Cfg) (h : c.kind = .lsq) (e : Nat) (xs : List ℚ) (s : St) :
    (trainBatches c e 0 xs { s with f := prepareTrain c e s.f }).2 =
      (List.range xs.length).map fun k => Ev.train e k
        (if s.first ∧ k = 0 then ⟨true, true, false, s.f.frozen || due c.bnOff e⟩
         else ⟨true, false, true, s.f.frozen || due c.bnOff e⟩) := by
  obtain ⟨_, _, d⟩ := trainBatches_lsq c h e xs 0 { s with f := prepareTrain c e s.f } (by
    simp [prepareTrain, h, Flags.paramLearning])
  rw [d, List.range_eq_range']
  apply List.map_congr_left
  intro k _
  by_cases h1 : s.first = true <;> by_cases h2 : k = 0 <;>
    simp [h1, h2, prepareTrain, h, Flags.paramLearning, Flags.staticEstimate, due_eq]

/-- A resumed run estimates the scale again in its first batch: what was learned before is
lost, whatever it was. -/
theorem C37_lsq_resume_violated (c : Cfg) (h : c.kind = .lsq) (e : Nat) (x : ℚ) (s : St) :
    (trainBatches c e 0 [x] { resume s with f := prepareTrain c e (resume s).f }).1.q = c.estimate x := by
  simp [trainBatches, trainBatch, h, resume, trainIter, forward, Flags.staticEstimate]

/-- Post-training calibration: the observers are on for exactly the first `steps` batches
and off in the checkpoint and during evaluation; evaluation changes nothing, and with
`only_val` nothing is changed at all. -/
theorem C37_calibration (c : Cfg) (h : c.kind = .qat) (steps : Nat) (calib vals : List ℚ) (s : St) :
    (ptq c false steps calib vals s).1.q = (calib.take steps).foldl c.observe s.q ∧
    (ptq c true steps calib vals s).1.q = s.q ∧
    (∀ b, ∀ ev ∈ (ptq c b steps calib vals s).2, match ev with
      | .train _ i f => f.fq = true ∧ f.obs = true ∧ i < min steps calib.length
      | .save _ f => f.fq = true ∧ f.obs = false
      | .val _ _ f => f.fq = true ∧ f.obs = false) := by
  have hv : ∀ (xs : List ℚ) (i : Nat) (s : St), s.f.obs = false → (valBatches c 0 i xs s).1.q = s.q := by
    intro xs
    induction xs with
    | nil => intro i s _; rfl
    | cons x xs ih =>
      intro i s ho
      simp only [valBatches]
      rw [ih _ _ (by exact ho)]
      simp [forward, h, ho]
  have ht : ∀ (xs : List ℚ) (i : Nat) (s : St), s.f.obs = true → (trainBatches c 0 i xs s).1.q = xs.foldl c.observe s.q := by
    intro xs
    induction xs with
    | nil => intro i s _; rfl
    | cons x xs ih =>
      intro i s ho
      simp only [trainBatches, List.foldl_cons]
      rw [ih _ _ (by rw [((trainBatch_flags c 0 i x s).1 h).1]; exact ho)]
      simp [trainBatch, h, trainIter, forward, ho]
  have hc : calibrationBatches steps calib = calib.take steps := by simp [calibrationBatches]
  refine ⟨?_, ?_, ?_⟩
  · simp only [ptq, Bool.false_eq_true, if_false]
    rw [hv _ _ _ rfl, hc, ht _ _ _ rfl]
  · simp only [ptq, if_true]
    rw [hv _ _ _ rfl]
  · intro b ev hev
    cases b with
    | true =>
      simp only [ptq, if_true, List.nil_append] at hev
      rw [(valBatches_spec c 0 vals 0 _).2.2] at hev
      obtain ⟨k, _, rfl⟩ := List.mem_map.1 hev
      exact ⟨rfl, rfl⟩
    | false =>
      simp only [ptq, Bool.false_eq_true, if_false] at hev
      rw [(valBatches_spec c 0 vals 0 _).2.2, (trainBatches_qat c h 0 _ 0 _).2.2, hc] at hev
      simp only [List.append_assoc, List.mem_append, List.mem_map, List.mem_singleton] at hev
      rcases hev with ⟨k, hk, rfl⟩ | rfl | ⟨k, _, rfl⟩
      · refine ⟨rfl, rfl, ?_⟩
        have := (List.mem_range'_1.1 hk).2
        simpa using this
      · exact ⟨rfl, rfl⟩
      · exact ⟨rfl, rfl⟩

example :
    let c : Cfg := ⟨.qat, 2, 3, fun q x => max q x, id, fun q _ => q, 0⟩
    (run c (fun _ => [1]) (fun e => if e = 0 then some [7] else none) 0 3 (fresh 0)).2 =
      [.train 0 0 ⟨true, true, false, false⟩, .save 0 ⟨true, false, false, false⟩, .val 0 0 ⟨true, false, false, false⟩,
       .train 1 0 ⟨true, false, false, false⟩, .save 1 ⟨true, false, false, false⟩,
       .train 2 0 ⟨true, false, false, true⟩, .save 2 ⟨true, false, false, true⟩] ∧
    (run c (fun _ => [1]) (fun e => if e = 0 then some [7] else none) 0 3 (fresh 0)).1.q = 1 := by
  constructor <;> decide +kernel

/-- C37: with learned quantisers, too, the checkpoint and the validation of every epoch see
quantisation on, estimation and learning off. -/
theorem C37_lsq_val (c : Cfg) (h : c.kind = .lsq) (data : Nat → List ℚ) (val : Nat → Option (List ℚ)) (n e : Nat) (s : St) :
    ∀ ev ∈ (run c data val e n s).2, match ev with
      | .train _ _ f => f.fq = true
      | .save _ f => f.fq = true ∧ f.obs = false ∧ f.learn = false
      | .val _ _ f => f.fq = true ∧ f.obs = false ∧ f.learn = false := by
  have hv : ∀ (xs : List ℚ) (e i : Nat) (s : St), ∀ ev ∈ (valBatches c e i xs s).2, ∃ k, ev = .val e k s.f := by
    intro xs
    induction xs with
    | nil => intro e i s ev hev; simp [valBatches] at hev
    | cons x xs ih =>
      intro e i s ev hev
      simp only [valBatches, List.mem_cons] at hev
      rcases hev with rfl | hev
      · exact ⟨i, rfl⟩
      · exact ih e (i + 1) { s with q := forward c s.f x s.q } ev hev
  induction n generalizing e s with
  | zero => intro ev hev; simp [run] at hev
  | succ n ih =>
    intro ev hev
    simp only [run, List.mem_append] at hev
    rcases hev with hev | hev
    · simp only [epochRun, List.mem_append, List.mem_cons] at hev
      rcases hev with hev | rfl | hev
      · rw [C37_lsq c h] at hev
        obtain ⟨k, _, rfl⟩ := List.mem_map.1 hev
        dsimp only
        by_cases hk : s.first = true ∧ k = 0
        · rw [if_pos hk]
        · rw [if_neg hk]
      · simp [prepareVal, h, Flags.val]
      · cases hd : val e with
        | none => rw [hd] at hev; simp at hev
        | some xs =>
          rw [hd] at hev
          obtain ⟨k, rfl⟩ := hv xs e 0 _ ev hev
          simp [prepareVal, h, Flags.val]
    · exact ih (e + 1) _ ev hev

end Verif.QatLoop
