import Verif.Lemmas.SyncNorm

/-! Property C98: normalisation over several processes. -/

namespace Verif.SyncNorm
open Verif DynamicOps DynamicNorm

/-! ## Property C98 -/

/-- One step: every process ends in the state in which a single process with the whole batch would end, and
the outputs put together are the output for the whole batch (or all processes have the error that it
has), for every way of dividing a batch, with every mask. -/
theorem C98_step (nrm : Nrm) (b : BN) (ht : b.training = true) (channels : Nat) (xs : List (List (List ℚ)))
    (hw : 1 < xs.length) (hx : ∀ x ∈ xs, x.length = channels) :
    (∀ q ∈ step nrm true channels (List.replicate xs.length b) xs, q.1 = (b.forward (listOps nrm) (joined channels xs)).1) ∧
    (∀ e, (b.forward (listOps nrm) (joined channels xs)).2 = .error e →
      ∀ q ∈ step nrm true channels (List.replicate xs.length b) xs, q.2 = .error e) ∧
    ∀ y, (b.forward (listOps nrm) (joined channels xs)).2 = .ok y →
      ∃ ys, (step nrm true channels (List.replicate xs.length b) xs).map (·.2) = ys.map .ok ∧ joined channels ys = y ∧
        ys.map (fun z => z.map List.length) = xs.map fun x => x.map List.length := by
  rw [step_eq, pOf_out _ b ht]
  have hjl : (joined channels xs).length = channels := by unfold joined; rw [List.length_map, List.length_range]
  have hl := pOf_length (listOps nrm) b (joined channels xs)
  refine ⟨?_, ?_, ?_⟩
  · intro q hq
    obtain ⟨x, hxm, rfl⟩ := List.mem_map.1 hq
    exact forward_sync nrm b ht xs.length channels hw xs x (hx x hxm)
  · intro e he q hq
    obtain ⟨x, hxm, rfl⟩ := List.mem_map.1 hq
    rw [forward_out nrm b ht xs.length channels hw xs x (hx x hxm)]
    cases hp : pOf (listOps nrm) b (joined channels xs) with
    | error e' => rw [hp] at he; exact congrArg _ (Except.error.inj he)
    | ok p => rw [hp] at he; cases he
  · intro y hy
    cases hp : pOf (listOps nrm) b (joined channels xs) with
    | error e' => rw [hp] at hy; cases hy
    | ok p =>
      rw [hp] at hy hl
      have hpl := hl p rfl
      refine ⟨xs.map fun x => normed (listOps nrm) p x, ?_, ?_, ?_⟩
      · rw [List.map_map, List.map_map]
        apply List.map_congr_left
        intro x hxm
        show (forward nrm true b xs.length (columns channels xs) x).2 = _
        rw [forward_out nrm b ht xs.length channels hw xs x (hx x hxm), hp]
        rfl
      · rw [joined_normed nrm p channels xs (by omega) hx]
        exact Except.ok.inj hy
      · rw [List.map_map]
        apply List.map_congr_left
        intro x hxm
        have hxl := hx x hxm
        apply List.ext_getElem
        · simp only [Function.comp, List.length_map, normed, List.length_zipWith]
          omega
        · intro i h1 h2
          simp [normed, listOps]

example : (step centre true 1 (List.replicate 2 ⟨1, none, some [(0, 1)], 0, some (1 / 2), none, true⟩) [[[1, 2]], [[6]]]).map (·.2) =
    [.ok [[-2, -1]], .ok [[3]]] := by decide +kernel

/-- Training: after any number of steps, with any masks and any division of the batches among the
processes, all processes are in the state of a single process that was trained with the whole batches. -/
theorem C98_training (nrm : Nrm) (world : Nat) (hw : 1 < world) (steps : List (Nat × List Bool × List (List (List ℚ))))
    (hs : ∀ t ∈ steps, t.2.2.length = world ∧ ∀ x ∈ t.2.2, x.length = t.1) (b : BN) (ht : b.training = true) :
    trainAll nrm (List.replicate world b) steps = List.replicate world (trainOne nrm b steps) := by
  induction steps generalizing b with
  | nil => rfl
  | cons t steps ih =>
    obtain ⟨n, m, xs⟩ := t
    obtain ⟨h1, h2⟩ := hs (n, m, xs) (by simp)
    dsimp only at h1 h2
    unfold trainAll trainOne
    rw [← ih (fun t ht => hs t (by simp [ht])) _ (by rw [forward_training, setMask_training, ht])]
    congr 1
    unfold stepMasked
    rw [List.map_replicate, ← h1, step_eq, List.map_map, List.eq_replicate_iff]
    refine ⟨by rw [List.length_map], ?_⟩
    intro q hq
    obtain ⟨x, hxm, rfl⟩ := List.mem_map.1 hq
    exact forward_sync nrm (b.setMask m) ht xs.length n (by omega) xs x (h2 x hxm)

/-- In evaluation with running statistics, nothing is changed and the outputs put together are the
output for the whole batch. Missing: layers without running statistics, see `C98_eval_untracked_violated`. -/
theorem C98_eval_partial (nrm : Nrm) (b : BN) (hb : b.WF) (ht : b.training = false) (d : List Pair) (hd : b.stats = some d)
    (world channels : Nat) (cols : List (List (List ℚ))) (xs : List (List (List ℚ))) (hx : ∀ x ∈ xs, x.length = channels)
    (hc : channels = count b.outMask) :
    ∃ ys : List (List (List ℚ)), (xs.map fun x => forward nrm true b world cols x) = ys.map (fun y => (b, .ok y)) ∧
      b.forward (listOps nrm) (joined channels xs) = (b, .ok (joined channels ys)) := by
  subst hc
  obtain ⟨ps, hp, he⟩ := eval_out (listOps nrm) b hb ht d hd
  refine ⟨xs.map fun x => normed (listOps nrm) ps x, ?_, ?_⟩
  · rw [List.map_map]
    apply List.map_congr_left
    intro x hxm
    unfold forward
    rw [if_neg (by simp), if_neg (by simp [ht])]
    exact he x (hx x hxm)
  · rw [joined_normed nrm ps _ xs hp hx]
    apply he
    unfold joined
    rw [List.length_map, List.length_range]

/-- DISAGREEMENT: in evaluation without running statistics every process normalises with its own part of
the batch, so the result depends on how the batch is divided. -/
theorem C98_eval_untracked_violated :
    ∃ (nrm : Nrm) (b : BN) (xs : List (List (List ℚ))) (ys : List (List (List ℚ))), b.training = false ∧ b.WF ∧
      (step nrm true 2 (List.replicate 2 b) xs).map (·.2) = ys.map .ok ∧
      (b.forward (listOps nrm) (joined 2 xs)).2 ≠ .ok (joined 2 ys) := by
  refine ⟨centre, two none false [true, true], [[[1], [0]], [[3], [0]]], [[[0], [0]], [[0], [0]]], rfl,
    ⟨by decide +kernel, by simp [two], by simp [two]⟩, by decide +kernel, by decide +kernel⟩

/-- DISAGREEMENT: nothing checks that the processes use the same channels: with masks of the same size but
different channels their data are mixed, and their statistics differ afterwards. -/
theorem C98_masks_violated :
    ∃ (nrm : Nrm) (b : BN) (m m' : List Bool) (x x' : List (List ℚ)), b.training = true ∧ b.WF ∧
      ∃ q q' y y', step nrm true 1 [b.setMask m, b.setMask m'] [x, x'] = [(q, .ok y), (q', .ok y')] ∧
        q.stats ≠ q'.stats :=
  ⟨centre, two (some [(0, 1), (0, 1)]) true [true, true], [true, false], [false, true], [[1, 2]], [[4, 5]], rfl,
    ⟨by decide +kernel, by decide +kernel, by simp [two]⟩,
    ⟨2, some [(1, 0), (1, 0)], some [(3 / 2, 13 / 6), (0, 1)], 1, some (1 / 2), some [true, false], true⟩,
    ⟨2, some [(1, 0), (1, 0)], some [(0, 1), (3 / 2, 13 / 6)], 1, some (1 / 2), some [false, true], true⟩,
    [[-2, -1]], [[1, 2]], by decide +kernel, by decide +kernel⟩

/-- On the CPU nothing is computed and nothing is changed. -/
theorem C98_cpu (nrm : Nrm) (channels : Nat) (bs : List BN) (xs : List (List (List ℚ))) (h : bs.length = xs.length) :
    step nrm false channels bs xs = bs.map fun b => (b, .error .value) := by
  unfold step forward
  simp only [Bool.not_false, if_true]
  induction bs generalizing xs with
  | nil => rfl
  | cons b bs ih =>
    cases xs with
    | nil => simp at h
    | cons x xs => rw [List.zipWith_cons_cons, ih xs (by simpa using h), List.map_cons]

end Verif.SyncNorm
