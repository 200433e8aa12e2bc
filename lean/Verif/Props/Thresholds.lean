import Verif.Lemmas.Thresholds

namespace Verif.Thresholds
open Verif

/-- Whatever the resources do: the thresholds with a checkpoint, in the order of writing,
together with the ones left, are the configured thresholds in decreasing order (so each is
written at most once), each in its own iteration, at a check and below the threshold. -/
theorem C36_saves (c : Cfg) (hi : 0 < c.interval) (thr ps : List ℚ) :
    ∃ l, run c 0 (initial thr) ps = .ok l ∧
      (l.saves.map (·.2) ++ l.left).Perm thr ∧ Down (l.saves.map (·.2) ++ l.left) ∧
      (l.saves.map (·.1)).Pairwise (· < ·) ∧
      ∀ e ∈ l.saves, c.interval ∣ e.1 ∧ ∃ p, ps[e.1]? = some p ∧ p < e.2 := by
  obtain ⟨l, h1, h2, h3, h4⟩ := run_spec c hi ps 0 (initial thr)
  obtain ⟨i1, i2⟩ := initial_spec thr
  refine ⟨l, h1, h2 ▸ i1, h2 ▸ i2, h4, ?_⟩
  intro e he
  obtain ⟨a, _, p, hp, hlt⟩ := h3 e he
  exact ⟨a, p, by simpa using hp, hlt⟩

/-- Every threshold gets its checkpoint, given enough checks (one per threshold) below the
smallest one. Missing: fewer checks, see `C36_all_violated`. -/
theorem C36_all_partial (c : Cfg) (hi : 0 < c.interval) (thr ps : List ℚ) (t : ℚ) (ht : ∀ x ∈ thr, t ≤ x)
    (hn : thr.length ≤ checksBelow c t 0 ps) :
    ∃ l, run c 0 (initial thr) ps = .ok l ∧ (l.saves.map (·.2)).Perm thr := by
  obtain ⟨l, h1, h2, h3, h4⟩ := run_spec c hi ps 0 (initial thr)
  obtain ⟨i1, i2⟩ := initial_spec thr
  refine ⟨l, h1, ?_⟩
  have := run_complete c hi ps 0 (initial thr) l h1 t (fun x hx => ht x (i1.mem_iff.1 hx)) (by rw [i1.length_eq]; exact hn)
  rw [this, List.append_nil] at h2
  exact h2 ▸ i1

/-- A check writes one checkpoint only: resources that pass two thresholds between two
checks may leave one without a checkpoint. -/
theorem C36_all_violated :
    run ⟨1, true⟩ 0 (initial [1 / 2, 3 / 4]) [1, 1 / 4] = .ok ⟨[(1, 3 / 4)], none, [1 / 2]⟩ := by decide +kernel

/-- The process is ended exactly when early stopping is on and every threshold has its
checkpoint, in the iteration of the last checkpoint (for a non-empty list). -/
theorem C36_stop (c : Cfg) (hi : 0 < c.interval) (thr ps : List ℚ) (hne : thr ≠ []) (l : Log) (h : run c 0 (initial thr) ps = .ok l) :
    (l.ended.isSome ↔ c.stop = true ∧ (l.saves.map (·.2)).Perm thr) ∧
    ∀ k, l.ended = some k → l.saves.getLast?.map (·.1) = some k := by
  obtain ⟨i1, _⟩ := initial_spec thr
  obtain ⟨a, b⟩ := run_stop c hi ps 0 (initial thr) l (by intro h0; rw [h0] at i1; exact hne (List.nil_perm.1 i1)) h
  refine ⟨?_, b⟩
  rw [a]
  obtain ⟨l', h1, h2, _⟩ := run_spec c hi ps 0 (initial thr)
  rw [h] at h1
  simp at h1
  subst h1
  constructor
  · rintro ⟨hs, hl⟩
    rw [hl, List.append_nil] at h2
    exact ⟨hs, h2 ▸ i1⟩
  · rintro ⟨hs, hp⟩
    refine ⟨hs, ?_⟩
    have e1 := hp.length_eq
    have e2 := congrArg List.length h2
    rw [List.length_append, i1.length_eq] at e2
    exact List.eq_nil_of_length_eq_zero (by omega)

/-- With no threshold at all, early stopping ends the process in its first iteration,
before anything was pruned or saved. -/
theorem C36_empty_violated (c : Cfg) (hi : 0 < c.interval) (hs : c.stop = true) (p : ℚ) (ps : List ℚ) :
    run c 0 (initial []) (p :: ps) = .ok ⟨[], some 0, []⟩ := by
  have h0 : initial [] = [] := rfl
  rw [h0, run]
  simp [after, hi.ne', hs, bind, Except.bind, pure, Except.pure]

/-- Thresholds that agree in two decimals share a file: the later checkpoint replaces the
earlier one. -/
theorem C36_name_violated : fileNumber (501 / 1000) = 50 ∧ fileNumber (499 / 1000) = 50 := by
  constructor <;> decide +kernel

/-- A resumed run starts with all thresholds again and writes the checkpoint of a threshold
a second time, in the wrong state. -/
theorem C36_resume_violated :
    let thr : List ℚ := [1 / 2, 3 / 4]
    run ⟨1, true⟩ 0 (initial thr) [9 / 10, 7 / 10, 6 / 10] = .ok ⟨[(1, 3 / 4)], none, [1 / 2]⟩ ∧
    run ⟨1, true⟩ 3 (initial thr) [6 / 10, 55 / 100] = .ok ⟨[(3, 3 / 4)], none, [1 / 2]⟩ := by
  constructor <;> decide +kernel

example : run ⟨2, true⟩ 0 (initial [1 / 2, 3 / 4]) [1, 7 / 10, 7 / 10, 4 / 10, 3 / 10, 2 / 10] =
    .ok ⟨[(2, 3 / 4), (4, 1 / 2)], some 4, []⟩ ∧ checksBelow ⟨2, true⟩ (1 / 2) 0 [1, 1/4, 1/4, 1/4, 1/4] = 2 := by
  constructor <;> decide +kernel

/-- An interval of zero is not refused when the hook is made; the first iteration of training
raises. -/
theorem C36_interval_zero (c : Cfg) (h : c.interval = 0) (it : Nat) (left : List ℚ) (p : ℚ) (ps : List ℚ) :
    run c it left (p :: ps) = .error .zeroDivision := by
  rw [run]
  simp [after, h, bind, Except.bind]

/-- A checkpoint is not late: in every earlier check the resources were not below its threshold, or that check wrote the checkpoint of
a threshold that is not smaller. -/
theorem C36_first (c : Cfg) (hi : 0 < c.interval) (thr ps : List ℚ) (l : Log) (h : run c 0 (initial thr) ps = .ok l) (e : Nat × ℚ)
    (he : e ∈ l.saves) (k : Nat) (hk : k < e.1) (hd : c.interval ∣ k) :
    (∀ p, ps[k]? = some p → e.2 ≤ p) ∨ ∃ e' ∈ l.saves, e'.1 = k ∧ e.2 ≤ e'.2 :=
  run_first c hi ps 0 (initial thr) l (initial_spec thr).2 h e he k (Nat.zero_le _) hk hd

end Verif.Thresholds
