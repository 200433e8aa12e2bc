import Verif.Spec.QatLoop

/-! Helper lemmas for `Verif/Props/QatLoop.lean`. -/

namespace Verif.QatLoop
open Verif

/-- The frozen flag is constant during batches and equal to what was prepared. -/
theorem trainBatch_flags (c : Cfg) (e i : Nat) (x : ℚ) (s : St) :
    (c.kind = .qat → (trainBatch c e i x s).1.f = s.f ∧ (trainBatch c e i x s).1.first = s.first ∧ (trainBatch c e i x s).2 = .train e i s.f) ∧
    (c.kind = .lsq → s.f.paramLearning = s.f →
      (trainBatch c e i x s).1.f = s.f ∧ (trainBatch c e i x s).1.first = false ∧
      (trainBatch c e i x s).2 = .train e i (if s.first then s.f.staticEstimate else s.f)) := by
  constructor
  · intro h
    simp [trainBatch, h, trainIter]
  · intro h hp
    unfold trainBatch
    simp only [h]
    split
    · rename_i hf
      refine ⟨?_, rfl, by simp [hf]⟩
      simp only [trainIter]
      rw [← hp]
      rfl
    · rename_i hf
      simp [trainIter, hf]

theorem trainBatches_qat (c : Cfg) (h : c.kind = .qat) (e : Nat) : ∀ (xs : List ℚ) (i : Nat) (s : St),
    (trainBatches c e i xs s).1.f = s.f ∧ (trainBatches c e i xs s).1.first = s.first ∧
    (trainBatches c e i xs s).2 = (List.range' i xs.length).map fun k => .train e k s.f
  | [], i, s => ⟨rfl, rfl, rfl⟩
  | x :: xs, i, s => by
    obtain ⟨a, b, d⟩ := (trainBatch_flags c e i x s).1 h
    obtain ⟨a', b', d'⟩ := trainBatches_qat c h e xs (i + 1) (trainBatch c e i x s).1
    simp only [trainBatches]
    refine ⟨a'.trans a, b'.trans b, ?_⟩
    rw [d', d, a, List.length_cons, List.range'_succ, List.map_cons]

theorem trainBatches_lsq (c : Cfg) (h : c.kind = .lsq) (e : Nat) : ∀ (xs : List ℚ) (i : Nat) (s : St), s.f.paramLearning = s.f →
    (trainBatches c e i xs s).1.f = s.f ∧ (trainBatches c e i xs s).1.first = (s.first && xs.isEmpty) ∧
    (trainBatches c e i xs s).2 = (List.range' i xs.length).map fun k =>
      .train e k (if s.first && k == i then s.f.staticEstimate else s.f)
  | [], i, s, _ => ⟨rfl, by simp [trainBatches], rfl⟩
  | x :: xs, i, s, hp => by
    obtain ⟨a, b, d⟩ := (trainBatch_flags c e i x s).2 h hp
    obtain ⟨a', b', d'⟩ := trainBatches_lsq c h e xs (i + 1) (trainBatch c e i x s).1 (by rw [a]; exact hp)
    simp only [trainBatches]
    refine ⟨a'.trans a, by rw [b', b]; simp, ?_⟩
    rw [d', d, a, b, List.length_cons, List.range'_succ, List.map_cons]
    congr 1
    · simp
    · apply List.map_congr_left
      intro k hk
      have : i + 1 ≤ k := (List.mem_range'_1.1 hk).1
      have hne : (k == i) = false := by simp; omega
      simp [hne]

theorem valBatches_spec (c : Cfg) (e : Nat) : ∀ (xs : List ℚ) (i : Nat) (s : St),
    (valBatches c e i xs s).1.f = s.f ∧ (valBatches c e i xs s).1.first = s.first ∧
    (valBatches c e i xs s).2 = (List.range' i xs.length).map fun k => .val e k s.f
  | [], i, s => ⟨rfl, rfl, rfl⟩
  | x :: xs, i, s => by
    obtain ⟨a, b, d⟩ := valBatches_spec c e xs (i + 1) { s with q := forward c s.f x s.q }
    simp only [valBatches]
    refine ⟨a, b, ?_⟩
    rw [d, List.length_cons, List.range'_succ, List.map_cons]

theorem due_eq (b : Int) (e : Nat) : due b e = reached b e := by
  unfold due reached
  rw [← Bool.decide_and]
  apply decide_eq_decide.2
  omega

theorem reached_mono (b : Int) {e e' : Nat} (h : e ≤ e') (hr : reached b e = true) : reached b e' = true := by
  unfold reached at *
  simp at *
  omega

theorem epochRun_qat (c : Cfg) (h : c.kind = .qat) (e : Nat) (xs : List ℚ) (v : Option (List ℚ)) (s : St) :
    let f1 := prepareTrain c e s.f
    (epochRun c e xs v s).1.f = prepareVal c f1 ∧
    (epochRun c e xs v s).2 = (List.range' 0 xs.length).map (fun k => Ev.train e k f1) ++ Ev.save e (prepareVal c f1) ::
      (List.range' 0 (v.getD []).length).map (fun k => Ev.val e k (prepareVal c f1)) := by
  intro f1
  obtain ⟨a, b, d⟩ := trainBatches_qat c h e xs 0 { s with f := f1 }
  unfold epochRun
  cases v with
  | none =>
    dsimp only
    rw [a]
    refine ⟨rfl, ?_⟩
    rw [d]
    rfl
  | some ys =>
    obtain ⟨a', b', d'⟩ := valBatches_spec c e ys 0 { (trainBatches c e 0 xs { s with f := f1 }).1 with f := prepareVal c (trainBatches c e 0 xs { s with f := f1 }).1.f }
    dsimp only at a' d' ⊢
    rw [a']
    refine ⟨by rw [a], ?_⟩
    rw [d', d, a]
    rfl

theorem epochRun_follows (c : Cfg) (h : c.kind = .qat) (e : Nat) (xs : List ℚ) (v : Option (List ℚ)) (s : St) :
    ∀ ev ∈ (epochRun c e xs v s).2, Follows c s.f.frozen ev ∧ ev.epoch = e := by
  obtain ⟨_, d⟩ := epochRun_qat c h e xs v s
  rw [d]
  intro ev hev
  simp only [List.mem_append, List.mem_map, List.mem_cons] at hev
  rcases hev with ⟨k, _, rfl⟩ | rfl | ⟨k, _, rfl⟩
  · simp [Follows, due_eq, prepareTrain, h, Ev.epoch]
  · simp [Follows, due_eq, prepareTrain, prepareVal, h, Ev.epoch]
  · simp [Follows, due_eq, prepareTrain, prepareVal, h, Ev.epoch]

theorem epochRun_frozen (c : Cfg) (h : c.kind = .qat) (e : Nat) (xs : List ℚ) (v : Option (List ℚ)) (s : St) :
    (epochRun c e xs v s).1.f.frozen = (s.f.frozen || reached c.bnOff e) := by
  rw [(epochRun_qat c h e xs v s).1]
  simp [prepareVal, prepareTrain, h]

theorem run_follows (c : Cfg) (h : c.kind = .qat) (data : Nat → List ℚ) (val : Nat → Option (List ℚ)) : ∀ (n e : Nat) (s : St),
    ∀ ev ∈ (run c data val e n s).2, Follows c s.f.frozen ev ∧ e ≤ ev.epoch
  | 0, e, s => by simp [run]
  | n + 1, e, s => by
    intro ev hev
    simp only [run, List.mem_append] at hev
    rcases hev with hev | hev
    · obtain ⟨a, b⟩ := epochRun_follows c h e _ _ s ev hev
      exact ⟨a, by omega⟩
    · obtain ⟨a, b⟩ := run_follows c h data val n (e + 1) _ ev hev
      rw [epochRun_frozen c h] at a
      refine ⟨?_, by omega⟩
      have hfr : (s.f.frozen || reached c.bnOff e || reached c.bnOff ev.epoch) = (s.f.frozen || reached c.bnOff ev.epoch) := by
        cases hr : reached c.bnOff e with
        | false => simp
        | true => simp [reached_mono c.bnOff (by omega : e ≤ ev.epoch) hr]
      cases ev <;> (simp only [Ev.epoch] at hfr; simp only [Follows, due_eq] at a ⊢; rw [hfr] at a; exact a)

theorem run_add (c : Cfg) (data : Nat → List ℚ) (val : Nat → Option (List ℚ)) : ∀ (m e n : Nat) (s : St),
    run c data val e (m + n) s =
      ((run c data val (e + m) n (run c data val e m s).1).1,
       (run c data val e m s).2 ++ (run c data val (e + m) n (run c data val e m s).1).2)
  | 0, e, n, s => by simp [run]
  | m + 1, e, n, s => by
    rw [show m + 1 + n = (m + n) + 1 by omega]
    simp only [run]
    rw [run_add c data val m (e + 1) n]
    rw [show e + 1 + m = e + (m + 1) by omega]
    simp

theorem trainBatches_q (c : Cfg) (e : Nat) : ∀ (xs : List ℚ) (i : Nat) (s s' : St), c.kind = .qat → s.f = s'.f → s.q = s'.q →
    (trainBatches c e i xs s).1.q = (trainBatches c e i xs s').1.q
  | [], i, s, s', _, _, hq => hq
  | x :: xs, i, s, s', h, hf, hq => by
    simp only [trainBatches]
    refine trainBatches_q c e xs (i + 1) _ _ h ?_ ?_
    · simp [trainBatch, h, trainIter, hf]
    · simp [trainBatch, h, trainIter, forward, hf, hq]

theorem valBatches_q (c : Cfg) (e : Nat) : ∀ (xs : List ℚ) (i : Nat) (s s' : St), s.f = s'.f → s.q = s'.q →
    (valBatches c e i xs s).1.q = (valBatches c e i xs s').1.q
  | [], i, s, s', _, hq => hq
  | x :: xs, i, s, s', hf, hq => by
    simp only [valBatches]
    exact valBatches_q c e xs (i + 1) _ _ (by simp [hf]) (by simp [hf, hq])

theorem epochRun_resume (c : Cfg) (h : c.kind = .qat) (e : Nat) (xs : List ℚ) (v : Option (List ℚ)) (s s' : St)
    (hp : prepareTrain c e s.f = prepareTrain c e s'.f) (hq : s.q = s'.q) :
    (epochRun c e xs v s).2 = (epochRun c e xs v s').2 ∧ (epochRun c e xs v s).1.f = (epochRun c e xs v s').1.f ∧
    (epochRun c e xs v s).1.q = (epochRun c e xs v s').1.q := by
  obtain ⟨a, b⟩ := epochRun_qat c h e xs v s
  obtain ⟨a', b'⟩ := epochRun_qat c h e xs v s'
  refine ⟨by rw [b, b', hp], by rw [a, a', hp], ?_⟩
  have t := trainBatches_q c e xs 0 { s with f := prepareTrain c e s.f } { s' with f := prepareTrain c e s'.f } h (by simp [hp]) (by simp [hq])
  have tf := (trainBatches_qat c h e xs 0 { s with f := prepareTrain c e s.f }).1
  have tf' := (trainBatches_qat c h e xs 0 { s' with f := prepareTrain c e s'.f }).1
  unfold epochRun
  cases v with
  | none => simpa using t
  | some ys =>
    dsimp only
    apply valBatches_q
    · change prepareVal c _ = prepareVal c _
      rw [tf, tf']
      simp only [hp]
    · exact t

theorem run_resume (c : Cfg) (h : c.kind = .qat) (data : Nat → List ℚ) (val : Nat → Option (List ℚ)) : ∀ (n e : Nat) (s s' : St),
    (∀ k ≥ e, prepareTrain c k s.f = prepareTrain c k s'.f) → s.q = s'.q →
    (run c data val e n s).2 = (run c data val e n s').2 ∧ (run c data val e n s).1.q = (run c data val e n s').1.q
  | 0, e, s, s', _, hq => ⟨rfl, hq⟩
  | n + 1, e, s, s', hp, hq => by
    obtain ⟨a, b, d⟩ := epochRun_resume c h e (data e) (val e) s s' (hp e (by omega)) hq
    obtain ⟨a', d'⟩ := run_resume c h data val n (e + 1) _ _ (fun k hk => by rw [b]) d
    simp only [run]
    exact ⟨by rw [a, a'], d'⟩

end Verif.QatLoop
