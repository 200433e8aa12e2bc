import Verif.Spec.QParams

/-! Helper lemmas for `Verif/Props/QParams.lean`. -/

namespace Verif.QParams
open Verif

theorem step_fixed (q : Lsq) (o : Op) : (q.step o).lo = q.lo ∧ (q.step o).hi = q.hi ∧ (q.step o).eps = q.eps ∧
    (q.step o).root = q.root ∧ (q.step o).zpTrain = q.zpTrain := by
  cases o with
  | mode m => cases m <;> exact ⟨rfl, rfl, rfl, rfl, rfl⟩
  | forward n z => simp only [Lsq.step, Lsq.forward]; split <;> exact ⟨rfl, rfl, rfl, rfl, rfl⟩
  | optim s z => simp only [Lsq.step, Lsq.optim]; split <;> exact ⟨rfl, rfl, rfl, rfl, rfl⟩
  | calculate => exact ⟨rfl, rfl, rfl, rfl, rfl⟩

theorem inv_step (q : Lsq) (o : Op) (h : Inv q) (hl : Legal q o) : Inv (q.step o) := by
  obtain ⟨h1, h2, h3, h4, h5⟩ := step_fixed q o
  obtain ⟨i1, i2, i3⟩ := h
  refine ⟨by rw [h3]; exact i1, by rw [h1, h2]; exact i2, ?_⟩
  intro ht
  rw [h5] at ht
  rw [h1, h2]
  cases o with
  | mode m => cases m <;> exact i3 ht
  | forward n z =>
    simp only [Lsq.step, Lsq.forward]
    split
    · exact ⟨z, rfl, hl.2⟩
    · exact i3 ht
  | optim s z =>
    simp only [Lsq.step, Lsq.optim]
    split
    · simp only [ht]; exact i3 ht
    · exact i3 ht
  | calculate => exact i3 ht

theorem inv_run (ops : List Op) (q : Lsq) (h : Inv q) (hl : ∀ o ∈ ops, Legal q o) :
    Inv (ops.foldl Lsq.step q) ∧ (ops.foldl Lsq.step q).lo = q.lo ∧ (ops.foldl Lsq.step q).hi = q.hi ∧
    (ops.foldl Lsq.step q).eps = q.eps ∧ (ops.foldl Lsq.step q).zpTrain = q.zpTrain := by
  induction ops generalizing q with
  | nil => exact ⟨h, rfl, rfl, rfl, rfl⟩
  | cons o ops ih =>
    obtain ⟨h1, h2, h3, h4, h5⟩ := step_fixed q o
    obtain ⟨a, b, c, d, e⟩ := ih (q.step o) (inv_step q o h (hl o (by simp))) (by
      intro o' ho'
      have := hl o' (by simp [ho'])
      cases o' <;> simp only [Legal] at this ⊢
      rw [h1, h2]; exact this)
    rw [List.foldl_cons]
    exact ⟨a, b.trans h1, c.trans h2, d.trans h3, e.trans h5⟩

end Verif.QParams
