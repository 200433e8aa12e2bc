import Verif.Model.MutableValue
import Mathlib.Tactic.Linarith
import Mathlib.Data.List.Basic

/-! Helper lemmas for `Verif/Props/MutableValue.lean`. -/

namespace Verif.MutableValue
open Verif

variable {α : Type} [DecidableEq α]

theorem step_choices (m : MV α) (o : Op α) : (step m o).1.choices = m.choices := by
  cases o <;> simp only [step]
  · unfold assign; split <;> rfl
  · unfold fixChosen assign setFixed; split <;> [rfl; skip]; split <;> [skip; rfl]
    split <;> simp_all
    rename_i h; rw [← h]; simp
  · split <;> rfl
  · unfold setFixed; split <;> rfl

theorem run_choices (m : MV α) (ops : List (Op α)) : (run m ops).choices = m.choices := by
  unfold run
  induction ops generalizing m with
  | nil => rfl
  | cons o os ih => rw [List.foldl_cons, ih, step_choices]

theorem fixChosen_ok (m : MV α) (c : α) (h : m.fixed = false) (hc : c ∈ m.choices) :
    fixChosen m c = ({ m with current := c, fixed := true }, .none) := by
  simp [fixChosen, assign, setFixed, h, hc]

theorem step_current (m : MV α) (o : Op α) (h : m.current ∈ m.choices) :
    (step m o).1.current ∈ m.choices := by
  cases o with
  | assign c => simp only [step, assign]; split <;> simp_all
  | fix c =>
    simp only [step]
    by_cases hf : m.fixed = true
    · simp [fixChosen, hf, h]
    · by_cases hc : c ∈ m.choices
      · rw [fixChosen_ok m c (by simpa using hf) hc]; exact hc
      · simp [fixChosen, hf, hc, h]
  | dump => exact h
  | sample i => simp only [step]; split <;> exact h
  | setFixed b => simp only [step, setFixed]; split <;> exact h

end Verif.MutableValue
