import Verif.Spec.DmcpLoss

/-! Helper lemmas for `Verif/Props/DmcpLoss.lean`. -/

/-! C50: the FLOPs loss of DMCP. -/
namespace Verif.DmcpLoss

theorem tlog_pos (x : ℝ) (h : 0 < x) : tlog x = some (Real.log x : EReal) := by
  rw [tlog, if_neg (by linarith), if_neg (by linarith)]

theorem logL1_above (target expected : ℝ) (ht : 0 < target) (h : target ≤ expected) :
    logL1 target expected = some (Real.log
      ((if |flopsError target expected| > 200 then 1 / 10 else 1) *
        (expected - target * (95 / 100))) : EReal) := by
  have h1 : ¬ expected < target * (95 / 100) := by linarith
  have h2 : ¬ (target * (95 / 100) ≤ expected ∧ expected < target) := fun h' => by linarith [h'.2]
  have h3 : 0 < expected - target * (95 / 100) := by linarith
  simp only [logL1, if_neg h1, if_neg h2, abs_of_pos h3]
  apply tlog_pos
  split <;> positivity

end Verif.DmcpLoss
