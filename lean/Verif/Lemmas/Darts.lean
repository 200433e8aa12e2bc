import Verif.Spec.Darts

/-! Helper lemmas for `Verif/Props/Darts.lean`. -/

/-! C46: the unrolled architecture gradient of DARTS. -/
namespace Verif.Darts

variable {B V A : Type} [AddCommGroup V] [Module ℚ V] [AddCommGroup A] [Module ℚ A]

theorem unrolled_eq (L : Loss B V A) (trn val : B) (lr momentum wd : ℚ) (buf : V)
    (epsOf : V → ℚ) (s : St V A) :
    unrolled L trn val lr momentum wd buf epsOf s =
      ⟨s.w, s.a,
        s.gw + L.gW trn s.w s.a + L.gW val s.w s.a + L.gW trn (point1 L trn val epsOf s) s.a
          + L.gW trn (point2 L trn val epsOf s) s.a,
        s.ga + L.gA trn s.w s.a + L.gA val s.w s.a + L.gA trn (point1 L trn val epsOf s) s.a
          + L.gA trn (point2 L trn val epsOf s) s.a⟩ := by
  simp [unrolled, hessian, perturb, virtualModel, backward, restore, point1, point2]

/-- After every iteration the weight gradients are cleared. -/
theorem run_gw (L : Loss B V A) (O : Opt V A) (unroll : Bool) (lr momentum wd : ℚ) (buf : V)
    (epsOf : V → ℚ) (data : List (B × B)) (s : St V A) (h : s.gw = 0) :
    (run L O unroll lr momentum wd buf epsOf s data).gw = 0 := by
  induction data generalizing s with
  | nil => exact h
  | cons b data ih =>
      refine ih _ ?_
      cases unroll <;> simp [trainStep, updateW]

end Verif.Darts
