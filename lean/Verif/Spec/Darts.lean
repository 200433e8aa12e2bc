import Verif.Model.Darts
import Mathlib.Tactic.Abel
import Mathlib.Tactic.NormNum

/-! Definitions used in the statements of `Verif/Props/Darts.lean`. -/

/-! C46: the unrolled architecture gradient of DARTS. -/
namespace Verif.Darts

variable {B V A : Type} [AddCommGroup V] [Module ℚ V] [AddCommGroup A] [Module ℚ A]

/-- The weights after the virtual step `w' = w - lr (momentum buf + ∇_w L_trn + wd w)`. -/
def virtualW (L : Loss B V A) (trn : B) (lr momentum wd : ℚ) (buf w : V) (a : A) : V :=
  w - lr • (momentum • buf + L.gW trn w a + wd • w)

/-- The curvature term of the docstring of `_compute_hessian`:
`(∇_a L_trn(w + eps dw) - ∇_a L_trn(w - eps dw)) / (2 eps)`. -/
def curvature (L : Loss B V A) (trn : B) (w dw : V) (a : A) (eps : ℚ) : A :=
  (1 / (2 * eps)) • (L.gA trn (w + eps • dw) a - L.gA trn (w - eps • dw) a)

/-- The architecture gradient of unrolled DARTS:
`∇_a L_val(w') - lr * curvature` with `dw = ∇_w L_val(w')`. -/
def unrolledSpec (L : Loss B V A) (trn val : B) (lr momentum wd : ℚ) (buf : V) (epsOf : V → ℚ)
    (w : V) (a : A) : A :=
  let w' := virtualW L trn lr momentum wd buf w a
  let dw := L.gW val w' a
  L.gA val w' a - lr • curvature L trn w dw a (epsOf dw)

/-- The first perturbed point of the program. -/
def point1 (L : Loss B V A) (trn val : B) (epsOf : V → ℚ) (s : St V A) : V :=
  let d := s.gw + L.gW trn s.w s.a + L.gW val s.w s.a
  s.w + epsOf d • d

/-- The second perturbed point of the program: the direction has changed. -/
def point2 (L : Loss B V A) (trn val : B) (epsOf : V → ℚ) (s : St V A) : V :=
  let d := s.gw + L.gW trn s.w s.a + L.gW val s.w s.a
  let w1 := point1 L trn val epsOf s
  w1 + (-2 * epsOf d) • (d + L.gW trn w1 s.a)

/-- The bilinear training loss `w · a` and the validation loss `w`. -/
def bilinear : Loss Bool ℚ ℚ where
  gW b _ a := if b then a else 1
  gA b w _ := if b then w else 0

end Verif.Darts
