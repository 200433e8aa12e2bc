import Verif.Py
import Verif.Model.FeatureLoss
import Mathlib.Probability.CDF
import Mathlib.Probability.Distributions.Gaussian.Real

/-! Model of `mmrazor/models/distillers/ofd_distiller.py` and
`mmrazor/models/architectures/connectors/ofd_connector.py`: the margins of overhaul feature
distillation.

Numbers are exact; a name is a number. -/

namespace Verif.Ofd
open Verif MeasureTheory ProbabilityTheory

/-- `scipy.stats.norm.cdf`. -/
noncomputable def cdf0 (x : ℝ) : ℝ := cdf (gaussianReal 0 1) x

/-- The margin of one channel in `_get_margin_from_BN`, ofd_distiller.py lines 69-76: `-m / s` of
Python numbers raises if `s` is zero. -/
noncomputable def marginOf (weight bias : ℝ) : Except Err ℝ :=
  let s := |weight|
  let m := bias
  if s = 0 then .error .zeroDivision
  else if cdf0 (-m / s) > 0.001 then
    .ok (-s * Real.exp (-(m / s) ^ 2 / 2) / Real.sqrt (2 * Real.pi) / cdf0 (-m / s) + m)
  else .ok (-3 * s)

/-- `_get_margin_from_BN`, ofd_distiller.py lines 56-78, for the weights and biases of a layer. -/
noncomputable def margins (bn : List (ℝ × ℝ)) : Except Err (List ℝ) := bn.mapM fun wb => marginOf wb.1 wb.2

/-- A record info of a loss, as far as it matters here. -/
structure Info where
  recorder : ℕ
  fromStudent : Bool
  connector : Option ℕ

/-- A loss of the distiller: is it an `OFDLoss`, and the infos of its inputs. -/
structure Loss where
  isOfd : Bool
  inputs : List Info

/-- A connector: an `OFDTeacherConnector` with its margin, or another one. -/
inductive Connector where
  | ofd (margin : Option (List ℝ))
  | other

/-- The teacher's side: the sources of its recorders, and its modules, which are batch normalisations
with weights and biases (`some`) or not. -/
structure Teacher where
  source : ℕ → Option ℕ
  module' : ℕ → Option (Option (List (ℝ × ℝ)))

/-- The body of the inner loop of `init_ofd_connectors`, ofd_distiller.py lines 34-54. -/
noncomputable def initOne (t : Teacher) (cs : ℕ → Option Connector) (i : Info) : Except Err (ℕ → Option Connector) :=
  match i.connector with
  | none => .ok cs
  | some c =>
    if i.fromStudent then .ok cs else
    match t.source i.recorder with
    | none => .error .key
    | some key =>
      match t.module' key with
      | none => .error .attribute
      | some none => .error .assertion
      | some (some bn) =>
        match cs c with
        | none => .error .key
        | some .other => .error .assertion
        | some (.ofd _) =>
          match margins bn with
          | .error e => .error e
          | .ok m => .ok (Function.update cs c (some (.ofd (some m))))

/-- The inputs visited by `init_ofd_connectors`, in order. -/
def visited (l : List Loss) : List Info := l.flatMap fun x => if x.isOfd then x.inputs else []

/-- `init_ofd_connectors`, ofd_distiller.py lines 28-54. -/
noncomputable def init (t : Teacher) (l : List Loss) (cs : ℕ → Option Connector) : Except Err (ℕ → Option Connector) :=
  (visited l).foldlM (initOne t) cs

/-- `OFDTeacherConnector.forward_train` on one channel, ofd_connector.py lines 32-38: the feature of
the teacher is cut off below the margin. -/
noncomputable def connect (margin : Option (List ℝ)) (channel : ℕ) (x : ℝ) : Except Err ℝ :=
  match margin with
  | none => .error .assertion
  | some m => .ok (max x (m.getD channel 0))

end Verif.Ofd
