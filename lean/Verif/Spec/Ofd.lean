import Verif.Model.Ofd
import Verif.Lemmas.FeatureLoss

/-! Definitions used in the statements of `Verif/Props/Ofd.lean`. -/

namespace Verif.Ofd
open Verif MeasureTheory ProbabilityTheory Set Filter

/-! ### Specification -/

/-- The normal distribution with the given mean and deviation. -/
noncomputable def normal (m s : ℝ) : Measure ℝ := gaussianReal m (Real.toNNReal (s ^ 2))

/-- The chance that a normally distributed response is not positive. -/
noncomputable def chanceNeg (m s : ℝ) : ℝ := (normal m s).real (Iic 0)

/-- The mean of the responses that are not positive. -/
noncomputable def meanNeg (m s : ℝ) : ℝ := (∫ x in Iic 0, x ∂(normal m s)) / chanceNeg m s

/-- The layer whose margins an input calls for. -/
def layer (t : Teacher) (i : Info) : Option (List (ℝ × ℝ)) := (t.source i.recorder).bind fun k => (t.module' k).bind id

/-- The inputs of OFD losses that come from the teacher through a connector. -/
def Wanted (l : List Loss) (i : Info) (c : ℕ) : Prop := ∃ x ∈ l, x.isOfd = true ∧ i ∈ x.inputs ∧ i.fromStudent = false ∧ i.connector = some c

end Verif.Ofd
