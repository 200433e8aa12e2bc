import Verif.Model.SampleLaw

/-! The search space and predicates about it. -/

namespace Verif.SampleLaw

variable {C : Type}

/-- All subnets: one choice out of every group. -/
def space : List (List C) → List (List C)
  | [] => [[]]
  | g :: gs => g.flatMap fun c => (space gs).map (c :: ·)

/-- Every choice meets the condition for its group. -/
def Meets : List (C → Bool) → List (Option C) → Bool
  | p :: ps, c :: cs => (c.any p) && Meets ps cs
  | [], [] => true
  | _, _ => false

end Verif.SampleLaw
