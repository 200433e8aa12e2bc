import Verif.Model.Derived
import Verif.Props.MakeDivisible
import Verif.Props.SeqChannel

/-! Definitions used in the statements of `Verif/Props/Derived.lean`. -/

namespace Verif.Derived
open Verif SeqChannel MakeDivisible

/-- What the legal derivations are: non-negative ratios, a positive divide ratio
and the same positive divisor for choice and mask; the value mutables used as
ratios hold a candidate between 0 and their maximum. -/
def Legal (σ : Store) : Expr → Prop
  | .chan _ => True
  | .expandInt e r => Legal σ e ∧ 0 ≤ r
  | .expandFloat e q => Legal σ e ∧ 0 ≤ q
  | .divide e ratio divC divM => Legal σ e ∧ 1 ≤ ratio ∧ 1 ≤ divC ∧ divC = divM
  | .mulValue _ v => 0 ≤ (σ.val v).cur ∧ (σ.val v).cur ≤ (σ.val v).max
  | .concat a b => Legal σ a ∧ Legal σ b

/-- A store with two channels (12 of 32 and 3 of 4 active) and one ratio. -/
def exStore : Store :=
  ⟨fun i => if i = 0 then setChoice (init 32 false) (.num 12) else setChoice (init 4 false) (.num 3),
   fun _ => ⟨2, 4, false⟩⟩

/-- Two stores agree on one source. -/
def Agree (σ τ : Store) : Src → Prop
  | .chan i => σ.chan i = τ.chan i
  | .val v => σ.val v = τ.val v

end Verif.Derived
