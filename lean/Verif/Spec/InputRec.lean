import Verif.Model.InputRec

/-! Definitions used in the statements of `Verif/Props/InputRec.lean`. -/

namespace Verif.InputRec
open Verif

/-- The order in which Python has the kinds of parameters in a signature. -/
def rank : Kind → Nat
  | .ordinary => 0
  | .rest => 1
  | .keyword => 2
  | .more => 3

/-- A signature Python accepts. -/
def Valid {V : Type} (ps : List (Param V)) : Prop := ps.Pairwise fun p q => rank p.kind ≤ rank q.kind

/-- No keyword of the call is called like `*rest` or `**more` themselves. -/
def Plain {V : Type} (ps : List (Param V)) (kw : List (String × V)) : Prop :=
  ∀ p ∈ ps, p.kind = .rest ∨ p.kind = .more → ∀ v, (p.name, v) ∉ kw

/-- The values the caller gave for one parameter. -/
def Bound.values {V : Type} : Bound V → List V
  | .given v => [v]
  | .default _ => []
  | .rest l => l
  | .more _ => []

/-- Given by the caller. -/
def Bound.isGiven {V : Type} : Bound V → Bool
  | .given _ => true
  | _ => false

/-- The call without the recorder. -/
def unwrapped {V R : Type} (ps : List (Param V)) (body : List (String × Bound V) → Except Err R) (c : Call V) : Except Err R :=
  match bindCall ps c.args c.kw with
  | .error e => .error e
  | .ok b => body b

end Verif.InputRec
