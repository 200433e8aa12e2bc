import Verif.Model.SearchOps
import Mathlib.Tactic.Linarith
import Mathlib.Tactic.Ring

/-! Definitions used in the statements of `Verif/Props/SearchOps.lean`. -/

namespace Verif.SearchOps
open Verif

/-- `⌈n / s⌉` -/
def up (n s : ℕ) : ℕ := (n + s - 1) / s

/-- What a block from `cin` to `cout` channels with stride `s` should do with a
feature map: `cout` channels, sizes divided by the stride and rounded up. -/
def expected (cout s : ℕ) (x : Shape) : Shape := ⟨cout, up x.h s, up x.w s⟩

/-- The operation can be built as a block `cin → cout` of stride `s` and does
what such a block should do on `x`. -/
def Fits (op : Op) (cin cout s : ℕ) (x : Shape) : Prop :=
  op.make cin cout s = .ok () ∧ op.run cin cout s x = .ok (expected cout s x)

end Verif.SearchOps
