import Verif.Py
import Verif.Sort
import Verif.Float64
import Mathlib.Data.Rat.Floor

/-! Model of `ResourceInfoHook`, `mmrazor/implementations/pruning/group_fisher/hook.py`
lines 91-198. -/

namespace Verif.Thresholds
open Verif

/-- The configuration: `interval` and `early_stop`. -/
structure Cfg where
  interval : Nat
  stop : Bool
deriving DecidableEq, Repr

/-- `sorted(save_ckpt_thr, reverse=True)`, line 123. -/
def initial (thr : List ℚ) : List ℚ := sortBy (fun a b => decide (b ≤ a)) thr

/-- What an iteration did: the thresholds left, the threshold a checkpoint was written
for, and whether the process was ended. -/
structure Out where
  left : List ℚ
  saved : Option ℚ
  ended : Bool
deriving DecidableEq, Repr

/-- `after_train_iter`, lines 145-160, at iteration `it` with resources `percent` of the
original. -/
def after (c : Cfg) (it : Nat) (percent : ℚ) (left : List ℚ) : Except Err Out :=
  if c.interval = 0 then .error .zeroDivision
  else
    let r := match left with
      | [] => ([], none)
      | t :: ts => if it % c.interval = 0 ∧ percent < t then (ts, some t) else (t :: ts, none)
    .ok ⟨r.1, r.2, c.stop && r.1.isEmpty⟩

/-- The checkpoints written, as (iteration, threshold), and the iteration at which the
process was ended, if it was. -/
structure Log where
  saves : List (Nat × ℚ)
  ended : Option Nat
  left : List ℚ
deriving DecidableEq, Repr

/-- Training from iteration `it` on; `ps` are the percentages after each iteration. -/
def run (c : Cfg) (it : Nat) (left : List ℚ) : List ℚ → Except Err Log
  | [] => .ok ⟨[], none, left⟩
  | p :: ps => do
    let o ← after c it p left
    let new := match o.saved with | some t => [(it, t)] | none => []
    if o.ended then return ⟨new, some it, o.left⟩
    else
      let r ← run c (it + 1) o.left ps
      return ⟨new ++ r.saves, r.ended, r.left⟩

/-- The number in the file name, `{thr:.2f}`, line 191 (hundredths). -/
def fileNumber (t : ℚ) : Nat := roundHalfEven (100 * t.num.toNat) t.den

end Verif.Thresholds
