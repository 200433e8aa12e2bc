import Verif.Model.Version

/-! Writing of versions, and the order users have in mind. -/

namespace Verif.Version
open Verif Latest

/-- Numbers separated by dots, as in `1.0.12`. -/
def dotted : List ℕ → Name
  | [] => []
  | [n] => Nat.toDigits 10 n
  | n :: ns => Nat.toDigits 10 n ++ '.' :: dotted ns

/-- The name of release candidate `k` of a release, as in `1.0.0rc2`. -/
def candidate (ns : List ℕ) (k : ℕ) : Name := dotted ns ++ 'r' :: 'c' :: Nat.toDigits 10 k

/-- Comparing numbers from the left. -/
def earlier : List ℕ → List ℕ → Bool
  | _, [] => false
  | [], _ :: _ => true
  | a :: v, b :: w => if a = b then earlier v w else decide (a < b)

/-- The entries of the numbers. -/
def nums (ns : List ℕ) : List Part := ns.map fun (n : ℕ) => Part.num n

/-- The name of a release, or of one of its candidates. -/
def written (ns : List ℕ) : Option ℕ → Name
  | none => dotted ns
  | some k => candidate ns k

/-- The entry of the candidate. -/
def suffix : Option ℕ → List Part
  | none => []
  | some k => [.tag ('r' :: 'c' :: Nat.toDigits 10 k)]

end Verif.Version
