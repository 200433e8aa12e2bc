import Verif.Model.Latest

/-! Model of `mmrazor/version.py`: the parsed version of the package, and how tuples of its kind compare in Python. Strings are
lists of characters; digits are the ASCII digits (`str.isdigit` also accepts digits of other scripts). -/

namespace Verif.Version
open Verif Latest

/-- `str.split` with one character, line 16. -/
def splitOn (c : Char) : Name → List Name
  | [] => [[]]
  | x :: s =>
    if x = c then [] :: splitOn c s
    else match splitOn c s with
      | p :: ps => (x :: p) :: ps
      | [] => [[x]]

/-- `x.split('rc')`, line 20: what stands before the first `rc` and, if there is one, between it and the next. -/
def splitRc : Name → Name × Option Name
  | 'r' :: 'c' :: s => ([], some (splitRc s).1)
  | x :: s => let r := splitRc s; (x :: r.1, r.2)
  | [] => ([], none)

/-- An entry of the tuple. -/
inductive Part where
  | num (n : Int)
  | tag (s : Name)
deriving DecidableEq

/-- One round of the loop, lines 17-22. -/
def parsePiece (x : Name) : Except Err (List Part) :=
  match parseNat x with
  | some n => .ok [.num n]
  | none =>
    match splitRc x with
    | (_, none) => .ok []
    | (front, some back) =>
      match parseInt front with
      | some n => .ok [.num n, .tag ('r' :: 'c' :: back)]
      | none => .error .value

/-- The loop. -/
def parsePieces : List Name → Except Err (List Part)
  | [] => .ok []
  | x :: xs => do
    let p ← parsePiece x
    let ps ← parsePieces xs
    return p ++ ps

/-- `parse_version_info`, lines 6-23. -/
def parseVersion (s : Name) : Except Err (List Part) := parsePieces (splitOn '.' s)

/-- `s < t` for strings (code points, a prefix is smaller). -/
def lessText : Name → Name → Bool
  | _, [] => false
  | [], _ :: _ => true
  | x :: s, y :: t => if x = y then lessText s t else decide (x.toNat < y.toNat)

/-- `p < q` for two entries that differ. -/
def lessPart : Part → Part → Except Err Bool
  | .num a, .num b => .ok (decide (a < b))
  | .tag a, .tag b => .ok (lessText a b)
  | _, _ => .error .type

/-- `v < w` for tuples: the first entries that differ decide, else the length. -/
def less : List Part → List Part → Except Err Bool
  | _, [] => .ok false
  | [], _ :: _ => .ok true
  | p :: v, q :: w => if p = q then less v w else lessPart p q

end Verif.Version
