import Verif.Py
import Verif.Sort
import Mathlib.Algebra.BigOperators.Group.List.Basic

/-! Model of `mmrazor/models/mutables/mutable_module/one_shot_mutable_module.py`
and `diff_mutable_module.py`.

A candidate operation is a function `X → Y`; `Y` is the type of outputs, which
can be added. A `ModuleDict` is an association list in insertion order (its keys
are pairwise different, which the theorems assume as `Nodup`). Python's `sum` of
an empty list is `0`. -/

namespace Verif.MutableModule
open Verif

variable {X Y : Type}

/-- `nn.ModuleDict`: names and operations in insertion order. -/
abbrev Cands (X Y : Type) := List (String × (X → Y))

/-- `choices`: `list(self._candidates.keys())`
(`one_shot_mutable_module.py` 254-257, `diff_mutable_module.py` 244-247, 513-516). -/
def keys (cs : Cands X Y) : List String := cs.map (·.1)

/-- `self._candidates[c](x)`: a `KeyError` if the key is absent. -/
def call (cs : Cands X Y) (c : String) (x : X) : Except Err Y :=
  match cs.find? (fun p => p.1 == c) with
  | some p => .ok (p.2 x)
  | none => .error .key

/-- `self._candidates.pop(c)` for a key that is present. -/
def pop (cs : Cands X Y) (c : String) : Cands X Y := cs.filter (fun p => p.1 != c)

/-- `for c in self.choices: if <c is not chosen>: self._candidates.pop(c)`
(`one_shot_mutable_module.py` 234-236, `diff_mutable_module.py` 224-226, 506-508);
`self.choices` is a list computed before the loop starts. -/
def popLoop (chosen : String → Bool) (cs : Cands X Y) : Cands X Y :=
  (keys cs).foldl (fun acc c => if chosen c then acc else pop acc c) cs

/-! ### One-shot operation -/

/-- State of a `OneShotMutableOP`. -/
structure OneShot (X Y : Type) where
  cands : Cands X Y
  current : Option String
  chosen : Option String
  fixed : Bool

/-- `OneShotMutableOP.__init__` (lines 125-150) with an already built module
dictionary. -/
def OneShot.init (cs : Cands X Y) : Except Err (OneShot X Y) :=
  if cs.length ≥ 1 then .ok ⟨cs, none, none, false⟩ else .error .assertion

/-- `fix_chosen`, lines 221-239. -/
def OneShot.fix (m : OneShot X Y) (c : String) : OneShot X Y × Option Err :=
  if m.fixed then (m, some .attribute)
  else ({ m with cands := popLoop (fun k => k == c) m.cands, chosen := some c, fixed := true }, none)

/-- The `current_choice` setter, `mutable_module.py` lines 66-69. -/
def OneShot.assign (m : OneShot X Y) (c : Option String) : OneShot X Y := { m with current := c }

/-- `OneShotMutableModule.forward`, lines 29-53, with `forward_fixed` (180-190),
`forward_all` (206-219) and `forward_choice` (192-204) of `OneShotMutableOP`. -/
def OneShot.forward [AddCommMonoid Y] (m : OneShot X Y) (x : X) : Except Err Y :=
  if m.fixed then
    match m.chosen with
    | none => .error .key
    | some c => call m.cands c x
  else match m.current with
    | none => .ok ((m.cands.map (fun p => p.2 x)).sum)
    | some c => if c ∈ keys m.cands then call m.cands c x else .error .assertion

/-- `export_chosen`, lines 246-248. -/
def OneShot.exportChosen (m : OneShot X Y) : Except Err String :=
  match m.current with
  | none => .error .assertion
  | some c => .ok c

/-- Calls that change a one-shot operation. -/
inductive OneShotCall where
  | fix (c : String)
  | assign (c : Option String)
  deriving DecidableEq, Repr

/-- One call (its error, if any, is dropped by the caller). -/
def OneShot.step (m : OneShot X Y) : OneShotCall → OneShot X Y
  | .fix c => (m.fix c).1
  | .assign c => m.assign c

/-- State after a history of calls. -/
def OneShot.run (m : OneShot X Y) (cs : List OneShotCall) : OneShot X Y := cs.foldl OneShot.step m

/-! ### Differentiable operation -/

/-- State of a `DiffMutableOP`/`OneHotMutableOP`. `chosen` is `_chosen`. -/
structure Diff (X Y : Type) where
  cands : Cands X Y
  threshold : ℚ
  chosen : Option (List String)
  fixed : Bool

/-- `DiffMutableOP.__init__`, lines 110-129. -/
def Diff.init (cs : Cands X Y) (threshold : ℚ) : Except Err (Diff X Y) :=
  if ¬ cs.length ≥ 1 then .error .assertion
  else if threshold < 0 ∨ threshold > 1 then .error .value
  else .ok ⟨cs, threshold, none, false⟩

/-- `DiffMutableOP.fix_chosen`, lines 207-229 (a single name is the list of that
name, lines 221-222). -/
def Diff.fix (m : Diff X Y) (chosen : List String) : Diff X Y × Option Err :=
  if m.fixed then (m, some .attribute)
  else ({ m with cands := popLoop (fun k => decide (k ∈ chosen)) m.cands,
                 chosen := some chosen, fixed := true }, none)

/-- `DiffMutableOP.forward_fixed`, lines 155-165: the sum over the chosen names,
raising at the first name that is not a candidate. -/
def forwardFixed [AddCommMonoid Y] (cs : Cands X Y) (x : X) : List String → Except Err Y
  | [] => .ok 0
  | c :: rest => do
    let a ← call cs c x
    let b ← forwardFixed cs x rest
    pure (a + b)

/-- `forward_arch_param` given the probabilities, lines 184-190: terms with a
probability that is not positive are skipped. -/
def weighted [AddCommMonoid Y] [SMul ℚ Y] (probs : List ℚ) (cs : Cands X Y) (x : X) : Y :=
  (((probs.zip cs).filter (fun p => decide (p.1 > 0))).map (fun p => p.1 • p.2.2 x)).sum

/-- `DiffMutableModule.forward`, lines 42-69, for `DiffMutableOP`; the
probabilities (`softmax(arch_param)`) are an argument. -/
def Diff.forward [AddCommMonoid Y] [SMul ℚ Y] (m : Diff X Y) (x : X) (probs : Option (List ℚ)) :
    Except Err Y :=
  if m.fixed then
    match m.chosen with
    | none => .error .type
    | some c => forwardFixed m.cands x c
  else match probs with
    | none => .ok ((m.cands.map (fun p => p.2 x)).sum)
    | some ps => .ok (weighted ps m.cands x)

/-- A history of `fix_chosen` calls; errors are dropped by the caller. -/
def Diff.run (m : Diff X Y) (fixes : List (List String)) : Diff X Y :=
  fixes.foldl (fun m c => (m.fix c).1) m

/-- `torch.argmax`: index of the first largest element. -/
def argmax : List ℚ → Nat
  | [] => 0
  | [_] => 0
  | a :: b :: rest =>
    let j := argmax (b :: rest)
    if a ≥ (b :: rest)[j]?.getD 0 then 0 else j + 1

/-- `DiffMutableOP.sample_choice`, lines 231-233. -/
def Diff.sampleChoice (m : Diff X Y) (arch : List ℚ) : Except Err String :=
  match (keys m.cands)[argmax arch]? with
  | some c => .ok c
  | none => .error .index

/-! ### One-hot operation -/

/-- `torch.topk(probs, 2)[0]`: the two largest values; raises (`RuntimeError`)
when there are fewer than two. -/
def top2 (ps : List ℚ) : Except Err (ℚ × ℚ) :=
  match sortBy (fun a b => decide (a ≥ b)) ps with
  | a :: b :: _ => .ok (a, b)
  | _ => .error .runtime

/-- `OneHotMutableOP.forward_arch_param`, lines 309-318: `index` is the truth value
of `top1 - top2 >= fix_threshold`, and line 318 uses that truth value as a list
index. A true scalar tensor is the index 1. -/
def oneHotFix (m : Diff X Y) (probs : List ℚ) : Diff X Y × Option Err :=
  if m.fixed then (m, none)
  else match top2 probs with
    | .error e => (m, some e)
    | .ok (a, b) =>
      if a - b ≥ m.threshold then
        match (keys m.cands)[1]? with
        | some c => m.fix [c]
        | none => (m, some .index)
      else (m, none)

/-- `OneHotMutableOP.forward_arch_param`, lines 292-332, with the sampled one-hot
weights as an argument. Once fixed, the weights are zeroed and the entry of the
chosen name in the remaining choices is set to one. -/
def oneHotForward [AddCommMonoid Y] [SMul ℚ Y] (m : Diff X Y) (probs sampled : List ℚ) (x : X) :
    Diff X Y × Except Err Y :=
  match oneHotFix m probs with
  | (m', some e) => (m', .error e)
  | (m', none) =>
    if m'.fixed then
      match m'.chosen with
      | some (c :: _) =>
        if c ∈ keys m'.cands then
          let w := (sampled.map (fun _ => (0 : ℚ))).set ((keys m'.cands).idxOf c) 1
          (m', .ok (weighted w m'.cands x))
        else (m', .error .value)
      | _ => (m', .error .index)
    else (m', .ok (weighted sampled m'.cands x))

/-! ### Choice route -/

/-- State of a `DiffChoiceRoute`; `unfixed` is `_unfixed_choices`. -/
structure Route (X Y : Type) where
  cands : Cands X Y
  unfixed : List String
  chosen : List String
  numChosen : Nat
  fixed : Bool

/-- `DiffChoiceRoute.__init__`, lines 378-394. -/
def Route.init (edges : Cands X Y) (numChosen : Nat) : Except Err (Route X Y) :=
  if edges.length ≥ 1 then .ok ⟨edges, [], [], numChosen, false⟩ else .error .assertion

/-- `DiffChoiceRoute.fix_chosen`, lines 491-511: `_unfixed_choices` is assigned
before the check of the flag. -/
def Route.fix (m : Route X Y) (chosen : List String) : Route X Y × Option Err :=
  let m := { m with unfixed := keys m.cands }
  if m.fixed then (m, some .attribute)
  else ({ m with cands := popLoop (fun k => decide (k ∈ chosen)) m.cands,
                 chosen := chosen, fixed := true }, none)

/-- `DiffChoiceRoute.forward_fixed`, lines 425-443. -/
def routeFixed [AddCommMonoid Y] (cs : Cands X Y) (chosen : List String) :
    List (String × X) → Except Err Y
  | [] => .ok 0
  | (c, x) :: rest =>
    if c ∈ chosen then do
      let a ← call cs c x
      let b ← routeFixed cs chosen rest
      pure (a + b)
    else routeFixed cs chosen rest

/-- `DiffChoiceRoute.forward`, lines 396-423, `forward_all` 471-489 (the
architecture-parameter branch is not modelled). -/
def Route.forward [AddCommMonoid Y] (m : Route X Y) (inputs : List X) : Except Err Y :=
  if m.fixed then routeFixed m.cands m.chosen (m.unfixed.zip inputs)
  else if inputs.length = m.cands.length then
    .ok (((m.cands.zip inputs).map (fun p => p.1.2 p.2)).sum)
  else .error .assertion

/-- `DiffChoiceRoute.sample_choice`, lines 527-532: `argsort` of the negated
parameters, first `num_chosen` positions, names of these positions. The order of
equal parameters is the stable one. -/
def Route.sampleChoice (m : Route X Y) (arch : List ℚ) : List String :=
  let idx := sortBy (fun i j => decide (arch[i]?.getD 0 ≥ arch[j]?.getD 0)) (List.range arch.length)
  (idx.take m.numChosen).filterMap (fun i => (keys m.cands)[i]?)

end Verif.MutableModule
