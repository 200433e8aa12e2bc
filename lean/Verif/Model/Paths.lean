import Verif.Model.Tracer
import Mathlib.Data.List.Dedup

/-! Model of `mmrazor/models/task_modules/tracer/path.py`: what is read off the traced paths. -/

namespace Verif.Paths
open Verif Tracer

/-- The classes given as `target_nodes` and `non_pass`: the base class or one of its subclasses. -/
inductive Cls where
  | node | layer (kind : LKind) | concat
  deriving DecidableEq

/-- A node up to `PathNode.__eq__` and `__hash__`, lines 51-58: its class and its name. -/
inductive Ref (K : Type) where
  | layer (kind : LKind) (name : K)
  | cat (id : K)
  deriving DecidableEq

variable {K : Type} [DecidableEq K]

/-- The class and name of a node. -/
def ref : PNode K → Ref K
  | .layer k n => .layer k n
  | .cat id _ => .cat id

/-- `isinstance(node, cls)`. -/
def isInst (r : Ref K) : Cls → Bool
  | .node => true
  | .layer k => match r with
    | .layer k' _ => k == k'
    | .cat _ => false
  | .concat => match r with
    | .layer _ _ => false
    | .cat _ => true

/-- `node2parents`. -/
abbrev Parents (K : Type) := List (K × List (Ref K))

/-- One step of `_merge_node_parents`, lines 18-25. The order of `list(set(...))` is not specified; here the first
occurrences are dropped. -/
def mergeOne (d : Parents K) (n : K) (ps : List (Ref K)) : Parents K :=
  match d with
  | [] => [(n, ps)]
  | e :: d => if e.1 = n then (n, (e.2 ++ ps).dedup) :: d else e :: mergeOne d n ps

/-- `_merge_node_parents`, lines 17-25. -/
def merge (d new : Parents K) : Parents K := new.foldl (fun d e => mergeOne d e.1 e.2) d

/-- `non_pass is None or isinstance(behind_node, non_pass)`, line 134. -/
def stops (np : Option (List Cls)) (r : Ref K) : Bool :=
  match np with
  | none => true
  | some cs => cs.any (isInst r)

/-- The loop over the nodes behind, lines 132-136: the first one that does not let pass. -/
def behind (np : Option (List Cls)) : Path K → List (Ref K)
  | [] => []
  | x :: rest => if stops np (ref x) then [ref x] else behind np rest

mutual

/-- `PathConcatNode.find_nodes_parents`, lines 312-327 (a layer has no such method; it is not called for one). -/
def nodeParents (tgt : List Cls) (np : Option (List Cls)) : PNode K → Parents K
  | .layer _ _ => []
  | .cat _ subs => subsParents tgt np subs []

/-- `Path.find_nodes_parents`, lines 110-139. -/
def pathParents (tgt : List Cls) (np : Option (List Cls)) : Path K → Parents K → Parents K
  | [], d => d
  | x :: rest, d => pathParents tgt np rest (match x with
    | .cat _ _ => merge d (nodeParents tgt np x)
    | .layer k n => if tgt.any (isInst (.layer k n)) then merge d [(n, behind np rest)] else d)

/-- `PathList.find_nodes_parents`, lines 221-236. -/
def listParents (tgt : List Cls) (np : Option (List Cls)) : List (Path K) → Parents K → Parents K
  | [], d => d
  | p :: ps, d => listParents tgt np ps (merge d (pathParents tgt np p []))

/-- The loop over the inputs of a concatenation, lines 323-327. -/
def subsParents (tgt : List Cls) (np : Option (List Cls)) : List (List (Path K)) → Parents K → Parents K
  | [], d => d
  | l :: ls, d => subsParents tgt np ls (merge d (listParents tgt np l []))

end

/-- `path_list.find_nodes_parents(target_nodes, non_pass)`. -/
def findParents (tgt : List Cls) (np : Option (List Cls)) (ps : List (Path K)) : Parents K := listParents tgt np ps []

/-- `root_names == root_name_list[0]` for all, lines 211-219: without any path an IndexError. -/
def common : List (List K) → Except Err (List K)
  | [] => .error .index
  | r :: rs => if rs.all (· == r) then .ok r else .error .assertion

mutual

/-- `get_module_names`, lines 40-41 and 299-309. -/
def moduleNames : PNode K → Except Err (List K)
  | .layer _ n => .ok [n]
  | .cat _ subs => namesOfSubs subs

/-- `Path.get_root_names`, lines 106-108: an empty path is an IndexError. -/
def rootNames : Path K → Except Err (List K)
  | [] => .error .index
  | x :: _ => moduleNames x

/-- `root_name_list`, line 211. -/
def rootNameList : List (Path K) → Except Err (List (List K))
  | [] => .ok []
  | p :: ps => match rootNames p with
    | .error e => .error e
    | .ok r => match rootNameList ps with
      | .error e => .error e
      | .ok rs => .ok (r :: rs)

/-- The loop of `get_module_names`, lines 305-309. -/
def namesOfSubs : List (List (Path K)) → Except Err (List K)
  | [] => .ok []
  | l :: ls => match rootNameList l with
    | .error e => .error e
    | .ok rs => match common rs with
      | .error e => .error e
      | .ok r => match namesOfSubs ls with
        | .error e => .error e
        | .ok more => .ok (r ++ more)

end

/-- `PathList.get_root_names`, lines 209-219. -/
def listRootNames (ps : List (Path K)) : Except Err (List K) :=
  match rootNameList ps with
  | .error e => .error e
  | .ok rs => common rs

end Verif.Paths
