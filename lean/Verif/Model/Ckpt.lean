/-
Model of the checkpoint converters in /repo/tools/model_converters: how the keys of a
state dict are renamed. Keys are lists of characters, values are of any type.
-/
import Verif.Py
import Mathlib.Data.List.Basic

namespace Verif.Ckpt
open Verif

variable {V : Type}

/-- Keys. -/
abbrev Str := List Char

/-- Python's `pat in s`. -/
def has (pat : Str) : Str → Bool
  | [] => pat.isEmpty
  | c :: s => pat.isPrefixOf (c :: s) || has pat s

/-- Python's `s.replace(pat, new)` for a non-empty pattern: all occurrences from the left
that do not overlap; the number counts the characters of an occurrence still to skip. -/
def rep (pat new : Str) : ℕ → Str → Str
  | _, [] => []
  | k + 1, _ :: s => rep pat new k s
  | 0, c :: s =>
    if pat.isPrefixOf (c :: s) then new ++ rep pat new (pat.length - 1) s
    else c :: rep pat new 0 s

/-- `s.replace(pat, new)`. -/
def replace (s pat new : Str) : Str := rep pat new 0 s

/-- State dicts in insertion order. -/
abbrev Dict (V : Type) := List (Str × V)

/-- `d[k] = v`. -/
def put (d : Dict V) (k : Str) (v : V) : Dict V :=
  if k ∈ d.map (·.1) then d.map (fun e => if e.1 = k then (k, v) else e) else d ++ [(k, v)]

/-- The loop of a converter: `f` gives the new key, if the entry is kept. -/
def convert (f : Str → Option Str) (d : Dict V) : Dict V :=
  d.foldl (fun acc e => match f e.1 with | some k => put acc k e.2 | none => acc) []

/-- `'architecture.'`. -/
def arch : Str := ['a', 'r', 'c', 'h', 'i', 't', 'e', 'c', 't', 'u', 'r', 'e', '.']

/-- The key of the student (convert_kd_ckpt_to_student.py 25-28). -/
def studentKey (key : Str) : Option Str :=
  if arch.isPrefixOf key then some (replace key arch []) else none

/-- `'architecture.model'`. -/
def archModel : Str := arch ++ ['m', 'o', 'd', 'e', 'l']

/-- `'.distiller.teacher'` behind it. -/
def distTeacher : Str :=
  ['.', 'd', 'i', 's', 't', 'i', 'l', 'l', 'e', 'r', '.', 't', 'e', 'a', 'c', 'h', 'e', 'r']

/-- The key of a distiller (convert_kd_ckpt.py 23-32). -/
def kdKey (key : Str) : Option Str :=
  if (archModel ++ distTeacher).isPrefixOf key then
    some (replace key (archModel ++ distTeacher) (arch ++ ['t', 'e', 'a', 'c', 'h', 'e', 'r']))
  else if archModel.isPrefixOf key then
    some (replace key archModel arch.dropLast)
  else some key

/-- `'qmodels.predict.'`. -/
def qpredict : Str :=
  ['q', 'm', 'o', 'd', 'e', 'l', 's', '.', 'p', 'r', 'e', 'd', 'i', 'c', 't', '.']

/-- `'weight_fake_quant'`. -/
def wfq : Str :=
  ['w', 'e', 'i', 'g', 'h', 't', '_', 'f', 'a', 'k', 'e', '_', 'q', 'u', 'a', 'n', 't']

/-- `'_val'`. -/
def val : Str := ['_', 'v', 'a', 'l']

/-- The key of a deployed quantised model (convert_quant_ckpt.py 25-30). -/
def quantKey (key : Str) : Option Str :=
  if qpredict.isPrefixOf key then
    let k := replace key qpredict []
    if has val k && has wfq k then some (replace k val (val ++ ['s'])) else some k
  else none

/-- `str(n)`. -/
def num (n : ℕ) : Str := Nat.toDigits 10 n

/-- `'blocks.'`. -/
def blocks : Str := ['b', 'l', 'o', 'c', 'k', 's', '.']

/-- `'layer'`. -/
def layer : Str := ['l', 'a', 'y', 'e', 'r']

/-- The inner loop of `block2layer_index_convert` (convert_ofa_ckpt.py 26-29). -/
def tableStage (stage : ℕ) : ℕ → ℕ → ℕ → List (ℕ × ℕ × ℕ)
  | 0, _, _ => []
  | k + 1, i, pos => (i, stage, pos) :: tableStage stage k (i + 1) (pos + 1)

/-- `block2layer_index_convert` (convert_ofa_ckpt.py 19-33): block, stage and position. -/
def table : List ℕ → ℕ → ℕ → List (ℕ × ℕ × ℕ)
  | [], _, _ => []
  | k :: l, i, stage => tableStage stage k i 0 ++ table l (i + k) (stage + 1)

/-- `key.split('.')[1]`, if there is one. -/
def second (key : Str) : Option Str :=
  match key.dropWhile (· ≠ '.') with
  | [] => none
  | _ :: t => some (t.takeWhile (· ≠ '.'))

/-- `stage.pos` behind `layer`. -/
def layerName (stage pos : ℕ) : Str := layer ++ num stage ++ '.' :: num pos

/-- The entry of the table for the text of a block number. -/
def tableGet (t : List (ℕ × ℕ × ℕ)) (index : Str) : Option (ℕ × ℕ × ℕ) :=
  t.find? (fun e => decide (num e.1 = index))

/-- The renaming of blocks (convert_ofa_ckpt.py 44-49). The further renaming of layers in
blocks (51-94) is not modelled. -/
def ofaBlock (depth : List ℕ) (key : Str) : Except Err Str :=
  if has ['b', 'l', 'o', 'c', 'k', 's'] key then
    match second key with
    | none => .error .index
    | some index =>
      match tableGet (table depth 0 1) index with
      | none => .error .key
      | some e => .ok (replace key (blocks ++ index) (layerName e.2.1 e.2.2))
  else .ok key

/-- A chain of `elif 'blocks.N' in key: new_key = key.replace('blocks.N', …)`. -/
def chain (rules : List (Str × Str)) (key : Str) : Str :=
  match rules.find? (fun r => has (blocks ++ r.1) key) with
  | some r => replace key (blocks ++ r.1) r.2
  | none => key

/-- The chain of convert_bignas_gml_ckpt.py 25-40. -/
def bignasRules : List (Str × Str) :=
  [(num 0, layer ++ num 1), (num 1, layer ++ num 2), (num 2, layer ++ num 3),
   (num 3, layer ++ num 4), (num 4, layer ++ num 5), (num 5, layer ++ num 6),
   (num 6, layer ++ num 7)]

/-- The chain of convert_attentivenas_nas_ckpt.py 25-100: block, stage and position. -/
def attentiveTable : List (ℕ × ℕ × ℕ) :=
  [(10, 3, 3), (11, 3, 4), (12, 3, 5), (13, 4, 0), (14, 4, 1), (15, 4, 2), (16, 4, 3),
   (17, 4, 4), (18, 4, 5), (19, 5, 0), (20, 5, 1), (21, 5, 2), (22, 5, 3), (23, 5, 4),
   (24, 5, 5), (25, 5, 6), (26, 5, 7), (27, 6, 0), (28, 6, 1), (29, 6, 2), (30, 6, 3),
   (31, 6, 4), (32, 6, 5), (33, 6, 6), (34, 6, 7), (35, 7, 0), (36, 7, 1), (0, 1, 0),
   (1, 1, 1), (2, 2, 0), (3, 2, 1), (4, 2, 2), (5, 2, 3), (6, 2, 4), (7, 3, 0), (8, 3, 1),
   (9, 3, 2)]

/-- The rules of that chain. -/
def attentiveRules : List (Str × Str) :=
  attentiveTable.map (fun e => (num e.1, layerName e.2.1 e.2.2))

/-- `'model.'`. -/
def model : Str := ['m', 'o', 'd', 'e', 'l', '.']

/-- `'module.'`. -/
def mod : Str := ['m', 'o', 'd', 'u', 'l', 'e', '.']

/-- `'backbone.'`. -/
def backbone : Str := ['b', 'a', 'c', 'k', 'b', 'o', 'n', 'e', '.']

/-- The key of a BigNAS model (convert_bignas_gml_ckpt.py 23-40). -/
def bignasKey (key : Str) : Str := chain bignasRules (replace key model arch)

/-- The key of an AttentiveNAS model after the blocks are renamed
(convert_attentivenas_nas_ckpt.py 23-100). The further renaming of layers in blocks (102-160)
is not modelled. -/
def attentiveKey (key : Str) : Str := chain attentiveRules (replace key mod (arch ++ backbone))

end Verif.Ckpt
