import Verif.Model.QParams

/-! Model of how quantisers read their configuration, `mmrazor/structures/quantization/qconfig.py`,
`mmrazor/models/quantizers/native_quantizer.py`, `academic_quantizer.py`,
`mmrazor/models/utils/quantization_util.py`, and of the replacement of modules in
`mmrazor/models/quantizers/base.py`. -/

namespace Verif.QuantCfg
open Verif Verif.QParams

/-- A value in a configuration. -/
inductive PV
  | str (s : String)
  | int (n : Int)
  | bool (b : Bool)
deriving DecidableEq, Repr

/-- The truth of a value. -/
def PV.truthy : PV → Bool
  | .str s => s ≠ ""
  | .int n => n ≠ 0
  | .bool b => b

/-- A dictionary. -/
abbrev Dict := List (String × PV)

/-- `a.copy().update(b)`. -/
def update (a b : Dict) : Dict := a.filter (fun p => (b.lookup p.1).isNone) ++ b

/-- What a key of the configuration holds: a dictionary or something else. -/
inductive Entry
  | dict (d : Dict)
  | other
deriving DecidableEq, Repr

/-- `qconfig`: the value of each key, if present. -/
abbrev QCfg := String → Option Entry

/-- `RequiredArgs`, qconfig.py lines 18-21. -/
def required : List String := ["w_qscheme", "a_qscheme", "w_fake_quant", "a_fake_quant", "w_observer", "a_observer"]

/-- Whether an entry is a dictionary. -/
def isDict : Option Entry → Bool
  | some (.dict _) => true
  | _ => false

/-- The dictionary of an entry. -/
def asDict : Option Entry → Dict
  | some (.dict d) => d
  | _ => []

/-- `check_qconfig`, lines 142-153. -/
def check (q : QCfg) : Bool := required.all fun k => isDict (q k)

/-- Whether `p` is a part of `s` (`p in s`). -/
def infixOf (p s : List Char) : Bool := s.tails.any fun t => p.isPrefixOf t

/-- A quantisation scheme, `torch_qscheme`. -/
inductive TScheme
  | channelSymmetric | channelAffine | tensorSymmetric | tensorAffine
deriving DecidableEq, Repr

/-- `QSchemeHandler`, lines 30-66. `extra` is `self.kwargs`. -/
structure Handler where
  scheme : Scheme
  symmetric : Bool
  perChannel : Bool
  extra : Dict
deriving DecidableEq, Repr

/-- The keys that `QSchemeHandler` takes out of its arguments. -/
def schemeKeys : List String := ["qdtype", "bit", "is_symmetry", "is_symmetric_range"]

/-- The number of bits; only whole numbers from 1 on are modelled (others are refused here, while
Python computes with them). -/
def bitsOf (d : Dict) : Except Err Nat :=
  match d.lookup "bit" with
  | none => .ok 8
  | some (.int n) => if 1 ≤ n then .ok n.toNat else .error .type
  | some _ => .error .type

/-- Reading a flag. -/
def flag (d : Dict) (k : String) (dflt : Bool) : Bool :=
  match d.lookup k with
  | none => dflt
  | some v => v.truthy

/-- `QSchemeHandler(is_per_channel=pc, **d)`, lines 42-66. A second `is_per_channel` is a
`TypeError`. -/
def handler (pc : Bool) (d : Dict) : Except Err Handler :=
  match d.lookup "is_per_channel" with
  | some _ => .error .type
  | none =>
    let ty := (d.lookup "qdtype").getD (.str "quint8")
    if ty ≠ .str "quint8" ∧ ty ≠ .str "qint8" then .error .assertion
    else match bitsOf d with
      | .error e => .error e
      | .ok b => .ok ⟨⟨ty = .str "qint8", b, flag d "is_symmetric_range" false⟩, flag d "is_symmetry" true, pc,
          d.filter fun p => !schemeKeys.contains p.1⟩

/-- `torch_qscheme`, lines 54-59. -/
def Handler.torchScheme (h : Handler) : TScheme :=
  if h.perChannel then (if h.symmetric then .channelSymmetric else .channelAffine)
  else if h.symmetric then .tensorSymmetric else .tensorAffine

/-- The name of a scheme as a value. -/
def TScheme.val : TScheme → PV
  | .channelSymmetric => .str "per_channel_symmetric"
  | .channelAffine => .str "per_channel_affine"
  | .tensorSymmetric => .str "per_tensor_symmetric"
  | .tensorAffine => .str "per_tensor_affine"

/-- `to_observer_params`, lines 68-92. -/
def Handler.params (h : Handler) : Dict :=
  update h.extra ([("dtype", .str (if h.scheme.signed then "qint8" else "quint8")), ("quant_min", .int h.scheme.range.1),
    ("quant_max", .int h.scheme.range.2), ("qscheme", h.torchScheme.val), ("reduce_range", .bool false)] ++
    if h.perChannel then [("ch_axis", .int 0)] else [])

/-- A fake quantiser to be built: `fake_quant.with_args(observer=…, **params)`. Classes are known by
their names. -/
structure FakeQ where
  cls : String
  observer : String
  params : Dict
deriving DecidableEq, Repr

/-- A `QConfig` of torch. -/
structure QConf where
  weight : FakeQ
  activation : FakeQ
deriving DecidableEq, Repr

/-- `MODELS.get(d['type'])` and the use of its result (an unknown class is `None`). `reg` gives the
name of the registered class. -/
def getCls (reg : String → Option String) (d : Dict) : Except Err String :=
  match d.lookup "type" with
  | none => .error .key
  | some (.str t) =>
    match reg t with
    | none => .error .attribute
    | some c => .ok c
  | some _ => .error .type

/-- `QConfigHandler.__init__` with `convert`, lines 115-140 and 155-159. -/
def convert (reg : String → Option String) (q : QCfg) : Except Err QConf :=
  if !check q then .error .value
  else do
    let wo ← getCls reg (asDict (q "w_observer"))
    let ao ← getCls reg (asDict (q "a_observer"))
    let w ← handler (infixOf "PerChannel".toList wo.toList) (asDict (q "w_qscheme"))
    let a ← handler (infixOf "PerChannel".toList ao.toList) (asDict (q "a_qscheme"))
    let wf ← getCls reg (asDict (q "w_fake_quant"))
    let af ← getCls reg (asDict (q "a_fake_quant"))
    pure ⟨⟨wf, wo, w.params⟩, ⟨af, ao, a.params⟩⟩

/-- A key of `object_type`: a class, or a function or method name. -/
inductive Obj
  | cls (name : String)
  | fn (name : String)
deriving DecidableEq, Repr

/-- What an operation gets: nothing (`None`), the given configuration, or one with fixed parameters
by an observer. -/
inductive Given
  | nothing
  | conf (c : QConf)
  | fixed (observer : String)
deriving DecidableEq, Repr

/-- `QConfigMapping` of torch: later settings replace earlier ones. -/
structure Mapping where
  glob : Option Given := none
  types : List (Obj × Given) := []
  names : List (String × Given) := []
deriving DecidableEq, Repr

/-- A dictionary assignment. -/
def assign {K V : Type} [DecidableEq K] : List (K × V) → K → V → List (K × V)
  | [], k, v => [(k, v)]
  | (k', v') :: l, k, v => if k' = k then (k, v) :: l else (k', v') :: assign l k v

/-- `set_object_type`. -/
def Mapping.setType (m : Mapping) (o : Obj) (g : Given) : Mapping := { m with types := assign m.types o g }

/-- `set_module_name`. -/
def Mapping.setName (m : Mapping) (n : String) (g : Given) : Mapping := { m with names := assign m.names n g }

/-- The configuration of a module: by its name, else by its type, else the global one (the order
given in academic_quantizer.py lines 47-54). -/
def Mapping.find (m : Mapping) (name : String) (o : Obj) : Option Given :=
  match m.names.lookup name with
  | some g => some g
  | none =>
    match m.types.lookup o with
    | some g => some g
    | none => m.glob

/-- `str2class` of one string, quantization_util.py lines 36-60: `objs` is what can be imported (the
module or the attribute may be missing). Only classes are accepted. -/
def str2class (objs : String → Except Err Obj) (s : String) : Except Err Obj :=
  if s.toList.contains '.' then
    match objs s with
    | .error e => .error e
    | .ok (.cls c) => .ok (.cls c)
    | .ok (.fn _) => .error .type
  else .error .assertion

/-- `no_observer_modules`: a list of names, one name, or nothing. -/
inductive NoObs
  | nothing
  | one (s : String)
  | many (l : List String)
deriving DecidableEq, Repr

/-- `str2class` of a list. -/
def str2classes (objs : String → Except Err Obj) : List String → Except Err (List Obj)
  | [] => .ok []
  | s :: ss =>
    match str2class objs s with
    | .error e => .error e
    | .ok o =>
      match str2classes objs ss with
      | .error e => .error e
      | .ok os => .ok (o :: os)

/-- The classes without observers, native_quantizer.py lines 163-166: a single name gives a class,
which cannot be iterated. -/
def noObsClasses (objs : String → Except Err Obj) : NoObs → Except Err (List Obj)
  | .nothing => .ok []
  | .one s =>
    match str2class objs s with
    | .error e => .error e
    | .ok _ => .error .type
  | .many l => str2classes objs l

/-- `TorchNativeQuantizer.gen_qconfig_mapping`, lines 155-185; `fixed` is
`_FIXED_QPARAMS_OP_TO_OBSERVER` of torch. -/
def nativeMapping (objs : String → Except Err Obj) (fixed : List (Obj × String)) (c : QConf) (no : NoObs) : Except Err Mapping :=
  match noObsClasses objs no with
  | .error e => .error e
  | .ok os =>
    .ok (fixed.foldl (fun m p => m.setType p.1 (.fixed p.2))
      (os.foldl (fun m o => m.setType o .nothing) { glob := some (.conf c) }))

/-- The modes, native_quantizer.py lines 135-144 with 192-202: weights per tensor or per channel,
activations per tensor (`a_mode in 'per_tensor'` is a test for a part of a string). -/
def modesOk (w a : Bool) : Bool :=
  let mode (b : Bool) := if b then "per_channel" else "per_tensor"
  ["per_tensor", "per_channel"].contains (mode w) && infixOf (mode a).toList "per_tensor".toList

/-- Building a native quantiser, lines 133-148; `is_per_channel` of a scheme comes from the name of its
observer. -/
def native (reg : String → Option String) (objs : String → Except Err Obj) (fixed : List (Obj × String)) (q : QCfg) (no : NoObs) :
    Except Err (QConf × Mapping) :=
  match convert reg q with
  | .error e => .error e
  | .ok c =>
    if modesOk (infixOf "PerChannel".toList c.weight.observer.toList) (infixOf "PerChannel".toList c.activation.observer.toList) then
      match nativeMapping objs fixed c no with
      | .error e => .error e
      | .ok m => .ok (c, m)
    else .error .assertion

/-- The loop over `object_type`, academic_quantizer.py lines 140-143. -/
def addTypes (reg : String → Option String) (objs : String → Except Err Obj) : List (String × QCfg) → Mapping → Except Err Mapping
  | [], m => .ok m
  | (s, q) :: l, m =>
    match convert reg q with
    | .error e => .error e
    | .ok c =>
      match str2class objs s with
      | .error e => .error e
      | .ok o => addTypes reg objs l (m.setType o (.conf c))

/-- The loop over `module_name`, lines 145-148. -/
def addNames (reg : String → Option String) : List (String × QCfg) → Mapping → Except Err Mapping
  | [], m => .ok m
  | (s, q) :: l, m =>
    match convert reg q with
    | .error e => .error e
    | .ok c => addNames reg l (m.setName s (.conf c))

/-- `_global_`, lines 135-138. -/
def globalOf (reg : String → Option String) : Option QCfg → Except Err Mapping
  | none => .ok {}
  | some q =>
    match convert reg q with
    | .error e => .error e
    | .ok c => .ok { glob := some (.conf c) }

/-- `AcademicQuantizer.gen_qconfig_mapping`, lines 128-150. -/
def academicMapping (reg : String → Option String) (objs : String → Except Err Obj) (glob : Option QCfg) (types names : List (String × QCfg)) :
    Except Err Mapping :=
  match globalOf reg glob with
  | .error e => .error e
  | .ok m =>
    match addTypes reg objs types m with
    | .error e => .error e
    | .ok m => addNames reg names m

/-- A module: an object (new objects have no number and are distinct from all others), its kind, its
weights, and its named children. The same object may be several children of one module; modules that
are children of different modules are not identified here. -/
inductive Kind
  | floatFunctional | fxFloatFunctional | bn2d | syncBn | bnXd | other (name : String)
deriving DecidableEq, Repr

inductive Mod
  | node (id : Option Nat) (kind : Kind) (tensors : List Int) (children : List (String × Mod))
deriving Repr

def Mod.id : Mod → Option Nat
  | .node i _ _ _ => i

def Mod.kind : Mod → Kind
  | .node _ k _ _ => k

def Mod.tensors : Mod → List Int
  | .node _ _ t _ => t

def Mod.children : Mod → List (String × Mod)
  | .node _ _ _ c => c

/-- Whether an object is in a set of seen objects. -/
def seenBefore (seen : List Nat) : Option Nat → Bool
  | none => false
  | some i => seen.contains i

/-- Adding an object to the seen ones. -/
def see (seen : List Nat) : Option Nat → List Nat
  | none => seen
  | some i => i :: seen

mutual
/-- `swap_ff_with_fxff`, base.py lines 75-87. -/
def swapFF : Mod → Mod
  | .node i k t c =>
    let r := swapKids [] c
    .node i k t (r.1 ++ r.2.map fun n => (n, .node none .fxFloatFunctional [] []))
/-- The children that stay and the names to be swapped. `named_children` gives every object once (what
is changed inside an object shows under all its names). -/
def swapKids (seen : List Nat) : List (String × Mod) → List (String × Mod) × List String
  | [] => ([], [])
  | (n, m) :: l =>
    if seenBefore seen m.id then
      let r := swapKids seen l
      ((n, if m.kind = .floatFunctional then m else swapFF m) :: r.1, r.2)
    else
      let r := swapKids (see seen m.id) l
      if m.kind = .floatFunctional then (r.1, n :: r.2) else ((n, swapFF m) :: r.1, r.2)
end

/-- The weights of a new normalisation layer. -/
def fresh : List Int := []

mutual
/-- `convert_batchnorm2d`, base.py lines 37-58: a new `BatchNorm2d` without the old weights. -/
def convBN : Mod → Mod
  | .node i k t c => .node i k t (bnKids [] c)
def bnKids (seen : List Nat) : List (String × Mod) → List (String × Mod)
  | [] => []
  | (n, m) :: l =>
    if seenBefore seen m.id then (n, if m.kind = .syncBn ∨ m.kind = .bnXd then m else convBN m) :: bnKids seen l
    else (n, if m.kind = .syncBn ∨ m.kind = .bnXd then .node none .bn2d fresh [] else convBN m) :: bnKids (see seen m.id) l
end

end Verif.QuantCfg
