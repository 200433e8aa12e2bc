import Verif.Model.QuantCfg
import Mathlib.Tactic

/-! Definitions used in the statements of `Verif/Props/QuantCfg.lean`. -/

namespace Verif.QuantCfg
open Verif Verif.QParams

/-- The last entry for a key. -/
def lastOf {K V : Type} [DecidableEq K] (l : List (K × V)) (k : K) : Option V := ((l.filter fun p => p.1 = k).getLast?).map Prod.snd

/-- An option that is given and is not empty, zero or `False`, or that is not given and on by default. -/
def isOn (d : Dict) (k : String) (dflt : Bool) : Bool :=
  let v := (d.lookup k).getD (.bool dflt)
  v ∉ [PV.str "", .int 0, .bool false]

/-- The smallest and largest integer of a type with `b` bits. -/
def intRange (signed symRange : Bool) (b : Nat) : Int × Int :=
  match signed, symRange with
  | false, _ => (0, 2 ^ b - 1)
  | true, false => (-2 ^ (b - 1), 2 ^ (b - 1) - 1)
  | true, true => (-(2 ^ (b - 1) - 1), 2 ^ (b - 1) - 1)

/-- The keys that the observers' arguments always have. -/
def computed : List String := ["dtype", "quant_min", "quant_max", "qscheme", "reduce_range", "ch_axis"]

/-- Two configurations with the same schemes and the same types of classes. -/
def SameTypes (q q' : QCfg) : Prop :=
  (∀ k ∈ ["w_qscheme", "a_qscheme"], q k = q' k) ∧
  ∀ k ∈ ["w_observer", "a_observer", "w_fake_quant", "a_fake_quant"],
    ∃ d d', q k = some (.dict d) ∧ q' k = some (.dict d') ∧ d.lookup "type" = d'.lookup "type"

mutual
/-- The kinds of all modules below a module. -/
def below : Mod → List Kind
  | .node _ _ _ c => belowKids c
def belowKids : List (String × Mod) → List Kind
  | [] => []
  | (_, m) :: l => m.kind :: below m ++ belowKids l
end

mutual
/-- No module has the same object twice among its children. -/
def Plain : Mod → Prop
  | .node _ _ _ c => PlainKids [] c
def PlainKids (seen : List Nat) : List (String × Mod) → Prop
  | [] => True
  | (_, m) :: l => seenBefore seen m.id = false ∧ Plain m ∧ PlainKids (see seen m.id) l
end

/-- A scheme of the documentation. -/
def exScheme : Dict := [("qdtype", .str "qint8"), ("bit", .int 8), ("is_symmetry", .bool true), ("is_symmetric_range", .bool true), ("averaging_constant", .str "0.1")]

/-- A configuration of the documentation. -/
def exCfg : QCfg
  | "w_observer" => some (.dict [("type", .str "mmrazor.PerChannelMinMaxObserver")])
  | "a_observer" => some (.dict [("type", .str "mmrazor.MovingAverageMinMaxObserver"), ("averaging_constant", .str "0.5")])
  | "w_fake_quant" => some (.dict [("type", .str "mmrazor.FakeQuantize")])
  | "a_fake_quant" => some (.dict [("type", .str "mmrazor.FakeQuantize")])
  | "w_qscheme" => some (.dict exScheme)
  | "a_qscheme" => some (.dict [("qdtype", .str "quint8")])
  | _ => none

/-- A registry. -/
def exReg : String → Option String
  | "mmrazor.PerChannelMinMaxObserver" => some "PerChannelMinMaxObserver"
  | "mmrazor.MovingAverageMinMaxObserver" => some "MovingAverageMinMaxObserver"
  | "mmrazor.FakeQuantize" => some "FakeQuantize"
  | _ => none

/-- What the configuration means. -/
def exConf : QConf :=
  { weight := ⟨"FakeQuantize", "PerChannelMinMaxObserver", [("averaging_constant", .str "0.1"), ("dtype", .str "qint8"), ("quant_min", .int (-127)),
      ("quant_max", .int 127), ("qscheme", .str "per_channel_symmetric"), ("reduce_range", .bool false), ("ch_axis", .int 0)]⟩
    activation := ⟨"FakeQuantize", "MovingAverageMinMaxObserver", [("dtype", .str "quint8"), ("quant_min", .int 0), ("quant_max", .int 255),
      ("qscheme", .str "per_tensor_symmetric"), ("reduce_range", .bool false)]⟩ }

/-- A block with a sum between two layers. -/
def exBlock (i j : Nat) : Mod :=
  .node (some 0) (.other "Block") [] [("skip", .node (some i) .floatFunctional [] []), ("conv", .node (some 2) (.other "Conv2d") [5] []),
    ("add", .node (some j) .floatFunctional [] [])]

end Verif.QuantCfg
