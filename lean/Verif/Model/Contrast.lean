import Verif.Py
import Mathlib.Analysis.SpecialFunctions.Log.Basic
import Mathlib.Analysis.Real.Sqrt

/-! Model of `mmrazor/models/losses/crd_loss.py`: the alias table that draws negatives, the memory of
features and the contrastive loss.

Numbers are exact; `none` stands for a value that is not a number. Sample indices are taken to be
valid rows of the memory. -/

namespace Verif.Contrast
open Verif

/-! ### Alias method -/

/-- The state of `AliasMethod.__init__`; the lists are held in reverse, their head is the element
`pop` takes. -/
structure Table where
  prob : ℕ → ℚ
  alias' : ℕ → ℕ
  smaller : List ℕ
  larger : List ℕ

/-- `probs.div_(probs.sum())` if the sum exceeds one, crd_loss.py lines 217-218. -/
def normalise (p : List ℚ) : List ℚ := if p.sum > 1 then p.map (· / p.sum) else p

/-- One pass of the first loop, crd_loss.py lines 227-232. -/
def sortOne (n : ℕ) (t : Table) (k : ℕ) (p : ℚ) : Table :=
  let t := { t with prob := Function.update t.prob k (n * p) }
  if n * p < 1 then { t with smaller := k :: t.smaller } else { t with larger := k :: t.larger }

/-- The first loop, crd_loss.py lines 219-232, from index `k` on. -/
def sortFrom (n : ℕ) (t : Table) (k : ℕ) : List ℚ → Table
  | [] => t
  | p :: ps => sortFrom n (sortOne n t k p) (k + 1) ps

/-- One pass of the second loop on the popped indices, crd_loss.py lines 241-247. -/
def pairOne (t : Table) (small large : ℕ) (ss ls : List ℕ) : Table :=
  let q := (t.prob large - 1) + t.prob small
  let t := { t with alias' := Function.update t.alias' small large, prob := Function.update t.prob large q }
  if q < 1 then { t with smaller := large :: ss, larger := ls } else { t with smaller := ss, larger := large :: ls }

/-- The second loop, crd_loss.py lines 237-247; every pass shortens the two lists by one, so their
length bounds the number of passes. -/
def pairLoop : ℕ → Table → Table
  | 0, t => t
  | f + 1, t =>
    match t.smaller, t.larger with
    | s :: ss, l :: ls => pairLoop f (pairOne t s l ss ls)
    | _, _ => t

/-- `self.prob[last_one] = 1` for the rest, crd_loss.py lines 249-250. -/
def finish (t : Table) : Table :=
  { t with prob := (t.smaller ++ t.larger).foldl (fun f k => Function.update f k 1) t.prob }

/-- `AliasMethod.__init__`, crd_loss.py lines 215-250. -/
def build (p : List ℚ) : Table :=
  let p := normalise p
  let t := sortFrom p.length ⟨fun _ => 0, fun _ => 0, [], []⟩ 0 p
  finish (pairLoop (t.smaller.length + t.larger.length) t)

/-- One entry of `AliasMethod.draw`, crd_loss.py lines 257-271, for the row `k` drawn evenly and the
coin `b` that falls true with probability `prob[k]`. -/
def draw (t : Table) (k : ℕ) (b : Bool) : ℕ := k * b.toNat + t.alias' k * (1 - b.toNat)

/-! ### Memory -/

/-- A row of the memory. -/
abbrev Row (D : ℕ) : Type := Option (Fin D → ℝ)

/-- The buffers of `ContrastMemory` that change: two normalisation constants, set to minus one at
first, and two memories, crd_loss.py lines 130-138. -/
structure Memory (n D : ℕ) where
  zs : Option ℝ
  zt : Option ℝ
  v1 : Fin n → Row D
  v2 : Fin n → Row D

/-- The constructor arguments of `CRDLoss`, crd_loss.py lines 26-40. -/
structure Cfg where
  weight : ℝ
  temperature : ℝ
  momentum : ℝ
  eps : ℝ

/-- The rows to compare with: drawn ones with the sample itself in front, or given ones which must be
`K + 1` per sample, crd_loss.py lines 155-163. -/
def pick {B K n : ℕ} (idx : Fin B → Fin n) (drawn : Fin B → Fin (K + 1) → Fin n) (given : Option (Fin B → List (Fin n))) :
    Except Err (Fin B → Fin (K + 1) → Fin n) :=
  match given with
  | none => .ok fun b k => if k = 0 then idx b else drawn b k
  | some l => if h : ∀ b, (l b).length = K + 1 then .ok fun b k => (l b).get (k.cast (h b).symm) else .error .runtime

/-- `torch.exp(torch.div(torch.bmm(..), T))` of one row and one feature, crd_loss.py lines 161-171. -/
noncomputable def score {D : ℕ} (T : ℝ) (v : Row D) (f : Fin D → ℝ) : Option ℝ := v.map fun v => Real.exp ((∑ d, v d * f d) / T)

/-- A table of numbers, none of which is missing. -/
def complete {B K : ℕ} (x : Fin B → Fin K → Option ℝ) : Option (Fin B → Fin K → ℝ) :=
  if ∀ b k, (x b k).isSome then some fun b k => (x b k).getD 0 else none

/-- The normalisation constant after a forward pass, crd_loss.py lines 173-181. -/
noncomputable def constant {B K : ℕ} (n : ℕ) (z : Option ℝ) (x : Fin B → Fin K → Option ℝ) : Option ℝ :=
  match z with
  | some r => if r < 0 then (complete x).map fun x => (∑ b, ∑ k, x b k) / (B * K) * n else some r
  | none => none

/-- `torch.div(out, Z)`, crd_loss.py lines 183-185. -/
noncomputable def divide (x z : Option ℝ) : Option ℝ :=
  match x, z with
  | some x, some z => some (x / z)
  | _, _ => none

open Classical in
/-- A row moved towards a feature and normalised, crd_loss.py lines 189-193. -/
noncomputable def moved {D : ℕ} (m : ℝ) (v : Row D) (f : Fin D → ℝ) : Row D :=
  match v with
  | some v =>
    let l : Fin D → ℝ := fun d => v d * m + f d * (1 - m)
    let norm := Real.sqrt (∑ d, l d ^ 2)
    if norm = 0 then none else some fun d => l d / norm
  | none => none

/-- `index_copy_` of the moved rows, crd_loss.py lines 188-201: all are computed from the memory as it
was, and with one index given twice the last copy stays. -/
noncomputable def update {B n D : ℕ} (m : ℝ) (v : Fin n → Row D) (idx : Fin B → Fin n) (f : Fin B → Fin D → ℝ) : Fin n → Row D :=
  (List.finRange B).foldl (fun v' b => Function.update v' (idx b) (moved m (v (idx b)) (f b))) v

/-- `ContrastMemory.forward` on chosen rows, crd_loss.py lines 140-203. -/
noncomputable def memoryForward {B K n D : ℕ} (c : Cfg) (st : Memory n D) (fs ft : Fin B → Fin D → ℝ) (idx : Fin B → Fin n)
    (rows : Fin B → Fin (K + 1) → Fin n) : Memory n D × (Fin B → Fin (K + 1) → Option ℝ) × (Fin B → Fin (K + 1) → Option ℝ) :=
  let outT : Fin B → Fin (K + 1) → Option ℝ := fun b k => score c.temperature (st.v1 (rows b k)) (ft b)
  let outS : Fin B → Fin (K + 1) → Option ℝ := fun b k => score c.temperature (st.v2 (rows b k)) (fs b)
  let zs := constant n st.zs outS
  let zt := constant n st.zt outT
  (⟨zs, zt, update c.momentum st.v1 idx fs, update c.momentum st.v2 idx ft⟩,
    fun b k => divide (outS b k) zs, fun b k => divide (outT b k) zt)

/-- `ContrastLoss.forward`, crd_loss.py lines 81-99. -/
noncomputable def contrastLoss {B K : ℕ} (n : ℕ) (eps : ℝ) (x : Fin B → Fin (K + 1) → ℝ) : ℝ :=
  let pn : ℝ := 1 / n
  let d1 : ℝ := ∑ b, Real.log (x b 0 / (x b 0 + (K * pn + eps)))
  let d0 : ℝ := ∑ b, ∑ k : Fin K, Real.log (K * pn / (x b k.succ + (K * pn + eps)));
  -(d1 + d0) / B

/-- `CRDLoss.forward`, crd_loss.py lines 42-65. -/
noncomputable def crdForward {B K n D : ℕ} (c : Cfg) (st : Memory n D) (fs ft : Fin B → Fin D → ℝ) (idx : Fin B → Fin n)
    (drawn : Fin B → Fin (K + 1) → Fin n) (given : Option (Fin B → List (Fin n))) : Except Err (Memory n D × Option ℝ) :=
  match pick idx drawn given with
  | .error e => .error e
  | .ok rows =>
    let r := memoryForward c st fs ft idx rows
    .ok (r.1, match complete r.2.1, complete r.2.2 with
      | some s, some t => some (contrastLoss n c.eps s + contrastLoss n c.eps t)
      | _, _ => none)

end Verif.Contrast
