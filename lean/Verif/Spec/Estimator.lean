import Verif.Model.Estimator
import Mathlib.Tactic

/-! Definitions used in the statements of `Verif/Props/Estimator.lean`. -/

namespace Verif.Estimator
open Verif

/-- The same call on a batch `B` times as large. -/
def Call.scale (B : Nat) (c : Call) : Call := ⟨c.mod, ⟨B * c.inp.batch, c.inp.dims⟩, ⟨B * c.out.batch, c.out.dims⟩⟩

/-- Every counter but that of upsampling, on an output that has more than a batch
dimension. -/
def Plain (kinds : Nat → Kind) (c : Call) : Prop := (∀ p, kinds c.mod ≠ .upsample p) ∧ c.out.dims ≠ []

/-- The number of elements of weight and bias of an ordinary layer. -/
def Kind.numel : Kind → Nat
  | .conv k cin cout g b => cout * (cin / g) * k.prod + (if b then cout else 0)
  | .dynConv k cin cout g b _ _ => cout * (cin / g) * k.prod + (if b then cout else 0)
  | .linear p => p
  | .norm _ p => p
  | .dmcpNorm _ a _ => 2 * a
  | .act p => p
  | .pool p => p
  | .upsample p => p
  | .deconv _ _ _ _ _ _ p => p
  | .uncounted => 0

/-- An ordinary layer the library accepts: the groups divide the inputs. -/
def Kind.Valid : Kind → Prop
  | .conv _ cin _ g _ => 0 < g ∧ g ∣ cin
  | .dynConv .. => False
  | _ => True

mutual
/-- A module and everything below it, with repetitions. -/
def Tree.ids : Tree → List Nat
  | .leaf i => [i]
  | .node i cs => i :: Tree.idsAll cs
/-- The same for several modules. -/
def Tree.idsAll : List Tree → List Nat
  | [] => []
  | t :: ts => t.ids ++ Tree.idsAll ts
end

mutual
/-- The counted modules below a module. -/
def Tree.leaves : Tree → List Nat
  | .leaf i => [i]
  | .node _ cs => Tree.leavesAll cs
/-- The same for several modules. -/
def Tree.leavesAll : List Tree → List Nat
  | [] => []
  | t :: ts => t.leaves ++ Tree.leavesAll ts
end

/-- A module and everything below it. -/
inductive Tree.Below : Tree → Tree → Prop
  | refl (t : Tree) : Tree.Below t t
  | child (i : Nat) (cs : List Tree) (c m : Tree) (h : c ∈ cs) (hb : Tree.Below m c) : Tree.Below m (.node i cs)

/-- A searchable convolution whose groups are kept on export. -/
def Layer.SameGroups : Layer → Prop
  | .conv cls _ cin cout g _ ai _ => cls = "DynamicConv2d" ∧ (g = cin ∧ cin = cout → ai.getD g = g)
  | _ => False

/-- Shapes as a layer produces them: a convolution keeps the batch and gives its output
channels, a linear layer changes the last dimension only. Upsampling with one sample, transposed
convolutions with square outputs. -/
def Kind.Fits : Kind → Shape → Shape → Prop
  | .conv _ cin cout g _, i, o => 0 < g ∧ g ∣ cin ∧ i.batch = o.batch ∧ o.dims.head? = some cout
  | .linear _, i, o => ∃ d fi fo, i = ⟨o.batch, d ++ [fi]⟩ ∧ o.dims = d ++ [fo]
  | .norm .., _, _ => True
  | .act .., _, _ => True
  | .pool .., _, _ => True
  | .upsample .., _, o => o.batch = 1
  | .deconv _ _ cin cout _ b _, i, o => ∃ h w h' w', i = ⟨o.batch, [cin, h, w]⟩ ∧ o.dims = [cout, h', w'] ∧ (b = true → h' = w')
  | _, _, _ => False

/-- The operations of one call: every output of a convolution takes one multiplication for
each weight it is connected to, and one for the bias; every output of a linear layer one for
each input feature; a norm one for each element, two with weight and bias; an activation one
for each output, a pooling one for each input, an upsampling one for each output; every input of
a transposed convolution takes one multiplication for each weight it is connected to, and every
output one for the bias. -/
def Kind.work : Kind → Shape → Shape → Nat
  | .conv k cin _ g b, _, o => o.numel * (cin / g * k.prod + if b then 1 else 0)
  | .linear _, i, o => o.numel * i.dims.getLast?.getD 0
  | .norm affine _, i, _ => i.numel + if affine then i.numel else 0
  | .act _, _, o => o.numel
  | .pool _, i, _ => i.numel
  | .upsample _, _, o => o.numel
  | .deconv kh kw _ cout g b _, i, o => i.numel * (kh * kw * (cout / g)) + if b then o.numel else 0
  | _, _, _ => 0

end Verif.Estimator
