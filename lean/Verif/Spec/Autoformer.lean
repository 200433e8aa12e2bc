import Verif.Model.Autoformer
import Mathlib.Analysis.SpecialFunctions.Log.Basic
import Mathlib.Algebra.BigOperators.Intervals
import Mathlib.Tactic

/-! Definitions used in the statements of `Verif/Props/Autoformer.lean`. -/

namespace Verif.Autoformer
open Verif

/-- The row of a table for a displacement: displacements beyond the largest are cut; row 0 belongs to the
class token. -/
def rowOf (maxRel : ℕ) (δ : ℤ) : ℕ :=
  if δ < -(maxRel : ℤ) then 1 else if (maxRel : ℤ) < δ then 2 * maxRel + 1 else (δ + maxRel + 1).toNat

/-- A linear map with bias on the first `k` features. -/
noncomputable def affine (w : Linear) (k : ℕ) (x : ℕ → ℝ) (o : ℕ) : ℝ :=
  (∑ i ∈ Finset.range k, w.weight o i * x i) + (w.bias.getD fun _ => 0) o

/-- Scaled scores of one head: query `i` against key `j`, shifted by the embedding of their displacement. -/
noncomputable def headScore (wq wk : Linear) (k dim : ℕ) (scale : ℝ) (rk : ℕ → ℕ → ℕ → ℝ) (x : ℕ → ℕ → ℝ)
    (h i j : ℕ) : ℝ :=
  scale * ∑ d ∈ Finset.range dim,
    affine wq k (x i) (h * dim + d) * (affine wk k (x j) (h * dim + d) + rk i j d)

/-- What one head returns: the average of the values, each shifted by the embedding of the displacement,
with weights proportional to the exponentials of the scores. -/
noncomputable def headOut (wq wk wv : Linear) (k dim n : ℕ) (scale : ℝ) (rk rv : ℕ → ℕ → ℕ → ℝ) (x : ℕ → ℕ → ℝ)
    (h i d : ℕ) : ℝ :=
  (∑ j ∈ Finset.range n, Real.exp (headScore wq wk k dim scale rk x h i j) *
      (affine wv k (x j) (h * dim + d) + rv i j d)) /
    ∑ j ∈ Finset.range n, Real.exp (headScore wq wk k dim scale rk x h i j)

/-- The supernet layer and its choices fit: the weights have the sizes of the constructor, the choices
are at most these, the query width is 64 for each chosen head. -/
structure DynMha.Fits (m : DynMha) (h e : ℕ) : Prop where
  heads : m.heads = some h
  embed : m.embed = some e
  query : m.qEmbed = some (h * 64)
  pos : 0 < h
  le : h ≤ m.numHeads
  width : e ≤ m.embedDims
  inputs : ∀ w ∈ [m.wq, m.wk, m.wv], w.outF = m.numHeads * 64 ∧ w.inF = m.embedDims
  output : m.proj.inF = m.numHeads * 64 ∧ m.proj.outF = m.embedDims

/-- The embeddings that the layer adds to keys and values for `n` tokens: zero without relative positions. -/
def DynMha.Embeds (m : DynMha) (n : ℕ) (EK EV : ℕ → ℕ → ℕ → ℝ) : Prop :=
  (m.rel = none ∧ EK = (fun _ _ _ => 0) ∧ EV = fun _ _ _ => 0) ∨
    ∃ k v, m.rel = some (k, v) ∧ k.forward n = .ok (64, EK) ∧ v.forward n = .ok (64, EV)

/-- A layer for the examples: width `w`, one head, the first feature of everything is the first feature of
the input. -/
def tiny (w : ℕ) (scale : ℝ) (bias : Option (ℕ → ℝ)) (rel : Option (DynRelPos × DynRelPos)) : DynMha where
  embedDims := w
  numHeads := 1
  wq := ⟨64, w, fun o i => if o = 0 ∧ i = 0 then 1 else 0, bias⟩
  wk := ⟨64, w, fun o i => if o = 0 ∧ i = 0 then 1 else 0, bias⟩
  wv := ⟨64, w, fun o i => if o = 0 ∧ i = 0 then 1 else 0, bias⟩
  proj := ⟨w, 64, fun o i => if o = 0 ∧ i = 0 then 1 else 0, some fun _ => 0⟩
  scale := scale
  rel := rel
  heads := some 1
  embed := some w
  qEmbed := some 64

end Verif.Autoformer
