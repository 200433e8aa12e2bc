import Verif.Model.Backbones
import Verif.Spec.SearchOps

/-! Definitions used in the statements of `Verif/Props/Backbones.lean`. -/

namespace Verif.Backbones
open Verif SearchOps

/-- Shapes after each of the stages, given by widths and strides, when sizes have
been divided by `t` so far: the sizes of the input divided by all strides up to
the stage and rounded up once. -/
def stageShapes (h w : ℕ) : ℕ → List (ℕ × ℕ) → List Shape
  | _, [] => []
  | t, (c, s) :: l => ⟨c, up h (t * s), up w (t * s)⟩ :: stageShapes h w (t * s) l

/-- The outputs asked for, in the order of the stages. -/
def selected (outIdx : List ℤ) (ys : List Shape) : List Shape :=
  (ys.zipIdx.filter (fun p => decide ((p.2 : ℤ) ∈ outIdx))).map Prod.fst

/-- A stage whose candidates all fit as its first and as a further block. -/
def GoodStage (st : Stage) : Prop :=
  1 ≤ st.blocks ∧ 1 ≤ st.stride
  ∧ ∀ op ∈ st.cands, ∀ x : Shape, 1 ≤ x.h → 1 ≤ x.w →
    Fits op x.c st.width st.stride x ∧ (x.c = st.width → Fits op st.width st.width 1 x)

/-- One candidate chosen for each block of each stage. -/
def Chosen (st : Stage) (ops : List Op) : Prop :=
  ops.length = st.blocks ∧ ∀ op ∈ ops, op ∈ st.cands

/-- Stages of a searchable MobileNetV2: blocks with odd kernels, or identities. -/
def MobileStage (st : Stage) : Prop :=
  1 ≤ st.blocks ∧ (st.stride = 1 ∨ st.stride = 2)
  ∧ ∀ op ∈ st.cands, op = .identity ∨ ∃ k e se, op = .mb k e se false ∧ k % 2 = 1

/-- The candidates of a searchable ShuffleNetV2. -/
def IsShuffle (op : Op) : Prop :=
  op = .shuffle 3 ∨ op = .shuffle 5 ∨ op = .shuffle 7 ∨ op = .xception

/-- Stages of a searchable ShuffleNetV2. -/
def ShuffleStage (st : Stage) : Prop :=
  1 ≤ st.blocks ∧ st.stride = 2 ∧ st.width % 2 = 0 ∧ ∀ op ∈ st.cands, IsShuffle op

/-- A choice from the candidates of a layer of AttentiveMobileNetV3. -/
def VChosen (st : VStage) (ch : VChoice) : Prop :=
  ch.c ∈ st.chans ∧ ch.d ∈ st.depths ∧ (∀ i, ch.k i ∈ st.kernels) ∧ (∀ i, ch.r i ∈ st.ratios)

/-- Sensible candidates: positive numbers of channels, blocks and expand ratios, odd
kernels, strides of 1 or 2. -/
def VGood (st : VStage) : Prop :=
  (∀ c ∈ st.chans, 1 ≤ c) ∧ (∀ d ∈ st.depths, 1 ≤ d) ∧ (∀ k ∈ st.kernels, k % 2 = 1)
  ∧ (∀ r ∈ st.ratios, 1 ≤ r) ∧ (st.stride = 1 ∨ st.stride = 2)

/-- Shape of the output of the last convolution of a network with these strides;
none if it has no such layer. -/
def lastShape (h w : ℕ) (strides : List ℕ) : Option ℕ → List Shape
  | some c => [⟨c, up h (2 * strides.prod), up w (2 * strides.prod)⟩]
  | none => []

/-- A layer with two candidates for everything. -/
def exStage : VStage := ⟨[16, 24], [3, 5], [4, 5, 6], [1, 2], 2, true⟩
/-- A subnet of it. -/
def exChoice : VChoice := ⟨24, 2, fun i => if i = 0 then 5 else 3, fun i => 4 + i % 3⟩

end Verif.Backbones
