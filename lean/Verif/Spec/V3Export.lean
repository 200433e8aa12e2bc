import Verif.Model.V3Export
import Verif.Spec.Backbones

/-! The network that is built directly with what was chosen. -/

namespace Verif.V3Export
open Verif Backbones

/-- The settings of a layer with one candidate each: what was chosen for its first block. -/
def alone (st : VStage) (ch : VChoice) : VStage :=
  ⟨[ch.c], [ch.k 0], [ch.r 0], [ch.d], st.stride, st.se⟩

/-- The settings of a network with one candidate each. -/
def Space.alone (s : Space) (ch : Choice) : Space :=
  ⟨s.att, [ch.first], List.zipWith V3Export.alone s.stages ch.stages, [ch.lastRatio], [ch.lastChan]⟩

/-- All blocks of a layer have the same kernel and the same ratio, as without `fine_grained_mode`. -/
def Uniform (ch : VChoice) : Prop := ∀ i, ch.k i = ch.k 0 ∧ ch.r i = ch.r 0

/-- Sensible candidates, and a choice from them. -/
structure Chosen (s : Space) (ch : Choice) : Prop where
  first : ch.first ∈ s.first ∧ ∀ c ∈ s.first, 1 ≤ c
  count : ch.stages.length = s.stages.length
  stages : ∀ p ∈ s.stages.zip ch.stages, VGood p.1 ∧ VChosen p.1 p.2 ∧ Uniform p.2
  lastRatio : ch.lastRatio ∈ s.lastRatios
  lastChan : ch.lastChan ∈ s.lastChans

/-- When nothing of a layer depends on what was not chosen: a ratio of one was chosen only if no ratio
is larger, and (without the attentive shortcut, for a stride of one) the chosen channels into and out
of it are equal exactly if the largest ones are. -/
def LayerSame (att : Bool) (mIn cin : ℕ) (st : VStage) (ch : VChoice) : Prop :=
  (ch.r 0 = 1 → top st.ratios = 1) ∧
    (att = false → st.stride = 1 → (mIn = top st.chans ↔ cin = ch.c))

/-- The same for all layers in a row. -/
def AllSame (att : Bool) : ℕ → ℕ → List (VStage × VChoice) → Prop
  | _, _, [] => True
  | mIn, cin, (st, ch) :: l => LayerSame att mIn cin st ch ∧ AllSame att (top st.chans) ch.c l

/-- Candidates of two layers, with a ratio of one in the second. -/
def exSpace (att : Bool) : Space :=
  ⟨att, [16, 24], [⟨[16, 24], [3, 5], [4, 6], [1, 2], 2, true⟩, ⟨[24, 32], [3, 5], [1, 6], [2, 3], 1, false⟩],
   [6], [1792, 1984]⟩

/-- A choice from them; `r` is the ratio of the second layer. -/
def exChoice (r : ℕ) : Choice :=
  ⟨16, [⟨24, 2, fun _ => 5, fun _ => 4⟩, ⟨24, 2, fun _ => 3, fun _ => r⟩], 6, 1792⟩

end Verif.V3Export
