import Verif.Lemmas.ChannelOrdinary
import Verif.Props.ChannelNodes

/-! Property C100 for graphs with flattened maps and concatenations. -/

namespace Verif.ChannelNodes
open Verif

/-! ## Property C100 -/

/-- For every graph of convolutions, linear layers, normalisations, activations, additions, flattenings, concatenations, inputs and
outputs that goes through: its search units exist, and the masks that the layers can get from them are exactly the admissible ones.
Nothing is asked of the units that come out; additions join whole layers, concatenations are not flattened, and a layer that is used at
several places sees whole layers. -/
theorem C100_ordinary {inputs : Nat} {nodes : List Node} {fs : List Form} (h0 : 0 < inputs ∧ inputs ≤ 2 ^ 32) (hn : Ordinary nodes fs)
    {recs : List Rec} {s : S} (h : forward inputs nodes = .ok (recs, s)) (hb : ∀ r ∈ recs, r.ret.length ≤ 2 ^ 32) :
    ∃ cfg, unitsOf nodes recs s.table = .ok cfg ∧
      (∀ masks : Finset Nat → List Bool, (∀ h, (masks h).length = numOf cfg h) →
        ∃ φ : Elem → Bool, Admissible nodes recs φ ∧ ∀ r ∈ recs,
          maskOf cfg masks s.table r.inp = .ok (r.inp.map φ) ∧ maskOf cfg masks s.table r.out = .ok (r.out.map φ)) ∧
      ∀ φ : Elem → Bool, Admissible nodes recs φ →
        ∃ masks : Finset Nat → List Bool, (∀ h, (masks h).length = numOf cfg h) ∧ ∀ r ∈ recs,
          maskOf cfg masks s.table r.inp = .ok (r.inp.map φ) ∧ maskOf cfg masks s.table r.out = .ok (r.out.map φ) := by
  obtain ⟨ps, L, hp, hr⟩ := ord_plan h0 hn h hb
  obtain ⟨recs', s', cfg, h1, h2, h3, h4⟩ := C100_masks_partial hp hr
  rw [h] at h1
  simp only [Except.ok.injEq, Prod.mk.injEq] at h1
  obtain ⟨rfl, rfl⟩ := h1
  exact ⟨cfg, h2, h3, h4⟩

/-- A densely connected network with a flattened layer in front of its classifier is such a graph, and it goes through. -/
example : Ordinary denseNet denseForms ∧ ∃ recs s, forward 3 denseNet = .ok (recs, s) ∧ ∀ r ∈ recs, r.ret.length ≤ 2 ^ 32 := by
  refine ⟨⟨by decide, ?_, ?_, ?_⟩, ?_⟩
  · intro n hn
    simp only [denseNet, List.mem_cons, List.not_mem_nil, or_false] at hn
    rcases hn with rfl | rfl | rfl | rfl | rfl | rfl | rfl | rfl | rfl | rfl | rfl <;> simp [SizedKind]
  · intro n hn
    simp only [denseNet, List.mem_cons, List.not_mem_nil, or_false] at hn
    rcases hn with rfl | rfl | rfl | rfl | rfl | rfl | rfl | rfl | rfl | rfl | rfl <;> simp
  · simp [denseNet, denseForms, Direct]
  · let p := (forward 3 denseNet).toOption.getD ([], ⟨[], []⟩)
    exact ⟨p.1, p.2, ok_getD ([], ⟨[], []⟩) (by decide +kernel), by decide +kernel⟩

end Verif.ChannelNodes
