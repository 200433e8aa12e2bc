import Verif.Lemmas.ChannelPlain
import Verif.Props.ChannelNodes

/-! Property C100 for graphs of ordinary layers. -/

namespace Verif.ChannelNodes
open Verif

/-! ## Property C100 -/

/-- For every graph of convolutions, linear layers, normalisations, activations, additions, inputs and outputs (layers may be shared)
that goes through: its search units exist, and the masks that the layers can get from them are exactly the admissible ones. Unlike in
`C100_masks_partial`, nothing is asked of the units that come out. -/
theorem C100_plain {inputs : Nat} {nodes : List Node} (h0 : 0 < inputs ∧ inputs ≤ 2 ^ 32) (hn : ∀ n ∈ nodes, PlainNode n)
    {recs : List Rec} {s : S} (h : forward inputs nodes = .ok (recs, s)) :
    ∃ cfg, unitsOf nodes recs s.table = .ok cfg ∧
      (∀ masks : Finset Nat → List Bool, (∀ h, (masks h).length = numOf cfg h) →
        ∃ φ : Elem → Bool, Admissible nodes recs φ ∧ ∀ r ∈ recs,
          maskOf cfg masks s.table r.inp = .ok (r.inp.map φ) ∧ maskOf cfg masks s.table r.out = .ok (r.out.map φ)) ∧
      ∀ φ : Elem → Bool, Admissible nodes recs φ →
        ∃ masks : Finset Nat → List Bool, (∀ h, (masks h).length = numOf cfg h) ∧ ∀ r ∈ recs,
          maskOf cfg masks s.table r.inp = .ok (r.inp.map φ) ∧ maskOf cfg masks s.table r.out = .ok (r.out.map φ) := by
  obtain ⟨ps, L, hp, hr⟩ := plain_plan h0 hn h
  obtain ⟨recs', s', cfg, h1, h2, h3, h4⟩ := C100_masks_partial hp hr
  rw [h] at h1
  simp only [Except.ok.injEq, Prod.mk.injEq] at h1
  obtain ⟨rfl, rfl⟩ := h1
  exact ⟨cfg, h2, h3, h4⟩

/-- A residual network with a layer used twice is such a graph, and it goes through. -/
example : (∀ n ∈ sharedNet, PlainNode n) ∧ ∃ recs s, forward 3 sharedNet = .ok (recs, s) := by
  refine ⟨?_, ?_⟩
  · intro n hn
    simp only [sharedNet, List.mem_cons, List.not_mem_nil, or_false] at hn
    rcases hn with rfl | rfl | rfl | rfl | rfl | rfl | rfl | rfl | rfl <;> simp [PlainNode, PlainKind]
  · let p := (forward 3 sharedNet).toOption.getD ([], ⟨[], []⟩)
    exact ⟨p.1, p.2, ok_getD ([], ⟨[], []⟩) (by decide +kernel)⟩

end Verif.ChannelNodes
