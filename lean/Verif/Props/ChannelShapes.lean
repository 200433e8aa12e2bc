import Verif.Lemmas.ChannelShapes

/-! Property C100: which graphs go through. -/

namespace Verif.ChannelNodes
open Verif

/-! ## Property C100 -/

/-- Whether a node takes its inputs, and how it complains otherwise, depends on their numbers of channels alone. -/
theorem C100_refusals (k : Kind) (ins : List Tensor) (s : S) (e : Err) :
    forwardNode k ins s = .error e ↔ refusal k (ins.map List.length) = some e := by
  have h := forwardNode_cases k ins s
  cases hr : refusal k (ins.map List.length) with
  | none =>
    rw [hr] at h
    obtain ⟨r, s', h⟩ := h
    rw [h]
    simp
  | some e' =>
    rw [hr] at h
    dsimp only at h
    rw [h]
    simp

/-- Two maps of different widths are not added, and eight channels in three groups are refused. -/
example : refusal .bind [4, 4, 5] = some .assertion ∧ refusal .bind [4, 4] = none ∧ refusal (.group 3 9) [8] = some .assertion ∧
    refusal (.group 4 8) [8] = none := by decide

/-- A graph goes through exactly when its numbers of channels fit, and the channels of its layers are those numbers: nothing else can
go wrong. -/
theorem C100_shapes (inputs : Nat) (nodes : List Node) :
    (forward inputs nodes).map (fun p => p.1.map Rec.sizes) = shapes inputs nodes := by
  have h := all_sizes inputs nodes [] ⟨[], []⟩
  unfold forward shapes
  rw [List.map_nil] at h
  cases h1 : sizesAll inputs nodes [] with
  | error e =>
    rw [h1] at h
    dsimp only at h ⊢
    rw [h]
    rfl
  | ok zs =>
    rw [h1] at h
    obtain ⟨recs, s', e1, e2⟩ := h
    rw [e1]
    dsimp only
    obtain ⟨a, b⟩ := merge_sizes (nodes.zip recs) [] s'
    rw [← e2]
    by_cases hA : SizesAgree (nodes.zip (recs.map Rec.sizes))
    · obtain ⟨s2, e3⟩ := a ((agree_iff nodes recs).1 hA)
      rw [e3, if_pos hA]
      rfl
    · rw [b (fun hc => hA ((agree_iff nodes recs).2 hc)), if_neg hA]
      rfl

/-- A layer that is used twice with different widths is refused; with the same width it goes through. -/
example :
    shapes 3 [⟨"x", .input 3, [], none⟩, ⟨"a", .mix 4, [0], some 0⟩, ⟨"b", .mix 4, [1], some 0⟩] = .error .assertion ∧
    shapes 3 [⟨"x", .input 3, [], none⟩, ⟨"a", .mix 3, [0], some 0⟩, ⟨"b", .mix 3, [1], some 0⟩, ⟨"c", .cat, [1, 2], none⟩] =
      .ok [⟨3, 3, 3⟩, ⟨3, 3, 3⟩, ⟨3, 3, 3⟩, ⟨6, 6, 6⟩] := by
  constructor <;> rfl

end Verif.ChannelNodes
