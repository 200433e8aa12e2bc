import Verif.Lemmas.ChannelGraph

namespace Verif.ChannelGraph
open Verif

/-- If no two neighbouring predecessors both ask for it, every edge that is short by a
whole factor gets one expansion node with that factor, in place of the direct edge, and
the other edges stay. Missing: neighbouring predecessors that both ask for it, see `C23_expand_violated`. -/
theorem C23_expand_partial (k : Kind) (n : Nat) (s : S) (h0 : 0 < n) (hH : Has k n s.prev)
    (hpos : ∀ p ∈ s.prev, 0 < p.out) (hnd : s.prev.Nodup) (hap : Apart n s.prev) :
    insertExpand k s = .ok
      ⟨s.prev.filter (fun p => decide (¬ Needs n p)) ++
          ((s.prev.filter (fun p => decide (Needs n p))).zipIdx s.made.length).map
            (fun q => ⟨.expand q.2, n⟩),
        s.made ++ (s.prev.filter (fun p => decide (Needs n p))).map (fun p => (p.name, n / p.out))⟩ := by
  unfold insertExpand
  by_cases hc : checkChannel k s.prev = true
  · rw [if_pos hc]
    have : ∀ p ∈ s.prev, ¬ Needs n p := by
      intro p hp h
      simp only [checkChannel, List.all_eq_true, decide_eq_true_eq] at hc
      have := hc p hp
      rw [has_in hH] at this
      have := h.1; omega
    have e1 : s.prev.filter (fun p => decide (¬ Needs n p)) = s.prev := List.filter_eq_self.2 (by simpa using this)
    have e2 : s.prev.filter (fun p => decide (Needs n p)) = [] := List.filter_eq_nil_iff.2 (by simpa using this)
    rw [e1, e2]; simp
  · rw [if_neg hc]
    obtain ⟨xs, h1, h2⟩ := loop_spec (k := k) h0 s.prev.length s.prev [] [] s.made s.prev.length (le_refl _) (le_refl _)
      (by simpa using hH) (by simpa using hpos) (by simpa using hnd) hap (by simp) (by simp)
    simp only [List.nil_append, List.append_nil, List.length_nil] at h1
    rw [h1, h2]

/-- A node with a single predecessor always ends up consistent when the numbers of
channels differ by a factor. -/
theorem C23_single (n : Nat) (p : Pre) (made : List (Name × Nat)) (h0 : 0 < n) (hp : 0 < p.out)
    (hneed : Needs n p) :
    insertExpand (.module n) ⟨[p], made⟩ =
      .ok ⟨[⟨.expand made.length, n⟩], made ++ [(p.name, n / p.out)]⟩ := by
  rw [C23_expand_partial (.module n) n ⟨[p], made⟩ h0 rfl (by simpa using hp) (by simp) (by simp [Apart])]
  simp [hneed]

/-- With two neighbouring predecessors that both ask for an expansion the second one is
passed over: its edge keeps its mismatch. -/
theorem C23_expand_violated :
    insertExpand (.module 8) ⟨[⟨.orig 0, 4⟩, ⟨.orig 1, 2⟩], []⟩ =
      .ok ⟨[⟨.orig 1, 2⟩, ⟨.expand 0, 8⟩], [(.orig 0, 2)]⟩ ∧ Needs 8 ⟨.orig 1, 2⟩ := by
  constructor <;> decide

/-- The same when the node adds its inputs: 8 channels, then two single-channel maps. -/
theorem C23_expand_sum_violated :
    insertExpand .first ⟨[⟨.orig 0, 8⟩, ⟨.orig 1, 1⟩, ⟨.orig 2, 1⟩], []⟩ =
      .ok ⟨[⟨.orig 0, 8⟩, ⟨.orig 2, 1⟩, ⟨.expand 0, 8⟩], [(.orig 1, 8)]⟩ ∧ Needs 8 ⟨.orig 2, 1⟩ := by
  constructor <;> decide

/-! ### Unit configurations -/

/-- The generated configuration has one unit per group of channels, and a range of a
layer is listed in the unit of a group exactly when the layer has that range of channels
in that group; nothing is lost and nothing is listed elsewhere. -/
theorem C22_units {N H : Type} [DecidableEq N] [DecidableEq H] (ns : List (NodeRanges N H)) :
    ((unitsConfig ns).map (·.1)).Nodup ∧
    ∀ isOut h c, (∃ u k, (h, u, k) ∈ unitsConfig ns ∧ c ∈ side isOut u) ↔
      ∃ n ∈ ns, ∃ r ∈ nodeSide isOut n, r.2 = h ∧ c = ⟨n.name, r.1.1, r.1.2⟩ := by
  obtain ⟨a, b⟩ := collect_spec ns [] (by simp)
  refine ⟨?_, ?_⟩
  · simpa [unitsConfig, Function.comp_def] using a
  · intro o h c
    have := b o h c
    rw [show Listed ([] : List (H × Unit' N)) o h c ↔ False by simp [Listed], false_or] at this
    rw [← this]
    constructor
    · rintro ⟨u, k, hm, hc⟩
      simp only [unitsConfig, List.mem_map, Prod.mk.injEq] at hm
      obtain ⟨⟨h', u'⟩, hm, rfl, rfl, rfl⟩ := hm
      exact ⟨_, hm, hc⟩
    · rintro ⟨u, hm, hc⟩
      exact ⟨u, _, List.mem_map.2 ⟨_, hm, rfl⟩, hc⟩

/-- The number of channels of a unit fits every range of the unit, and is the length of
one of them (or 2^32, if that is smaller). -/
theorem C22_num_channels {N H : Type} [DecidableEq N] [DecidableEq H] (ns : List (NodeRanges N H))
    (h : H) (u : Unit' N) (k : Nat) (hm : (h, u, k) ∈ unitsConfig ns) :
    (∀ c ∈ u.input ++ u.output, k ≤ c.stop - c.start) ∧
    (k = 2 ^ 32 ∨ ∃ c ∈ u.input ++ u.output, k = c.stop - c.start) := by
  simp only [unitsConfig, List.mem_map, Prod.mk.injEq] at hm
  obtain ⟨⟨h', u'⟩, _, rfl, rfl, rfl⟩ := hm
  obtain ⟨_, h2, h3⟩ := minNum_le (u'.input ++ u'.output) (2 ^ 32)
  exact ⟨h2, h3⟩

/-! Concrete cases. -/

-- a conv with 8 inputs behind a layer with 2 outputs and one with 8
example : insertExpand (.module 8) ⟨[⟨.orig 0, 2⟩, ⟨.orig 1, 8⟩], []⟩ =
    .ok ⟨[⟨.orig 1, 8⟩, ⟨.expand 0, 8⟩], [(.orig 0, 4)]⟩ := by decide

example : Apart 8 [⟨.orig 0, 2⟩, ⟨.orig 1, 8⟩] ∧ Has (.module 8) 8 [⟨.orig 0, 2⟩, ⟨.orig 1, 8⟩] := by
  refine ⟨?_, rfl⟩
  simp [Apart, Needs]

-- two layers share a group of four channels
example : (unitsConfig [⟨"a", [((0, 4), "g")], [((0, 3), "i")]⟩, ⟨"b", [((0, 2), "o")], [((0, 4), "g")]⟩]).map
    (fun p => (p.1, p.2.1.input.map Chan.name, p.2.1.output.map Chan.name, p.2.2)) =
    [("g", ["b"], ["a"], 4), ("i", ["a"], [], 3), ("o", [], ["b"], 2)] := by decide +kernel

/-- A first predecessor without channels in front of a node that needs some ends in a `ZeroDivisionError`. -/
theorem C23_zero (n : Nat) (p : Pre) (rest : List Pre) (made : List (Name × Nat)) (h0 : 0 < n) (hp : p.out = 0) :
    insertExpand (.module n) ⟨p :: rest, made⟩ = .error .zeroDivision := by
  have hc : checkChannel (.module n) (p :: rest) = false := by
    simp [checkChannel, inChannels, hp]
    omega
  simp [insertExpand, hc, loop, body, inChannels, hp, h0]

example : insertExpand (.module 4) ⟨[⟨.orig 0, 0⟩, ⟨.orig 1, 2⟩], []⟩ = .error .zeroDivision := C23_zero 4 _ _ _ (by decide) rfl

end Verif.ChannelGraph
