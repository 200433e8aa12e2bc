import Verif.Lemmas.PrunedNet
import Verif.Props.ChannelOrdinary

namespace Verif.PrunedNet
open Verif Verif.DynamicOps Verif.ChannelNodes

variable {W B X : Type}

/-! ## Property C106: a network pruned through its search units computes the active part of the whole network -/

/-- When every layer gets the masks of an admissible choice of channels, the pruned network runs, and at every node it has the active
channels of what the whole network has there, with zeros in front of the convolutions in place of the channels that were dropped. The
exported network does the same. -/
theorem C106_values [AddCommMonoid X] (corr : Nat → W → X → X) (h0 : ∀ m w, corr m w 0 = 0) (bc : Nat → B → X) (o : Ops X)
    (mods : Nat → Module W B X) {inputs : Nat} {nodes : List Node} {recs : List Rec} {s : S} (h : forward inputs nodes = .ok (recs, s))
    (hf : Fits o mods nodes recs) (φ : Elem → Bool) (hA : Admissible nodes recs φ) (hK : Kept φ nodes recs)
    (read : Tensor → Except Err (List Bool)) (hr : ∀ r ∈ recs, read r.inp = .ok (r.inp.map φ) ∧ read r.out = .ok (r.out.map φ)) :
    Faithful corr bc o mods read nodes recs :=
  faithful_of corr h0 bc o mods h hf φ hA hK read hr

/-- For graphs whose tensors are shared as wholes and whose units show their widths: whatever masks the search units choose, as long as
the inputs are kept and some channel is left in front of every module, the pruned network is faithful. Nothing is assumed about
the masks of the layers; they are read off the units. -/
theorem C106_units [AddCommMonoid X] (corr : Nat → W → X → X) (h0 : ∀ m w, corr m w 0 = 0) (bc : Nat → B → X) {inputs : Nat} {nodes : List Node}
    {ps : List PRec} {L : Lay} (hp : plan inputs nodes = some (ps, L)) (hr : Regular ps L) :
    ∃ recs s cfg, forward inputs nodes = .ok (recs, s) ∧ unitsOf nodes recs s.table = .ok cfg ∧
      ∀ (o : Ops X) (mods : Nat → Module W B X), Fits o mods nodes recs →
        ∀ masks : Finset Nat → List Bool, (∀ h, (masks h).length = numOf cfg h) → KeptMasks (maskOf cfg masks s.table) nodes recs →
          Faithful corr bc o mods (maskOf cfg masks s.table) nodes recs := by
  obtain ⟨recs, s, cfg, h1, h2, h3, _⟩ := C100_masks_partial hp hr
  refine ⟨recs, s, cfg, h1, h2, ?_⟩
  intro o mods hf masks hm hK
  obtain ⟨φ, hA, hread⟩ := h3 masks hm
  exact C106_values corr h0 bc o mods h1 hf φ hA (kept_of_masks h1 φ _ hread hK) _ hread

/-- The same for every graph of ordinary layers, without a condition on how its tensors are shared. -/
theorem C106_plain [AddCommMonoid X] (corr : Nat → W → X → X) (h0 : ∀ m w, corr m w 0 = 0) (bc : Nat → B → X) {inputs : Nat} {nodes : List Node}
    (hi : 0 < inputs ∧ inputs ≤ 2 ^ 32) (hn : ∀ n ∈ nodes, PlainNode n) {recs : List Rec} {s : S} (h : forward inputs nodes = .ok (recs, s))
    (o : Ops X) (mods : Nat → Module W B X) (hf : Fits o mods nodes recs) :
    ∃ cfg, unitsOf nodes recs s.table = .ok cfg ∧
      ∀ masks : Finset Nat → List Bool, (∀ h, (masks h).length = numOf cfg h) → KeptMasks (maskOf cfg masks s.table) nodes recs →
        Faithful corr bc o mods (maskOf cfg masks s.table) nodes recs := by
  obtain ⟨cfg, h2, h3, _⟩ := C100_plain hi hn h
  refine ⟨cfg, h2, ?_⟩
  intro masks hm hK
  obtain ⟨φ, hA, hread⟩ := h3 masks hm
  exact C106_values corr h0 bc o mods h hf φ hA (kept_of_masks h φ _ hread hK) _ hread

/-- The same for every graph of ordinary layers, flattened maps and concatenations. -/
theorem C106_ordinary [AddCommMonoid X] (corr : Nat → W → X → X) (h0 : ∀ m w, corr m w 0 = 0) (bc : Nat → B → X) {inputs : Nat}
    {nodes : List Node} {fs : List Form} (hi : 0 < inputs ∧ inputs ≤ 2 ^ 32) (hn : Ordinary nodes fs) {recs : List Rec} {s : S}
    (h : forward inputs nodes = .ok (recs, s)) (hb : ∀ r ∈ recs, r.ret.length ≤ 2 ^ 32) (o : Ops X) (mods : Nat → Module W B X)
    (hf : Fits o mods nodes recs) :
    ∃ cfg, unitsOf nodes recs s.table = .ok cfg ∧
      ∀ masks : Finset Nat → List Bool, (∀ h, (masks h).length = numOf cfg h) → KeptMasks (maskOf cfg masks s.table) nodes recs →
        Faithful corr bc o mods (maskOf cfg masks s.table) nodes recs := by
  obtain ⟨cfg, h2, h3, _⟩ := C100_ordinary hi hn h hb
  refine ⟨cfg, h2, ?_⟩
  intro masks hm hK
  obtain ⟨φ, hA, hread⟩ := h3 masks hm
  exact C106_values corr h0 bc o mods h hf φ hA (kept_of_masks h φ _ hread hK) _ hread

/-- When the channels that are dropped are zero in front of the convolutions of the original network, dropping them changes nothing: the
pruned network has the active channels of the original network at every node. -/
theorem C106_dead [AddCommMonoid X] (corr : Nat → W → X → X) (h0 : ∀ m w, corr m w 0 = 0) (bc : Nat → B → X) (o : Ops X)
    (mods : Nat → Module W B X) {inputs : Nat} {nodes : List Node} {recs : List Rec} {s : S} (h : forward inputs nodes = .ok (recs, s))
    (hf : Fits o mods nodes recs) (φ : Elem → Bool) (hA : Admissible nodes recs φ) (hK : Kept φ nodes recs)
    (read : Tensor → Except Err (List Bool)) (hr : ∀ r ∈ recs, read r.inp = .ok (r.inp.map φ) ∧ read r.out = .ok (r.out.map φ))
    {us : List (List X)} (hu : evalAll (o.with (fullLayer corr bc mods)) nodes [] = .ok us)
    (hz : ∀ q ∈ nodes.zip recs, ∀ m c, q.1.module = some m → mods m = .conv c → ∀ j u, q.1.prev.head? = some j → us[j]? = some u →
      zeroOff (q.2.inp.map φ) u = u) :
    ∃ tbl vs, register read (nodes.zip recs) = .ok tbl ∧ evalAll (o.with (dynLayer corr bc mods tbl)) nodes [] = .ok vs ∧
      ∀ (i : Nat) n, nodes[i]? = some n → n.kind ≠ .stop → ∃ r u, recs[i]? = some r ∧ us[i]? = some u ∧ u.length = r.ret.length ∧
        vs[i]? = some (active (r.ret.map φ) u) := by
  obtain ⟨tbl, t1, t2⟩ := register_ok read φ (nodes.zip recs) (fun q hq => hr q.2 (List.of_mem_zip hq).2) hA.shared
  obtain ⟨ws, vs, e2, e3, _, _, _, r6, _⟩ := run_rel corr h0 bc o mods h hf φ hA hK tbl t2 nodes.length (le_refl _)
  rw [List.take_length] at e2 e3
  have e4 : ∀ (i : Nat) n, nodes[i]? = some n → n.kind ≠ .stop → ∃ r w, recs[i]? = some r ∧ ws[i]? = some w ∧ w.length = r.ret.length ∧
      vs[i]? = some (active (r.ret.map φ) w) := by
    intro i n hi hs
    obtain ⟨r, h1, _⟩ := (graph_made h).2 i n hi
    obtain ⟨w, v, h2, h3, h4⟩ := r6 i n r (List.getElem?_eq_some_iff.1 hi).1 hi h1
    obtain ⟨h5, h6⟩ := h4.1 hs
    exact ⟨r, w, h1, h2, h5, by rw [h3, h6, select_eq_active]⟩
  have key : evalAll (o.with (zeroedLayer corr bc mods tbl)) nodes [] = .ok us := by
    refine evalAll_congr _ _ hu ?_
    intro i n ins hi hv
    obtain ⟨r, h1, _⟩ := (graph_made h).2 i n hi
    have hq : (n, r) ∈ nodes.zip recs := by
      refine List.mem_of_getElem? (i := i) ?_
      rw [List.getElem?_zip_eq_some]
      exact ⟨hi, h1⟩
    refine evalNode_congr o _ _ n ins ?_
    intro m v rest hins hm hrun
    unfold zeroedLayer fullLayer
    cases hmod : mods m with
    | chan fs => rfl
    | conv c =>
      dsimp only [Module.forward]
      rw [t2 (n, r) hq m hm]
      dsimp only
      cases hp : n.prev with
      | nil => rw [hp, hins] at hv; cases hv
      | cons j is =>
        rw [hp, hins] at hv
        have hj := valuesOf_head hv
        rw [hz (n, r) hq m c hm hmod j v (by rw [hp]; rfl) (by
          rw [List.getElem?_take] at hj
          split at hj
          · exact hj
          · cases hj)]
  rw [key] at e2
  cases e2
  exact ⟨tbl, vs, t1, e3, e4⟩

/-- With all channels active the supernet computes what the original network does. -/
theorem C106_identity [AddCommMonoid X] (corr : Nat → W → X → X) (h0 : ∀ m w, corr m w 0 = 0) (bc : Nat → B → X) (o : Ops X)
    (mods : Nat → Module W B X) {inputs : Nat} {nodes : List Node} {recs : List Rec} {s : S} (h : forward inputs nodes = .ok (recs, s))
    (hf : Fits o mods nodes recs) (hA : Admissible nodes recs (fun _ => true)) (hne : ∀ q ∈ nodes.zip recs, q.1.module ≠ none → q.2.inp ≠ [])
    (read : Tensor → Except Err (List Bool))
    (hr : ∀ r ∈ recs, read r.inp = .ok (List.replicate r.inp.length true) ∧ read r.out = .ok (List.replicate r.out.length true)) :
    ∃ tbl us, register read (nodes.zip recs) = .ok tbl ∧ evalAll (o.with (fullLayer corr bc mods)) nodes [] = .ok us ∧
      evalAll (o.with (dynLayer corr bc mods tbl)) nodes [] = .ok us := by
  have hrep : ∀ t : Tensor, t.map (fun _ => true) = List.replicate t.length true := fun t => by rw [List.map_const']
  have hr' : ∀ r ∈ recs, read r.inp = .ok (r.inp.map (fun _ => true)) ∧ read r.out = .ok (r.out.map (fun _ => true)) := by
    intro r hm; rw [hrep, hrep]; exact hr r hm
  have hK : Kept (fun _ => true) nodes recs := by
    intro q hq
    refine ⟨fun _ _ _ _ => rfl, fun hm => ?_⟩
    obtain ⟨x, hx⟩ := List.exists_mem_of_ne_nil _ (hne q hq hm)
    exact ⟨x, hx, rfl⟩
  obtain ⟨tbl, t1, t2⟩ := register_ok read (fun _ => true) (nodes.zip recs) (fun q hq => hr' q.2 (List.of_mem_zip hq).2) hA.shared
  obtain ⟨ws, vs, r1, r2, _, w1, v1, r6, r7⟩ := run_rel corr h0 bc o mods h hf (fun _ => true) hA hK tbl t2 nodes.length (le_refl _)
  rw [List.take_length] at r1 r2
  have key : evalAll (o.with (fullLayer corr bc mods)) nodes [] = .ok ws := by
    refine evalAll_congr _ _ r1 ?_
    intro i n ins hi hv
    rw [List.length_nil, Nat.zero_add] at hv
    obtain ⟨r, h1, _⟩ := (graph_made h).2 i n hi
    have hq : (n, r) ∈ nodes.zip recs := by
      refine List.mem_of_getElem? (i := i) ?_
      rw [List.getElem?_zip_eq_some]
      exact ⟨hi, h1⟩
    obtain ⟨ts, vi, hmade, hpair⟩ := r7 i n r (List.getElem?_eq_some_iff.1 hi).1 hi h1 ins hv
    obtain ⟨l, l1, l2, _, l4⟩ := hpair.out
    refine evalNode_congr o _ _ n ins ?_
    intro m v rest hins hm hrun
    unfold zeroedLayer fullLayer
    cases hmod : mods m with
    | chan fs => rfl
    | conv c =>
      dsimp only [Module.forward]
      rw [t2 (n, r) hq m hm]
      dsimp only
      have hlen : v.length = r.inp.length := by
        rw [hins] at l2
        match l, l1, l2, l4 with
        | (t, w) :: l', l1, l2, l4 =>
          simp only [List.map_cons, List.cons.injEq] at l2
          rw [l2.1]
          have hw := l4 _ List.mem_cons_self
          dsimp only at hw
          rw [hw]
          congr 1
          have hfit := hf.node (n, r) hq
          unfold FitsNode at hfit
          rw [l1] at hmade
          unfold Made at hmade
          dsimp only at hfit
          cases hk : n.kind with
          | mix out =>
            rw [hk] at hmade
            have := hmade.1
            simp only [List.map_cons, List.cons.injEq] at this
            exact this.1
          | group g out =>
            rw [hk] at hmade
            have := hmade.1
            simp only [List.map_cons, List.cons.injEq] at this
            exact this.1
          | passUnion =>
            rw [hk] at hmade
            obtain ⟨rest', this⟩ := hmade.1
            simp only [List.map_cons, List.cons.injEq] at this
            exact this.1
          | groupNorm g c => rw [hk] at hfit; exact absurd hfit id
          | input k => rw [hk] at hrun; exact absurd hrun id
          | pass => rw [hk] at hrun; exact absurd hrun id
          | bind => rw [hk] at hrun; exact absurd hrun id
          | cat => rw [hk] at hrun; exact absurd hrun id
          | expand k => rw [hk] at hrun; exact absurd hrun id
          | stop => rw [hk] at hrun; exact absurd hrun id
      rw [hrep, ← hlen, zeroOff_true]
  have hsame : vs = ws := by
    apply List.ext_getElem?
    intro i
    by_cases hi : i < nodes.length
    · have hn : nodes[i]? = some nodes[i] := List.getElem?_eq_getElem hi
      obtain ⟨r, h1, _⟩ := (graph_made h).2 i _ hn
      obtain ⟨w, v, h2, h3, h4, h5⟩ := r6 i _ r hi hn h1
      rw [h2, h3]
      by_cases hs : nodes[i].kind = .stop
      · rw [h5 hs]
      · obtain ⟨h6, h7⟩ := h4 hs
        rw [h7, hrep, ← h6, select_replicate]
        rfl
    · rw [List.getElem?_eq_none (by omega), List.getElem?_eq_none (by omega)]
  rw [hsame] at r2
  exact ⟨tbl, ws, t1, key, r2⟩

/-- A run never adds tensors of different widths: whenever a network runs to its end, pruned or not and with any masks, the inputs of every
addition have the same number of channels. -/
theorem C106_sums (o : Ops X) {nodes : List Node} {us : List (List X)} (h : evalAll o nodes [] = .ok us) (n : Node) (hn : n ∈ nodes)
    (hk : n.kind = .bind) : ∃ k, ∀ j ∈ n.prev, ∃ u, us[j]? = some u ∧ u.length = k := by
  obtain ⟨k, ins, y, h1, h2⟩ := evalAll_node o h n hn
  obtain ⟨name, kind, prev, module⟩ := n
  dsimp only at hk h1
  subst hk
  match ins, h1, h2 with
  | v :: rest, h1, h2 =>
    obtain ⟨_, h4⟩ := bindVals_length (o.op name) (show bindVals (o.op name) v rest = .ok y from h2)
    refine ⟨v.length, ?_⟩
    intro j hj
    obtain ⟨u, hu, hd⟩ := valuesOf_mem h1 j hj
    refine ⟨u, ?_, ?_⟩
    · rw [List.getElem?_take] at hd
      split at hd
      · exact hd
      · cases hd
    · rcases List.mem_cons.1 hu with rfl | hu
      · rfl
      · exact h4 u hu

/-! ### An example: a residual block with a linear layer -/

/-- A residual block and a linear layer. -/
def toyNet : List Node :=
  [⟨"x", .input 2, [], none⟩, ⟨"conv1", .mix 3, [0], some 0⟩, ⟨"bn", .passUnion, [1], some 1⟩, ⟨"relu", .pass, [2], none⟩,
    ⟨"conv2", .mix 3, [3], some 2⟩, ⟨"add", .bind, [3, 4], none⟩, ⟨"fc", .mix 2, [5], some 3⟩, ⟨"out", .stop, [6], none⟩]

/-- Its tensors. -/
def toyRecs : List Rec := ((forward 2 toyNet).toOption.getD ([], ⟨[], []⟩)).1

/-- Its modules. -/
def toyMods : Nat → Module Int Int Int
  | 0 => .conv ⟨2, 3, 1, [[1, 2], [3, 4], [5, 6]], some [1, 1, 1], none, none⟩
  | 1 => .chan [fun x => 2 * x, fun x => 3 * x + 1, fun x => x - 5]
  | 2 => .conv ⟨3, 3, 1, [[1, 0, 2], [0, 1, 1], [3, 1, 0]], none, none, none⟩
  | _ => .conv ⟨3, 2, 1, [[1, 1, 1], [1, -1, 2]], some [7, 8], none, none⟩

/-- Its operations. -/
def toyOps : Ops Int := ⟨fun _ => [1, 1], fun _ _ => .error .type, fun _ x => max x 0, fun _ x y => x + y, fun _ x => [x]⟩

/-- The second channel of the block is dropped. -/
def toyKept (e : Elem) : Bool := !(decide (e = (2, 1)) || decide (e = (5, 1)))

theorem toy_forward : forward 2 toyNet = .ok (toyRecs, ((forward 2 toyNet).toOption.getD ([], ⟨[], []⟩)).2) :=
  ok_getD ([], ⟨[], []⟩) (by decide +kernel)

theorem toy_recs : toyRecs = [⟨[(1, 0), (1, 1)], [(1, 0), (1, 1)], [(1, 0), (1, 1)]⟩,
    ⟨[(1, 0), (1, 1)], [(2, 0), (2, 1), (2, 2)], [(2, 0), (2, 1), (2, 2)]⟩,
    ⟨[(2, 0), (2, 1), (2, 2)], [(2, 0), (2, 1), (2, 2)], [(2, 0), (2, 1), (2, 2)]⟩, ⟨[(3, 0)], [(4, 0)], [(2, 0), (2, 1), (2, 2)]⟩,
    ⟨[(2, 0), (2, 1), (2, 2)], [(5, 0), (5, 1), (5, 2)], [(5, 0), (5, 1), (5, 2)]⟩,
    ⟨[(2, 0), (2, 1), (2, 2)], [(2, 0), (2, 1), (2, 2)], [(2, 0), (2, 1), (2, 2)]⟩,
    ⟨[(2, 0), (2, 1), (2, 2)], [(6, 0), (6, 1)], [(6, 0), (6, 1)]⟩, ⟨[(7, 0)], [(7, 0)], [(7, 0)]⟩] := by decide +kernel

theorem toy_fits : Fits toyOps toyMods toyNet toyRecs := by
  refine ⟨?_, ?_, ?_⟩
  · intro q hq
    rw [toy_recs] at hq
    simp only [toyNet, List.zip_cons_cons, List.zip_nil_right, List.mem_cons, List.not_mem_nil, or_false] at hq
    rcases hq with rfl | rfl | rfl | rfl | rfl | rfl | rfl | rfl
    · rfl
    · exact ⟨0, ⟨2, 3, 1, [[1, 2], [3, 4], [5, 6]], some [1, 1, 1], none, none⟩, rfl, rfl, ⟨⟨by decide, by decide, by decide, rfl, by decide, by simp,
        by simp, by simp⟩, rfl, rfl⟩, rfl, rfl, rfl⟩
    · exact Or.inr ⟨1, rfl, Or.inl ⟨_, rfl, rfl⟩⟩
    · trivial
    · exact ⟨2, ⟨3, 3, 1, [[1, 0, 2], [0, 1, 1], [3, 1, 0]], none, none, none⟩, rfl, rfl, ⟨⟨by decide, by decide, by decide, rfl, by decide, by simp,
        by simp, by simp⟩, rfl, rfl⟩, rfl, rfl, rfl⟩
    · trivial
    · exact ⟨3, ⟨3, 2, 1, [[1, 1, 1], [1, -1, 2]], some [7, 8], none, none⟩, rfl, rfl, ⟨⟨by decide, by decide, by decide, rfl, by decide, by simp,
        by simp, by simp⟩, rfl, rfl⟩, rfl, rfl, rfl⟩
    · trivial
  · intro n hn hp
    simp only [toyNet, List.mem_cons, List.not_mem_nil, or_false] at hn
    rcases hn with rfl | rfl | rfl | rfl | rfl | rfl | rfl | rfl
    · exact ⟨2, rfl⟩
    all_goals cases hp
  · intro n hn i hi p hp
    have hlt : i < 7 := by
      have : ∀ n ∈ toyNet, ∀ i ∈ n.prev, i < 7 := by decide
      exact this n hn i hi
    have : ∀ i < 7, ∀ p, toyNet[i]? = some p → p.kind ≠ .stop := by
      intro i hi p hp
      have h2 : ∀ i < 7, (toyNet[i]?).map Node.kind ≠ some .stop := by decide
      intro hk
      apply h2 i hi
      rw [hp, ← hk]
      rfl
    exact this i hlt p hp

theorem toy_admissible : Admissible toyNet toyRecs toyKept := by
  rw [toy_recs]
  refine ⟨?_, ?_⟩
  · intro q hq
    simp only [toyNet, List.zip_cons_cons, List.zip_nil_right, List.mem_cons, List.not_mem_nil, or_false] at hq
    rcases hq with rfl | rfl | rfl | rfl | rfl | rfl | rfl | rfl
    · trivial
    · trivial
    · trivial
    · trivial
    · trivial
    · unfold NodeOk insOf; decide +kernel
    · trivial
    · unfold NodeOk insOf; decide +kernel
  · decide +kernel

example : Fits toyOps toyMods toyNet toyRecs ∧ Admissible toyNet toyRecs toyKept ∧ Kept toyKept toyNet toyRecs ∧
    (∀ n ∈ toyNet, PlainNode n) := by
  refine ⟨toy_fits, toy_admissible, ?_, ?_⟩
  · rw [toy_recs]
    intro q hq
    simp only [toyNet, List.zip_cons_cons, List.zip_nil_right, List.mem_cons, List.not_mem_nil, or_false] at hq
    rcases hq with rfl | rfl | rfl | rfl | rfl | rfl | rfl | rfl
    · exact ⟨fun _ _ => by decide, fun h => absurd rfl h⟩
    all_goals
      constructor
      · intro k hk
        cases hk
      · intro _
        decide
  · intro n hn
    simp only [toyNet, List.mem_cons, List.not_mem_nil, or_false] at hn
    rcases hn with rfl | rfl | rfl | rfl | rfl | rfl | rfl | rfl <;> simp [PlainNode, PlainKind]

/-- The masks of its modules. -/
def toyTbl : List (Nat × List Bool × List Bool) := (register (fun t => .ok (t.map toyKept)) (toyNet.zip toyRecs)).toOption.getD []

/-- The pruned block, the whole block with zeros and the original block on one input. -/
example :
    (evalAll (toyOps.with (dynLayer (fun _ w x => w * x) (fun _ b => b) toyMods toyTbl)) toyNet []).toOption.map (fun l => l.drop 3) =
      some [[8, 7], [22, 24], [30, 31], [68, 100], []] ∧
    (evalAll (toyOps.with (zeroedLayer (fun _ w x => w * x) (fun _ b => b) toyMods toyTbl)) toyNet []).toOption.map (fun l => l.drop 3) =
      some [[8, 25, 7], [22, 7, 24], [30, 32, 31], [68, 100], []] ∧
    (evalAll (toyOps.with (fullLayer (fun _ w x => w * x) (fun _ b => b) toyMods)) toyNet []).toOption.map (fun l => l.drop 3) =
      some [[8, 25, 7], [22, 32, 49], [30, 57, 56], [150, 93], []] := by
  decide +kernel

/-! ### An example with a concatenation and a flattened map -/

/-- A convolution, what it was given beside it, another convolution, and a linear layer behind a flattened map. -/
def joinNet : List Node :=
  [⟨"x", .input 2, [], none⟩, ⟨"conv1", .mix 2, [0], some 0⟩, ⟨"cat", .cat, [0, 1], none⟩, ⟨"conv2", .mix 2, [2], some 1⟩,
    ⟨"flatten", .expand 2, [3], none⟩, ⟨"fc", .mix 1, [4], some 2⟩, ⟨"out", .stop, [5], none⟩]

/-- Its tensors. -/
def joinRecs : List Rec := ((forward 2 joinNet).toOption.getD ([], ⟨[], []⟩)).1

/-- Its modules. -/
def joinMods : Nat → Module Int Int Int
  | 0 => .conv ⟨2, 2, 1, [[1, 2], [3, 4]], some [1, 1], none, none⟩
  | 1 => .conv ⟨4, 2, 1, [[1, 0, 2, 1], [0, 1, 1, 1]], none, none, none⟩
  | _ => .conv ⟨4, 1, 1, [[1, 1, -1, 2]], some [7], none, none⟩

/-- Its operations. -/
def joinOps : Ops Int := ⟨fun _ => [1, 1], fun _ _ => .error .type, fun _ x => max x 0, fun _ x y => x + y, fun _ x => [x, x + 1]⟩

theorem join_recs : joinRecs = [⟨[(1, 0), (1, 1)], [(1, 0), (1, 1)], [(1, 0), (1, 1)]⟩,
    ⟨[(1, 0), (1, 1)], [(2, 0), (2, 1)], [(2, 0), (2, 1)]⟩,
    ⟨[(1, 0), (1, 1), (2, 0), (2, 1)], [(1, 0), (1, 1), (2, 0), (2, 1)], [(1, 0), (1, 1), (2, 0), (2, 1)]⟩,
    ⟨[(1, 0), (1, 1), (2, 0), (2, 1)], [(3, 0), (3, 1)], [(3, 0), (3, 1)]⟩,
    ⟨[(3, 0), (3, 1)], [(4, 0), (4, 1), (4, 2), (4, 3)], [(4, 0), (4, 1), (4, 2), (4, 3)]⟩,
    ⟨[(4, 0), (4, 1), (4, 2), (4, 3)], [(5, 0)], [(5, 0)]⟩, ⟨[(6, 0)], [(6, 0)], [(6, 0)]⟩] := by decide +kernel

/-- It is a graph of ordinary layers, it goes through, and its modules fit. -/
example : Ordinary joinNet [.whole, .whole, .joined, .whole, .flat, .whole, .whole] ∧
    (∃ s, forward 2 joinNet = .ok (joinRecs, s)) ∧ (∀ r ∈ joinRecs, r.ret.length ≤ 2 ^ 32) ∧ Fits joinOps joinMods joinNet joinRecs := by
  refine ⟨⟨by decide, ?_, ?_, by simp [joinNet]⟩, ⟨_, ok_getD ([], ⟨[], []⟩) (by decide +kernel)⟩, by decide +kernel, ?_, ?_, ?_⟩
  · intro n hn
    simp only [joinNet, List.mem_cons, List.not_mem_nil, or_false] at hn
    rcases hn with rfl | rfl | rfl | rfl | rfl | rfl | rfl <;> simp [SizedKind]
  · intro n hn
    simp only [joinNet, List.mem_cons, List.not_mem_nil, or_false] at hn
    rcases hn with rfl | rfl | rfl | rfl | rfl | rfl | rfl <;> simp
  · intro q hq
    rw [join_recs] at hq
    simp only [joinNet, List.zip_cons_cons, List.zip_nil_right, List.mem_cons, List.not_mem_nil, or_false] at hq
    rcases hq with rfl | rfl | rfl | rfl | rfl | rfl | rfl
    · rfl
    · exact ⟨0, ⟨2, 2, 1, [[1, 2], [3, 4]], some [1, 1], none, none⟩, rfl, rfl, ⟨⟨by decide, by decide, by decide, rfl, by decide, by simp,
        by simp, by simp⟩, rfl, rfl⟩, rfl, rfl, rfl⟩
    · trivial
    · exact ⟨1, ⟨4, 2, 1, [[1, 0, 2, 1], [0, 1, 1, 1]], none, none, none⟩, rfl, rfl, ⟨⟨by decide, by decide, by decide, rfl, by decide, by simp,
        by simp, by simp⟩, rfl, rfl⟩, rfl, rfl, rfl⟩
    · exact fun _ => rfl
    · exact ⟨2, ⟨4, 1, 1, [[1, 1, -1, 2]], some [7], none, none⟩, rfl, rfl, ⟨⟨by decide, by decide, by decide, rfl, by decide, by simp,
        by simp, by simp⟩, rfl, rfl⟩, rfl, rfl, rfl⟩
    · trivial
  · intro n hn hp
    simp only [joinNet, List.mem_cons, List.not_mem_nil, or_false] at hn
    rcases hn with rfl | rfl | rfl | rfl | rfl | rfl | rfl
    · exact ⟨2, rfl⟩
    all_goals cases hp
  · intro n hn i hi p hp hk
    have h1 : ∀ n ∈ joinNet, ∀ i ∈ n.prev, (joinNet[i]?).map Node.kind ≠ some .stop := by decide
    apply h1 n hn i hi
    rw [hp, ← hk]
    rfl

/-- Operands of different numbers of channels are refused with a `RuntimeError`, and nothing else is. -/
theorem C106_operands {Z : Type} (f : Z → Z → Z) (v : List Z) (ws : List (List Z)) (e : Err) :
    bindVals f v ws = .error e ↔ e = .runtime ∧ ∃ w ∈ ws, w.length ≠ v.length := by
  induction ws generalizing v with
  | nil => simp [bindVals]
  | cons w ws ih =>
    rw [bindVals]
    by_cases h : v.length = w.length
    · rw [if_pos h, ih]
      have : (List.zipWith f v w).length = v.length := by simp [h]
      simp [this, h]
    · rw [if_neg h]
      simp [Ne.symm h, eq_comm (a := e)]

example : bindVals (· + ·) [1, 2] [[3, 4], [5]] = .error .runtime := (C106_operands _ _ _ _).2 (by decide)

end Verif.PrunedNet
