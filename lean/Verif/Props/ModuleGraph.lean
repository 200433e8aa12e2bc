import Verif.Lemmas.ModuleGraph

namespace Verif.ModuleGraph
open Verif Graph

variable {N V W : Type} [DecidableEq N] [DecidableEq V] [DecidableEq W]

/-! ## Specification -/

/-! ## Lemmas -/




/-! ## Properties -/

/-- C80: the graph made from a traced model has exactly the traced calls as its nodes,
in the order of the trace and with their contents converted; the predecessors of a
node are exactly the inputs of the call, in the order of its arguments, and the
successors are the converse. -/
theorem C80_traced (l : List (Fx N V)) (h : TorchOk l) (f : N → V → W) :
    ∃ g g', parseTorch l = (g, none) ∧ copyFrom f g = (g', none) ∧ Wf g'
      ∧ g'.nodes = l.map (fun x => (x.name, f x.name x.val))
      ∧ (∀ x ∈ l, g'.prev x.name = x.inputs)
      ∧ ∀ a b, Edge g' a b ↔ ∃ x ∈ l, x.name = b ∧ a ∈ x.inputs := by
  obtain ⟨g, e, w, n, p, ed⟩ := build_ok Fx.name Fx.val Fx.inputs l h.1 h.2
  have hn : g.nodes.map (·.1) = l.map Fx.name := by rw [n, List.map_map]; rfl
  obtain ⟨g', e', w', n', p', ed'⟩ := build_ok (fun p : N × V => p.1) (fun p => f p.1 p.2)
    (fun p => g.prev p.1) g.nodes (by rw [hn]; exact h.1)
    (fun q _ => ⟨w.prev_nodup _, fun a ha =>
      (w.closed a q.1 ((w.symm a q.1).2 ha)).1⟩)
  refine ⟨g, g', e, e', w', ?_, ?_, ?_⟩
  · rw [n', n, List.map_map]; rfl
  · intro x hx
    have hm : (x.name, x.val) ∈ g.nodes := by rw [n]; exact List.mem_map.2 ⟨x, hx, rfl⟩
    exact (p' _ hm).trans (p x hx)
  · intro a b
    rw [ed']
    constructor
    · rintro ⟨q, hq, rfl, ha⟩
      exact (ed a q.1).1 ((w.symm a q.1).2 ha)
    · intro hx
      have hedge := (ed a b).2 hx
      obtain ⟨q, hq, he⟩ := List.mem_map.1 (w.closed a b hedge).2
      exact ⟨q, hq, he, (w.symm a q.1).1 (he ▸ hedge)⟩

/-- C80: checking without repair accepts a graph exactly if every node but the inputs
is fed and every node but the outputs is read. -/
theorem C80_check (a : Auto N V) {g : G N V} (hw : Wf g) (hac : Acyclic g) {limit : ℕ}
    (hl : 1 ≤ limit) :
    check a false limit g = (g, none) ↔ ∀ p ∈ g.nodes, NodeOk a.role g p := by
  obtain ⟨order, ho, hp⟩ := traverse_acyclic hw hac
  obtain ⟨k, rfl⟩ : ∃ k, limit = k + 1 := ⟨limit - 1, by omega⟩
  unfold check
  rw [ho]
  dsimp only
  rw [checkPlain_ok]
  have := inOrder_perm hw hp
  exact ⟨fun h p hp => h p (this.mem_iff.2 hp), fun h p hp => h p (this.mem_iff.1 hp)⟩

/-- C80: checking with repair succeeds on every acyclic graph whose inputs are not fed
and whose outputs are not read. All nodes and links stay; an input is put before each
node that lacks one and an output after each node that lacks one, nothing else; the
result is acyclic and passes the check. -/
theorem C80_repair (a : Auto N V) {g : G N V} (hw : Wf g) (hac : Acyclic g)
    (hr : RolesOk a.role g) (hf : Fresh a g) {limit : ℕ} (hl : 3 ≤ limit) :
    ∃ g', check a true limit g = (g', none) ∧ check a false limit g' = (g', none)
      ∧ Wf g' ∧ Acyclic g' ∧ g.nodes <+: g'.nodes
      ∧ (∀ q, q ∈ g'.nodes ↔ q ∈ g.nodes
          ∨ (q = (a.inName, a.inVal) ∧ ∃ x, LacksInput a.role g x)
          ∨ (q = (a.outName, a.outVal) ∧ ∃ x, LacksOutput a.role g x))
      ∧ ∀ x y, Edge g' x y ↔ Edge g x y ∨ (x = a.inName ∧ LacksInput a.role g y)
          ∨ (y = a.outName ∧ LacksOutput a.role g x) := by
  obtain ⟨order, ho, hp⟩ := traverse_acyclic hw hac
  have hperm := inOrder_perm hw hp
  obtain ⟨k, rfl⟩ : ∃ k, limit = k + 3 := ⟨limit - 3, by omega⟩
  obtain ⟨hf1, hf2, hf3, hf4, hf5⟩ := hf
  obtain ⟨g', e, w', l', p', m'⟩ := checkAll_ok (a := a) hf3 k (inOrder g order) g hw
    ((hperm.map (fun p : N × V => p.1)).nodup_iff.2 hw.names_nodup)
    (fun p hp => by
      have hm := hperm.mem_iff.1 hp
      exact ⟨hm, fun h => hf1 (h ▸ mem_names hm), fun h => hf2 (h ▸ mem_names hm), hr p hm⟩)
    (Or.inl hf1) (Or.inl hf2)
  have hmem : ∀ q, q ∈ g'.nodes ↔ q ∈ g.nodes
      ∨ (q = (a.inName, a.inVal) ∧ ∃ x, LacksInput a.role g x)
      ∨ (q = (a.outName, a.outVal) ∧ ∃ x, LacksOutput a.role g x) := by
    intro q
    rw [m']
    refine or_congr Iff.rfl (or_congr (and_congr Iff.rfl ?_) (and_congr Iff.rfl ?_))
    · constructor
      · rintro ⟨p, hp, h⟩
        exact ⟨p.1, p.2, hperm.mem_iff.1 hp, h⟩
      · rintro ⟨x, v, hp, h⟩
        exact ⟨(x, v), hperm.mem_iff.2 hp, h⟩
    · constructor
      · rintro ⟨p, hp, h⟩
        exact ⟨p.1, p.2, hperm.mem_iff.1 hp, h⟩
      · rintro ⟨x, v, hp, h⟩
        exact ⟨(x, v), hperm.mem_iff.2 hp, h⟩
  have hedge : ∀ x y, Edge g' x y ↔ Edge g x y ∨ (x = a.inName ∧ LacksInput a.role g y)
      ∨ (y = a.outName ∧ LacksOutput a.role g x) := by
    intro x y
    rw [l']
    refine or_congr Iff.rfl (or_congr (and_congr Iff.rfl ?_) (and_congr Iff.rfl ?_))
    · exact exists_congr fun v => and_congr hperm.mem_iff Iff.rfl
    · exact exists_congr fun v => and_congr hperm.mem_iff Iff.rfl
  have hlin : ∀ x, LacksInput a.role g x → x ∈ names g := fun x ⟨v, h, _⟩ => mem_names h
  have hlout : ∀ x, LacksOutput a.role g x → x ∈ names g := fun x ⟨v, h, _⟩ => mem_names h
  have noin : ∀ x, ¬ Edge g' x a.inName := by
    intro x h
    rcases (hedge _ _).1 h with h | ⟨_, h⟩ | ⟨h, _⟩
    · exact hf1 (hw.closed _ _ h).2
    · exact hf1 (hlin _ h)
    · exact hf3 h
  have noout : ∀ x, ¬ Edge g' a.outName x := by
    intro x h
    rcases (hedge _ _).1 h with h | ⟨h, _⟩ | ⟨_, h⟩
    · exact hf2 (hw.closed _ _ h).1
    · exact hf3 h.symm
    · exact hf2 (hlout _ h)
  have htrans : ∀ x y, Relation.TransGen (Edge g') x y →
      x = a.inName ∨ y = a.outName ∨ Relation.TransGen (Edge g) x y := by
    intro x y h
    induction h with
    | single h =>
      rcases (hedge _ _).1 h with h | ⟨h, _⟩ | ⟨h, _⟩
      · exact Or.inr (Or.inr (Relation.TransGen.single h))
      · exact Or.inl h
      · exact Or.inr (Or.inl h)
    | tail _ h ih =>
      rename_i b c _
      rcases ih with ih | ih | ih
      · exact Or.inl ih
      · exact absurd (ih ▸ h) (noout _)
      · rcases (hedge _ _).1 h with h | ⟨h, _⟩ | ⟨h, _⟩
        · exact Or.inr (Or.inr (ih.tail h))
        · exfalso
          rw [h] at ih
          obtain ⟨z, _, hz⟩ := Relation.TransGen.tail'_iff.1 ih
          exact hf1 (hw.closed _ _ hz).2
        · exact Or.inr (Or.inl h)
  have hac' : Acyclic g' := by
    intro x hx
    rcases htrans x x hx with h | h | h
    · rw [h] at hx
      obtain ⟨z, _, hz⟩ := Relation.TransGen.tail'_iff.1 hx
      exact noin _ hz
    · rw [h] at hx
      obtain ⟨z, hz, _⟩ := Relation.TransGen.head'_iff.1 hx
      exact noout _ hz
    · exact hac x h
  have huniq : ∀ x v v', (x, v) ∈ g.nodes → (x, v') ∈ g.nodes → v = v' := by
    intro x v v' h1 h2
    have := List.inj_on_of_nodup_map hw.names_nodup h1 h2 rfl
    exact (Prod.mk.inj this).2
  have hok : ∀ p ∈ g'.nodes, NodeOk a.role g' p := by
    rintro ⟨x, v⟩ hx
    unfold NodeOk
    rcases (hmem _).1 hx with hx | ⟨hx, y, hy⟩ | ⟨hx, y, hy⟩
    · have hrx := hr (x, v) hx
      have hxi : x ≠ a.inName := fun h => hf1 (h ▸ mem_names hx)
      have hxo : x ≠ a.outName := fun h => hf2 (h ▸ mem_names hx)
      constructor
      · constructor
        · intro h
          refine (prev_nil w' x).2 fun b hb => ?_
          rcases (hedge _ _).1 hb with hb | ⟨_, u, hu, hb, _⟩ | ⟨hb, _⟩
          · exact (prev_nil hw x).1 (hrx.1 h) b hb
          · exact hb (huniq _ _ _ hu hx ▸ h)
          · exact hxo hb
        · intro h
          by_contra hc
          refine (prev_nil w' x).1 h a.inName ((hedge _ _).2 (Or.inr (Or.inl ⟨rfl, v, hx, hc, ?_⟩)))
          exact (prev_nil hw x).2 fun b hb =>
            (prev_nil w' x).1 h b ((hedge _ _).2 (Or.inl hb))
      · constructor
        · intro h
          refine (next_nil x).2 fun b hb => ?_
          rcases (hedge _ _).1 hb with hb | ⟨hb, _⟩ | ⟨_, u, hu, hb, _⟩
          · exact (next_nil x).1 (hrx.2 h) b hb
          · exact hxi hb
          · exact hb (huniq _ _ _ hu hx ▸ h)
        · intro h
          by_contra hc
          refine (next_nil x).1 h a.outName
            ((hedge _ _).2 (Or.inr (Or.inr ⟨rfl, v, hx, hc, ?_⟩)))
          exact (next_nil x).2 fun b hb => (next_nil x).1 h b ((hedge _ _).2 (Or.inl hb))
    · cases hx
      refine ⟨⟨fun _ => (prev_nil w' _).2 fun b => noin b, fun _ => hf4⟩,
        ⟨fun h => (by rw [hf4] at h; cases h), fun h => ?_⟩⟩
      exact absurd ((hedge _ _).2 (Or.inr (Or.inl ⟨rfl, hy⟩))) ((next_nil _).1 h y)
    · cases hx
      refine ⟨⟨fun h => (by rw [hf5] at h; cases h), fun h => ?_⟩,
        ⟨fun _ => (next_nil _).2 fun b => noout b, fun _ => hf5⟩⟩
      exact absurd ((hedge _ _).2 (Or.inr (Or.inr ⟨rfl, hy⟩))) ((prev_nil w' _).1 h y)
  refine ⟨g', ?_, ?_, w', hac', p', hmem, hedge⟩
  · unfold check
    rw [ho]
    exact e
  · obtain ⟨order', ho', hp'⟩ := traverse_acyclic w' hac'
    unfold check
    rw [ho']
    dsimp only
    rw [show k + 3 = (k + 2) + 1 from rfl, checkPlain_ok]
    exact fun p hp => hok p ((inOrder_perm w' hp').mem_iff.1 hp)

section pathProps

variable {K : Type} [DecidableEq K]

/-- C80: the graph built from the traced paths has one node for each layer and each
concatenation in the paths, and its links, followed through bind nodes, are exactly the
relation the paths describe. A layer has at most one predecessor; where several nodes
feed a layer they are collected by a bind node of its own. Nodes are stored behind
everything that feeds them. -/
theorem C80_paths (ps : List (Tracer.Path K)) (hac : ∀ k, ¬ Relation.TransGen (Feeds ps) k k) :
    ∃ (g : G (Nm K) Unit) (num : K → ℕ), fromPaths ps = (g, none)
      ∧ (∀ k k', Mentions ps k → Mentions ps k' → nodeOf num k = nodeOf num k' → k = k')
      ∧ (∀ x, ¬ IsBind x → (x ∈ names g ↔ ∃ k, Mentions ps k ∧ x = nodeOf num k))
      ∧ (∀ x y, ¬ IsBind x → ¬ IsBind y →
          (Through g x y ↔ ∃ a b, Feeds ps a b ∧ x = nodeOf num a ∧ y = nodeOf num b))
      ∧ (∀ n, (g.prev (.layer n)).length ≤ 1)
      ∧ (∀ j, .bind j ∈ names g → ∃ n, g.next (.bind j) = [.layer n]
          ∧ 2 ≤ (g.prev (.bind j)).length ∧ ∀ x ∈ g.prev (.bind j), ¬ IsBind x)
      ∧ ∀ l1 y l2, names g = l1 ++ y :: l2 → ∀ p, Edge g p y → p ∈ l1 := by
  obtain ⟨g0, g, num, l, e, w0, w, hinj, hn0, he0, hm, hnd, hl, hn, he⟩ := bound_ok ps
  have hnb : ∀ x ∈ names g0, ¬ IsBind x := by
    intro x hx
    obtain ⟨k, _, rfl⟩ := (hn0 x).1 hx
    exact nm_notBind _ k
  have hB := bound_of w0 w hnd hnb hl hn he
  have hac0 : Acyclic g0 := by
    intro x hx
    obtain ⟨a, b, ht, hb, hxa, hxb⟩ := trans_feeds hinj he0 hm hx
    obtain ⟨c, hc, _⟩ := Relation.TransGen.head'_iff.1 ht
    have := hinj a b (hm a c hc).1 hb (hxa.symm.trans hxb)
    subst this
    exact hac a ht
  obtain ⟨h, hs, hp, hnx, hperm, hord⟩ := sort_ok w (hB.acyclic.2 hac0)
  have hedge : ∀ x y, Edge h x y ↔ Edge g x y := fun x y => by unfold Edge; rw [hnx]
  refine ⟨h, num, ?_, hinj, fun x hx => ?_, fun x y hx hy => ?_, fun n => ?_, fun j hj => ?_, ?_⟩
  · unfold fromPaths
    rw [e]
    exact hs
  · rw [hperm.mem_iff, hn, ← hn0]
    constructor
    · rintro (h | ⟨i, n, _, h⟩)
      · exact h
      · exact absurd ⟨i, h⟩ hx
    · exact Or.inl
  · rw [← he0, ← hB.through hx hy]
    unfold Through
    simp only [hedge]
  · rw [hp]
    exact hB.layer hl n
  · rw [hp, hnx]
    have hj := hperm.mem_iff.1 hj
    rcases (hn _).1 hj with hj | ⟨i, x, hx, hji⟩
    · exact absurd ⟨j, rfl⟩ (hnb _ hj)
    cases hji
    obtain ⟨hxn, n, rfl, hlen⟩ := (hl x).1 (List.mem_of_getElem? hx)
    refine ⟨n, ?_, ?_, ?_⟩
    · refine single_of (w.next_nodup _) fun y => ?_
      show Edge g _ _ ↔ _
      rw [hB.out]
      constructor
      · intro hy
        rw [hx] at hy
        exact (Option.some.inj hy).symm
      · rintro rfl
        exact hx
    · refine le_trans hlen (List.subperm_of_subset (w0.prev_nodup _) ?_).length_le
      intro y hy
      exact (w.symm y _).1 ((hB.into y j).2 ⟨_, hx, (w0.symm y _).2 hy⟩)
    · intro y hy
      obtain ⟨n', _, hn'⟩ := (hB.into y j).1 ((w.symm y _).2 hy)
      exact hnb _ (w0.closed _ _ hn').1
  · intro l1 y l2 hlst p hpe
    exact hord l1 y l2 hlst p ((hedge p y).1 hpe)

/-- C80, DISAGREEMENT: when a layer feeds itself through the relation of the paths, as a
layer applied twice in a chain does, no graph is built: sorting the nodes raises. -/
theorem C80_shared_layer_fails (ps : List (Tracer.Path K)) {k : Key K}
    (hc : Relation.TransGen (Feeds ps) k k) : ∃ g, fromPaths ps = (g, some .runtime) := by
  obtain ⟨g0, g, num, l, e, w0, w, hinj, hn0, he0, hm, hnd, hl, hn, he⟩ := bound_ok ps
  have hnb : ∀ x ∈ names g0, ¬ IsBind x := by
    intro x hx
    obtain ⟨k, _, rfl⟩ := (hn0 x).1 hx
    exact nm_notBind _ k
  have hB := bound_of w0 w hnd hnb hl hn he
  have hcyc : ¬ Acyclic g := fun h => hB.acyclic.1 h _ (feeds_trans he0 hc)
  unfold Acyclic at hcyc
  push Not at hcyc
  obtain ⟨x, hx⟩ := hcyc
  obtain ⟨order, ho⟩ := traverse_cyclic w hx
  refine ⟨g, ?_⟩
  unfold fromPaths
  rw [e]
  dsimp only [andThen]
  unfold topoSort
  rw [ho]

/-- A layer applied twice in a chain feeds itself. -/
theorem C80_applied_twice_fails {ps : List (Tracer.Path K)} {l l' : List (Tracer.PNode K)}
    {kd kd' : Tracer.LKind} {n : K}
    (h : l ++ .layer kd n :: .layer kd' n :: l' ∈ ps) :
    ∃ g, fromPaths ps = (g, some .runtime) :=
  C80_shared_layer_fails ps (k := .layer n) (Relation.TransGen.single (Feeds.next h))

/-- C80, DISAGREEMENT: a concatenation is known by the sorted ids of its inputs only
(parsers.py 121-125). Of two concatenations with the same id, here of layers 1 and 2 in
both orders, the graph has one node, with the inputs in the order of the first and both
readers behind it: the channels of the second come in the wrong order. -/
theorem C80_concat_order_violated :
    (fromPaths [[.layer .conv 5, .cat 0 [[[.layer .conv 1]], [[.layer .conv 2]]]],
        [.layer .conv 6, .cat 0 [[[.layer .conv 2]], [[.layer .conv 1]]]]]).1.prev (.cat 0)
      = [.layer 1, .layer 2]
    ∧ (fromPaths [[.layer .conv 5, .cat 0 [[[.layer .conv 1]], [[.layer .conv 2]]]],
        [.layer .conv 6, .cat 0 [[[.layer .conv 2]], [[.layer .conv 1]]]]]).1.next (.cat 0)
      = [.layer 5, .layer 6] := by decide +kernel

end pathProps

/-! ## Examples -/

example : TorchOk exTrace := by unfold TorchOk; decide

example : ((parseTorch exTrace).1.prev 3, (parseTorch exTrace).1.next 1) = ([2, 1], [5, 3]) := by
  decide

example : Fresh exAuto (parseTorch exTrace).1 ∧ RolesOk exAuto.role (parseTorch exTrace).1 := by
  unfold Fresh RolesOk
  decide

example : LacksOutput exAuto.role (parseTorch exTrace).1 5 := ⟨2, by decide⟩

example : (check exAuto false 5 (parseTorch exTrace).1).2 = some .runtime
    ∧ (check exAuto true 5 (parseTorch exTrace).1).2 = none
    ∧ (check exAuto true 5 (parseTorch exTrace).1).1.prev 101 = [5]
    ∧ names (check exAuto true 5 (parseTorch exTrace).1).1 = [0, 1, 2, 5, 3, 4, 101] := by decide

example : Feeds exPaths (.layer 1) (.cat 0) ∧ Feeds exPaths (.layer 1) (.layer 2)
    ∧ Feeds exPaths (.cat 0) (.layer 9) ∧ Feeds exPaths (.layer 3) (.layer 9) :=
  ⟨.input (path := [.layer .conv 9, .cat 0 [[[.layer .conv 1]], [[.layer .conv 2, .layer .conv 1]]]])
      (List.Mem.head _) (List.Mem.tail _ (List.Mem.head _)) (List.Mem.head _)
      (q := .layer .conv 1) (List.Mem.head _),
    .inside (path := [.layer .conv 9, .cat 0 [[[.layer .conv 1]], [[.layer .conv 2, .layer .conv 1]]]])
      (List.Mem.head _) (List.Mem.tail _ (List.Mem.head _)) (List.Mem.tail _ (List.Mem.head _))
      (.next (l := []) (b := .layer .conv 2) (a := .layer .conv 1) (List.Mem.head _)),
    .next (l := []) (b := .layer .conv 9) (a := .cat 0 _) (List.Mem.head _),
    .next (l := []) (b := .layer .conv 9) (a := .layer .conv 3) (List.Mem.tail _ (List.Mem.head _))⟩

example : ∀ k, ¬ Relation.TransGen (Feeds exPaths) k k := by
  have key : ∀ e ∈ evPaths exPaths, rank e.1 < rank e.2 := by decide
  have : ∀ a b, Relation.TransGen (Feeds exPaths) a b → rank a < rank b := by
    intro a b h
    induction h with
    | single h => exact key _ (ev_of_feeds h)
    | tail _ h ih => exact ih.trans (key _ (ev_of_feeds h))
  exact fun k h => lt_irrefl _ (this k k h)

example : (fromPaths exPaths).2 = none
    ∧ names (fromPaths exPaths).1 = [.layer 1, .layer 2, .cat 0, .layer 3, .bind 0, .layer 9]
    ∧ (fromPaths exPaths).1.prev (.bind 0) = [.cat 0, .layer 3] := by decide +kernel

end Verif.ModuleGraph
