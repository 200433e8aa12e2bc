import Verif.Spec.ModuleGraph
import Verif.Lemmas.Graph

/-! Helper lemmas for `Verif/Props/ModuleGraph.lean`. -/

namespace Verif.ModuleGraph
open Verif Graph

variable {N V W : Type} [DecidableEq N] [DecidableEq V] [DecidableEq W]

/-- The name is free or belongs to the node. -/
def Usable (g : G N V) (n : N) (v : V) : Prop := n ∉ names g ∨ (n, v) ∈ g.nodes

section paths

variable {K : Type}

mutual

/-- Links made inside a node. -/
def evNode : Tracer.PNode K → List (Key K × Key K)
  | .layer _ _ => []
  | .cat id subs => evSubs (.cat id) subs

/-- Links made by a path. -/
def evPath : List (Tracer.PNode K) → List (Key K × Key K)
  | [] => []
  | p :: l => evNode p ++ (((l.head?.map keyOf).toList.map (fun k => (k, keyOf p))) ++ evPath l)

/-- Links made by paths. -/
def evPaths : List (List (Tracer.PNode K)) → List (Key K × Key K)
  | [] => []
  | p :: l => evPath p ++ evPaths l

/-- Links made by the inputs of a concatenation. -/
def evSubs (c : Key K) : List (List (List (Tracer.PNode K))) → List (Key K × Key K)
  | [] => []
  | p :: l => ((p.filterMap (fun q => q.head?.map keyOf)).map (fun k => (k, c))) ++ (evPaths p ++ evSubs c l)

end

mutual

/-- Keys of a node. -/
def ksNode : Tracer.PNode K → List (Key K)
  | .layer _ n => [.layer n]
  | .cat id subs => .cat id :: ksSubs subs

/-- Keys of a path. -/
def ksPath : List (Tracer.PNode K) → List (Key K)
  | [] => []
  | p :: l => ksNode p ++ ksPath l

/-- Keys of paths. -/
def ksPaths : List (List (Tracer.PNode K)) → List (Key K)
  | [] => []
  | p :: l => ksPath p ++ ksPaths l

/-- Keys of the inputs of a concatenation. -/
def ksSubs : List (List (List (Tracer.PNode K))) → List (Key K)
  | [] => []
  | p :: l => ksPaths p ++ ksSubs l

end

end paths

section parse

variable {K : Type} [DecidableEq K]

/-- The node of a key by the position of its id. -/
def nm (C : List K) (k : Key K) : Nm K := nodeOf (fun id => C.idxOf id) k

/-- The id has a position. -/
def Known (C : List K) : Key K → Prop
  | .layer _ => True
  | .cat id => id ∈ C

/-- What parsing adds: the keys `ks`, the links `es`, and links from `hs` to `nexts`. -/
structure Grow (s s' : Conv K) (ks : List (Key K)) (es : List (Key K × Key K)) (hs : List (Key K))
    (nexts : List (Nm K)) : Prop where
  wf : Wf s'.g
  cats : s.cats <+: s'.cats
  known : ∀ k ∈ ks, Known s'.cats k
  ends : ∀ e ∈ es, e.1 ∈ ks ∧ e.2 ∈ ks
  heads : ∀ k ∈ hs, k ∈ ks
  nodes : ∀ x, x ∈ names s'.g ↔ x ∈ names s.g ∨ ∃ k ∈ ks, x = nm s'.cats k
  edges : ∀ x y, Edge s'.g x y ↔ Edge s.g x y
    ∨ (∃ e ∈ es, x = nm s'.cats e.1 ∧ y = nm s'.cats e.2)
    ∨ (∃ k ∈ hs, x = nm s'.cats k ∧ y ∈ nexts)

/-- The heads of paths. -/
def heads {K : Type} (ps : List (List (Tracer.PNode K))) : List (Key K) :=
  ps.filterMap (fun q => q.head?.map keyOf)

end parse

section bound

variable {K : Type} [DecidableEq K]

/-- Facts on links after bind nodes are put in. -/
structure Bound (g0 g : G (Nm K) Unit) (l : List (Nm K)) : Prop where
  nb : ∀ x ∈ names g0, ¬ IsBind x
  wf0 : Wf g0
  wf : Wf g
  nodup : l.Nodup
  lay : ∀ x ∈ l, x ∈ names g0
  names : ∀ x, x ∈ names g ↔ x ∈ names g0 ∨ ∃ (i : ℕ) (n : Nm K), l[i]? = some n ∧ x = .bind i
  edges : ∀ x y, Edge g x y ↔ (Edge g0 x y ∧ y ∉ l)
        ∨ (∃ (i : ℕ) (n : Nm K), l[i]? = some n ∧ y = .bind i ∧ Edge g0 x n)
        ∨ (∃ (i : ℕ) (n : Nm K), l[i]? = some n ∧ x = .bind i ∧ y = n)

end bound

theorem addNode_wf {g : G N V} (hg : Wf g) {n : N} {v : V} (hn : n ∉ names g) :
    addOrFind g n v = (⟨g.nodes ++ [(n, v)], g.prev, g.next⟩, none)
    ∧ Wf (⟨g.nodes ++ [(n, v)], g.prev, g.next⟩ : G N V) := by
  have hf : found g n v = false := by
    cases h : found g n v with
    | true => exact absurd (found_mem g n v h) hn
    | false => rfl
  have h1 : g.prev n = [] := by
    cases h : g.prev n with
    | nil => rfl
    | cons a l =>
      have : a ∈ g.prev n := by rw [h]; exact List.Mem.head _
      exact absurd (hg.closed a n ((hg.symm a n).2 this)).2 hn
  have h2 : g.next n = [] := by
    cases h : g.next n with
    | nil => rfl
    | cons a l =>
      have : a ∈ g.next n := by rw [h]; exact List.Mem.head _
      exact absurd (hg.closed n a this).1 hn
  have e1 : upd g.prev n [] = g.prev := by
    funext x
    by_cases hx : x = n
    · rw [hx, upd_same, h1]
    · exact upd_ne _ _ _ _ hx
  have e2 : upd g.next n [] = g.next := by
    funext x
    by_cases hx : x = n
    · rw [hx, upd_same, h2]
    · exact upd_ne _ _ _ _ hx
  constructor
  · unfold addOrFind addNode
    rw [hf, if_neg (by decide), if_neg hn, e1, e2]
  · refine ⟨?_, hg.symm, hg.next_nodup, hg.prev_nodup, fun a b h => ?_⟩
    · show ((g.nodes ++ [(n, v)]).map (·.1)).Nodup
      rw [List.map_append]
      refine List.Nodup.append hg.names_nodup (List.nodup_singleton _) ?_
      intro x hx hx'
      rw [List.mem_singleton.1 hx'] at hx
      exact hn hx
    · have := hg.closed a b h
      unfold names at this ⊢
      rw [List.map_append]
      exact ⟨List.mem_append_left _ this.1, List.mem_append_left _ this.2⟩

theorem addAll_ok {A : Type} (nm : A → N) (vl : A → V) : ∀ (l : List A) (g : G N V), Wf g →
    (l.map nm).Nodup → (∀ x ∈ l, nm x ∉ names g) →
    forEach (fun g x => addOrFind g (nm x) (vl x)) l g
      = (⟨g.nodes ++ l.map (fun x => (nm x, vl x)), g.prev, g.next⟩, none)
    ∧ Wf (⟨g.nodes ++ l.map (fun x => (nm x, vl x)), g.prev, g.next⟩ : G N V)
  | [], g, hg, _, _ => by
    rw [List.map_nil, List.append_nil]
    exact ⟨rfl, hg⟩
  | x :: l, g, hg, hnd, hni => by
    have h1 := addNode_wf hg (v := vl x) (hni x (List.Mem.head _))
    rw [List.map_cons, List.nodup_cons] at hnd
    have h2 := addAll_ok nm vl l _ h1.2 hnd.2 (fun y hy hm => by
      unfold names at hm
      rw [List.map_append] at hm
      rcases List.mem_append.1 hm with hm | hm
      · exact hni y (List.Mem.tail _ hy) hm
      · rw [List.map_cons, List.map_nil, List.mem_singleton] at hm
        exact hnd.1 (List.mem_map.2 ⟨y, hy, hm⟩))
    have e : g.nodes ++ (x :: l).map (fun x => (nm x, vl x))
        = g.nodes ++ [(nm x, vl x)] ++ l.map (fun x => (nm x, vl x)) := by
      rw [List.map_cons, List.append_assoc]; rfl
    rw [e]
    refine ⟨?_, h2.2⟩
    rw [forEach, h1.1]
    exact h2.1

theorem links_ok (b : N) : ∀ (as : List N) (g : G N V), Wf g → b ∈ names g →
    (∀ a ∈ as, a ∈ names g) → as.Nodup → (∀ a ∈ as, a ∉ g.prev b) →
    ∃ g', linkInputs b as g = (g', none) ∧ Wf g' ∧ g'.nodes = g.nodes
      ∧ g'.prev = upd g.prev b (g.prev b ++ as)
      ∧ ∀ x y, Edge g' x y ↔ Edge g x y ∨ (y = b ∧ x ∈ as)
  | [], g, hg, _, _, _, _ => by
    refine ⟨g, rfl, hg, rfl, ?_, by simp⟩
    rw [List.append_nil]
    funext x
    by_cases hx : x = b
    · rw [hx, upd_same]
    · rw [upd_ne _ _ _ _ hx]
  | a :: as, g, hg, hb, hn, hnd, hni => by
    have ha := hn a (List.Mem.head _)
    rw [List.nodup_cons] at hnd
    have hp : (link g a b).prev = upd g.prev b (g.prev b ++ [a]) := by
      rw [link_eq]
      show upd g.prev b (addIfAbsent (g.prev b) a) = _
      unfold addIfAbsent
      rw [if_neg (hni a (List.Mem.head _))]
    have hpb : (link g a b).prev b = g.prev b ++ [a] := by rw [hp, upd_same]
    obtain ⟨g', h1, h2, h3, h4, h5⟩ := links_ok b as (link g a b) (link_wf g a b hg ha hb)
      (by rw [link_names]; exact hb)
      (fun x hx => by rw [link_names]; exact hn x (List.Mem.tail _ hx)) hnd.2
      (fun x hx hm => by
        rw [hpb] at hm
        rcases List.mem_append.1 hm with hm | hm
        · exact hni x (List.Mem.tail _ hx) hm
        · rw [List.mem_singleton] at hm
          exact hnd.1 (hm ▸ hx))
    refine ⟨g', ?_, h2, h3, ?_, ?_⟩
    · show forEach _ (a :: as) g = _
      rw [forEach, linkChecked, if_pos ⟨ha, hb⟩]
      exact h1
    · rw [h4, hpb, hp]
      funext x
      by_cases hx : x = b
      · rw [hx, upd_same, upd_same, List.append_assoc]; rfl
      · rw [upd_ne _ _ _ _ hx, upd_ne _ _ _ _ hx, upd_ne _ _ _ _ hx]
    · intro x y
      rw [h5, link_edge, List.mem_cons]
      tauto

theorem allLinks_ok {A : Type} (nm : A → N) (inp : A → List N) : ∀ (l : List A) (g : G N V), Wf g →
    (l.map nm).Nodup → (∀ x ∈ l, nm x ∈ names g ∧ (inp x).Nodup ∧ g.prev (nm x) = []
      ∧ ∀ a ∈ inp x, a ∈ names g) →
    ∃ g', forEach (fun g x => linkInputs (nm x) (inp x) g) l g = (g', none) ∧ Wf g'
      ∧ g'.nodes = g.nodes
      ∧ (∀ x ∈ l, g'.prev (nm x) = inp x)
      ∧ (∀ z, z ∉ l.map nm → g'.prev z = g.prev z)
      ∧ ∀ a b, Edge g' a b ↔ Edge g a b ∨ ∃ x ∈ l, nm x = b ∧ a ∈ inp x
  | [], g, hg, _, _ => ⟨g, rfl, hg, rfl, by simp, by simp, by simp⟩
  | x :: l, g, hg, hnd, hall => by
    obtain ⟨hx1, hx2, hx3, hx4⟩ := hall x (List.Mem.head _)
    rw [List.map_cons, List.nodup_cons] at hnd
    obtain ⟨g1, e1, w1, n1, p1, l1⟩ := links_ok (nm x) (inp x) g hg hx1 hx4 hx2
      (fun a _ h => by rw [hx3] at h; cases h)
    have hnames : names g1 = names g := by unfold names; rw [n1]
    obtain ⟨g2, e2, w2, n2, p2, q2, l2⟩ := allLinks_ok nm inp l g1 w1 hnd.2 (fun y hy => by
      obtain ⟨a1, a2, a3, a4⟩ := hall y (List.Mem.tail _ hy)
      have hne : nm y ≠ nm x := fun h => hnd.1 (h ▸ List.mem_map_of_mem hy)
      rw [hnames]
      exact ⟨a1, a2, by rw [p1, upd_ne _ _ _ _ hne, a3], a4⟩)
    refine ⟨g2, ?_, w2, n2.trans n1, ?_, ?_, ?_⟩
    · rw [forEach, e1]
      exact e2
    · intro y hy
      rcases List.mem_cons.1 hy with rfl | hy
      · rw [q2 _ hnd.1, p1, upd_same, hx3]; rfl
      · exact p2 y hy
    · intro z hz
      rw [List.map_cons, List.mem_cons, not_or] at hz
      rw [q2 z hz.2, p1, upd_ne _ _ _ _ hz.1]
    · intro a b
      rw [l2, l1]
      constructor
      · rintro ((h | ⟨rfl, h⟩) | ⟨y, hy, h⟩)
        · exact Or.inl h
        · exact Or.inr ⟨x, List.Mem.head _, rfl, h⟩
        · exact Or.inr ⟨y, List.Mem.tail _ hy, h⟩
      · rintro (h | ⟨y, hy, h1, h2⟩)
        · exact Or.inl (Or.inl h)
        · rcases List.mem_cons.1 hy with rfl | hy
          · exact Or.inl (Or.inr ⟨h1.symm, h2⟩)
          · exact Or.inr ⟨y, hy, h1, h2⟩

/-- Adding all nodes and then all links. -/
theorem build_ok {A : Type} (nm : A → N) (vl : A → V) (inp : A → List N) (l : List A)
    (hnd : (l.map nm).Nodup) (hin : ∀ x ∈ l, (inp x).Nodup ∧ ∀ a ∈ inp x, a ∈ l.map nm) :
    ∃ g, andThen (forEach (fun g x => addOrFind g (nm x) (vl x)) l empty)
        (fun g => forEach (fun g x => linkInputs (nm x) (inp x) g) l g) = (g, none)
      ∧ Wf g ∧ g.nodes = l.map (fun x => (nm x, vl x))
      ∧ (∀ x ∈ l, g.prev (nm x) = inp x)
      ∧ ∀ a b, Edge g a b ↔ ∃ x ∈ l, nm x = b ∧ a ∈ inp x := by
  obtain ⟨e1, w1⟩ := addAll_ok nm vl l (empty : G N V) empty_wf hnd
    (fun x _ h => by cases h)
  have hnames : names (⟨(empty : G N V).nodes ++ l.map (fun x => (nm x, vl x)),
      (empty : G N V).prev, (empty : G N V).next⟩ : G N V) = l.map nm := by
    show (([] : List (N × V)) ++ l.map (fun x => (nm x, vl x))).map (·.1) = _
    rw [List.nil_append, List.map_map]
    rfl
  obtain ⟨g, e2, w2, n2, p2, _, l2⟩ := allLinks_ok nm inp l _ w1 hnd (fun x hx => by
    rw [hnames]
    exact ⟨List.mem_map_of_mem hx, (hin x hx).1, rfl, (hin x hx).2⟩)
  refine ⟨g, ?_, w2, ?_, p2, ?_⟩
  · rw [e1]
    exact e2
  · rw [n2]; rfl
  · intro a b
    rw [l2]
    constructor
    · rintro (h | h)
      · cases h
      · exact h
    · exact Or.inr

theorem traverse_acc {g : G N V} (hw : Wf g) {x : N} (hx : x ∈ (topoTraverse g).1) :
    Acc (Edge g) x := by
  obtain ⟨_, _, h3, _⟩ := traverse_spec g hw
  have key : ∀ n (l1 : List N) y l2, l1.length = n → (topoTraverse g).1 = l1 ++ y :: l2 →
      Acc (Edge g) y := by
    intro n
    induction n using Nat.strong_induction_on with
    | _ n ih =>
      intro l1 y l2 hn hsplit
      refine Acc.intro _ fun p hp => ?_
      have hp1 := h3 l1 y l2 hsplit p ((hw.symm p y).mp hp)
      obtain ⟨a, b, hab⟩ := List.append_of_mem hp1
      exact ih a.length (by rw [← hn, hab]; simp) a p (b ++ y :: l2) rfl
        (by rw [hsplit, hab]; simp)
  obtain ⟨a, b, hab⟩ := List.append_of_mem hx
  exact key a.length a x b rfl hab

theorem traverse_acyclic {g : G N V} (hw : Wf g) (hac : Acyclic g) :
    ∃ order, topoTraverse g = (order, none) ∧ order.Perm (names g) := by
  obtain ⟨h1, h2, _, h4⟩ := traverse_spec g hw
  refine ⟨(topoTraverse g).1, ?_⟩
  rcases h4 with ⟨a, b⟩ | ⟨_, ⟨x, hx, hn⟩, c⟩
  · exact ⟨by rw [← a], (List.perm_ext_iff_of_nodup h1 hw.names_nodup).mpr
      fun x => ⟨h2 x, b x⟩⟩
  · exfalso
    have hacc := acc_of_not_behind g hw x hx (fun ⟨c, hc, _⟩ => hac c hc)
    induction hacc with
    | intro x _ ih =>
      obtain ⟨p, hp, hpl⟩ := c x hx hn
      have hedge : Edge g p x := (hw.symm p x).mpr hp
      exact ih p hedge (hw.closed p x hedge).1 hpl

theorem traverse_cyclic {g : G N V} (hw : Wf g) {x : N}
    (hc : Relation.TransGen (Edge g) x x) :
    ∃ order, topoTraverse g = (order, some .runtime) := by
  obtain ⟨_, _, _, h4⟩ := traverse_spec g hw
  refine ⟨(topoTraverse g).1, ?_⟩
  rcases h4 with ⟨_, b⟩ | ⟨a, _⟩
  · have hx : x ∈ names g := by
      obtain ⟨y, hy, _⟩ := Relation.TransGen.head'_iff.mp hc
      exact (hw.closed x y hy).1
    exact absurd ⟨x, hc, Relation.ReflTransGen.refl⟩
      (not_behind_of_acc g x (traverse_acc hw (b x hx)))
  · rw [← a]

theorem inOrder_perm {g : G N V} (hw : Wf g) {order : List N} (hp : order.Perm (names g)) :
    (inOrder g order).Perm g.nodes := by
  have hn : (inOrder g order).map (·.1) = order :=
    filterMap_names g order (fun x hx => hp.subset hx)
  have hnd : (inOrder g order).Nodup := by
    refine List.Nodup.of_map (·.1) ?_
    rw [hn]
    exact hp.nodup_iff.2 hw.names_nodup
  have hnd2 : g.nodes.Nodup := List.Nodup.of_map (fun p : N × V => p.1) hw.names_nodup
  refine List.Subperm.perm_of_length_le (List.subperm_of_subset hnd ?_) ?_
  · intro p hp
    unfold inOrder at hp
    obtain ⟨n, _, h⟩ := List.mem_filterMap.1 hp
    exact List.mem_of_find?_eq_some h
  · have h1 : ((inOrder g order).map (·.1)).length = (names g).length := by
      rw [hn]; exact hp.length_eq
    rw [List.length_map] at h1
    unfold names at h1
    rw [List.length_map] at h1
    omega

theorem prev_nil {g : G N V} (hw : Wf g) (x : N) : g.prev x = [] ↔ ∀ a, ¬ Edge g a x := by
  constructor
  · intro h a ha
    have := (hw.symm a x).1 ha
    rw [h] at this
    cases this
  · intro h
    cases hp : g.prev x with
    | nil => rfl
    | cons a l => exact absurd ((hw.symm a x).2 (by rw [hp]; exact List.Mem.head _)) (h a)

theorem next_nil {g : G N V} (x : N) : g.next x = [] ↔ ∀ b, ¬ Edge g x b := by
  constructor
  · intro h a (ha : a ∈ g.next x)
    rw [h] at ha
    cases ha
  · intro h
    cases hp : g.next x with
    | nil => rfl
    | cons a l => exact absurd (show a ∈ g.next x by rw [hp]; exact List.Mem.head _) (h a)

theorem usable_add {g : G N V} (hw : Wf g) {n : N} {v : V} (hu : Usable g n v) :
    ∃ h, addOrFind g n v = (h, none) ∧ Wf h ∧ (∀ x y, Edge h x y ↔ Edge g x y)
      ∧ g.nodes <+: h.nodes ∧ ∀ q, q ∈ h.nodes ↔ q ∈ g.nodes ∨ q = (n, v) := by
  rcases hu with hu | hu
  · have := addNode_wf hw (v := v) hu
    refine ⟨_, this.1, this.2, fun x y => Iff.rfl, List.prefix_append _ _, fun q => ?_⟩
    rw [List.mem_append, List.mem_singleton]
  · refine ⟨g, ?_, hw, fun x y => Iff.rfl, List.prefix_refl _, fun q => ?_⟩
    · unfold addOrFind
      rw [if_pos]
      unfold found
      exact List.any_eq_true.2 ⟨_, hu, by simp⟩
    · constructor
      · exact Or.inl
      · rintro (h | rfl)
        · exact h
        · exact hu

theorem mem_names {g : G N V} {p : N × V} (h : p ∈ g.nodes) : p.1 ∈ names g :=
  List.mem_map_of_mem (f := (·.1)) h

theorem names_sub {g h : G N V} (hp : ∀ q ∈ g.nodes, q ∈ h.nodes) {x : N} (hx : x ∈ names g) :
    x ∈ names h := by
  obtain ⟨q, hq, rfl⟩ := List.mem_map.1 hx
  exact mem_names (hp q hq)

/-- Add a node if needed and link two nodes. -/
theorem addLink_ok {g : G N V} (hw : Wf g) {n : N} {v : V} (hu : Usable g n v) {x y : N}
    (hx : x ∈ names g ∨ x = n) (hy : y ∈ names g ∨ y = n) :
    ∃ h, andThen (addOrFind g n v) (fun g => linkChecked g x y) = (h, none) ∧ Wf h
      ∧ (∀ a b, Edge h a b ↔ Edge g a b ∨ (a = x ∧ b = y))
      ∧ g.nodes <+: h.nodes ∧ ∀ q, q ∈ h.nodes ↔ q ∈ g.nodes ∨ q = (n, v) := by
  obtain ⟨h, e, w, l, p, m⟩ := usable_add hw hu
  have hin : ∀ z, z ∈ names g ∨ z = n → z ∈ names h := by
    rintro z (hz | rfl)
    · exact names_sub (fun q hq => (m q).2 (Or.inl hq)) hz
    · exact mem_names (p := (z, v)) ((m _).2 (Or.inr rfl))
  have hxh := hin x hx
  have hyh := hin y hy
  refine ⟨link h x y, ?_, link_wf h x y w hxh hyh, fun a b => ?_, ?_, ?_⟩
  · rw [e]
    exact if_pos ⟨hxh, hyh⟩
  · rw [link_edge, l]
  · rw [show (link h x y).nodes = h.nodes by rw [link_eq]; rfl]
    exact p
  · rw [show (link h x y).nodes = h.nodes by rw [link_eq]; rfl]
    exact m

theorem nodeCheck_none (r : Role) (prev next : List N) :
    nodeCheck r prev next = none ↔ (r = .input ↔ prev = []) ∧ (r = .output ↔ next = []) := by
  unfold nodeCheck
  by_cases h1 : prev = [] <;> by_cases h2 : next = [] <;> cases r <;> simp [h1, h2]

theorem usable_keep {g h : G N V} (hw : Wf h) {n : N} {v : V}
    (hu : Usable g n v) {P : N × V → Prop}
    (hm : ∀ q, q ∈ h.nodes → q ∈ g.nodes ∨ P q) (hs : ∀ q ∈ g.nodes, q ∈ h.nodes)
    (hP : ∀ q, P q → q.1 = n → q = (n, v)) : Usable h n v := by
  rcases hu with hu | hu
  · by_cases hn : n ∈ names h
    · obtain ⟨q, hq, he⟩ := List.mem_map.1 hn
      rcases hm q hq with h1 | h1
      · exact absurd (he ▸ mem_names h1) hu
      · exact Or.inr (hP q h1 he ▸ hq)
    · exact Or.inl hn
  · exact Or.inr (hs _ hu)

theorem checkNode_ok {a : Auto N V} {h : G N V} (hw : Wf h) {x : N} {v : V}
    (hx : (x, v) ∈ h.nodes) (hxi : x ≠ a.inName) (hxo : x ≠ a.outName)
    (hio : a.inName ≠ a.outName)
    (hr : (a.role v = .input → h.prev x = []) ∧ (a.role v = .output → h.next x = []))
    (hui : Usable h a.inName a.inVal) (huo : Usable h a.outName a.outVal) (k : ℕ) :
    ∃ h', checkNode a true (k + 3) (x, v) h = (h', none) ∧ Wf h'
      ∧ (∀ y z, Edge h' y z ↔ Edge h y z
          ∨ (y = a.inName ∧ z = x ∧ a.role v ≠ .input ∧ h.prev x = [])
          ∨ (z = a.outName ∧ y = x ∧ a.role v ≠ .output ∧ h.next x = []))
      ∧ h.nodes <+: h'.nodes
      ∧ ∀ q, q ∈ h'.nodes ↔ q ∈ h.nodes
          ∨ (q = (a.inName, a.inVal) ∧ a.role v ≠ .input ∧ h.prev x = [])
          ∨ (q = (a.outName, a.outVal) ∧ a.role v ≠ .output ∧ h.next x = []) := by
  have hxn : x ∈ names h := mem_names hx
  -- the part after the inputs
  have second : ∀ (j : ℕ) (g : G N V), Wf g → x ∈ names g → Usable g a.outName a.outVal →
      (a.role v = .input ↔ g.prev x = []) → (a.role v = .output → g.next x = []) →
      ∃ h', checkNode a true (j + 2) (x, v) g = (h', none) ∧ Wf h'
      ∧ (∀ y z, Edge h' y z ↔ Edge g y z
          ∨ (z = a.outName ∧ y = x ∧ a.role v ≠ .output ∧ g.next x = []))
      ∧ g.nodes <+: h'.nodes
      ∧ ∀ q, q ∈ h'.nodes ↔ q ∈ g.nodes
          ∨ (q = (a.outName, a.outVal) ∧ a.role v ≠ .output ∧ g.next x = []) := by
    intro j g wg hxg hu hp hn
    by_cases hlack : a.role v ≠ .output ∧ g.next x = []
    · obtain ⟨h', e, w', l', p', m'⟩ := addLink_ok wg hu (x := x) (y := a.outName)
        (Or.inl hxg) (Or.inr rfl)
      have hcheck : nodeCheck (a.role v) (g.prev x) (g.next x) = some .noOutput := by
        unfold nodeCheck
        cases hv : a.role v with
        | input =>
          dsimp only
          rw [if_neg (not_not.2 (hp.1 hv)), if_pos hlack.2]
        | output => exact absurd hv hlack.1
        | other =>
          dsimp only
          rw [if_neg (fun h => by rw [hp.2 h] at hv; cases hv), if_pos hlack.2]
      have hprev : h'.prev x = [] ↔ g.prev x = [] := by
        rw [prev_nil w', prev_nil wg]
        refine forall_congr' fun b => not_congr ?_
        rw [l']
        constructor
        · rintro (h | ⟨_, h⟩)
          · exact h
          · exact absurd h hxo
        · exact Or.inl
      have hnext : h'.next x ≠ [] := by
        intro hc
        exact (next_nil x).1 hc a.outName ((l' _ _).2 (Or.inr ⟨rfl, rfl⟩))
      refine ⟨h', ?_, w', fun y z => ?_, p', fun q => ?_⟩
      · rw [show j + 2 = (j + 1) + 1 from rfl, checkNode]
        dsimp only
        rw [hcheck]
        dsimp only
        rw [if_pos rfl, addOutput, e]
        dsimp only [andThen]
        rw [checkNode]
        dsimp only
        rw [(nodeCheck_none _ _ _).2 ⟨hp.trans hprev.symm,
          ⟨fun h => absurd h hlack.1, fun h => absurd h hnext⟩⟩]
      · rw [l']
        constructor
        · rintro (h | ⟨h1, h2⟩)
          · exact Or.inl h
          · exact Or.inr ⟨h2, h1, hlack⟩
        · rintro (h | ⟨h1, h2, _⟩)
          · exact Or.inl h
          · exact Or.inr ⟨h2, h1⟩
      · rw [m']
        constructor
        · rintro (h | h)
          · exact Or.inl h
          · exact Or.inr ⟨h, hlack⟩
        · rintro (h | ⟨h, _⟩)
          · exact Or.inl h
          · exact Or.inr h
    · refine ⟨g, ?_, wg, fun y z => ?_, List.prefix_refl _, fun q => ?_⟩
      · rw [show j + 2 = (j + 1) + 1 from rfl, checkNode]
        dsimp only
        rw [(nodeCheck_none _ _ _).2 ⟨hp, hn, fun h => by
          by_contra hc
          exact hlack ⟨hc, h⟩⟩]
      · constructor
        · exact Or.inl
        · rintro (h | ⟨_, _, h⟩)
          · exact h
          · exact absurd h hlack
      · constructor
        · exact Or.inl
        · rintro (h | ⟨_, h⟩)
          · exact h
          · exact absurd h hlack
  by_cases hlack : a.role v ≠ .input ∧ h.prev x = []
  · obtain ⟨h1, e, w1, l1, p1, m1⟩ := addLink_ok hw hui (x := a.inName) (y := x)
      (Or.inr rfl) (Or.inl hxn)
    have hcheck : nodeCheck (a.role v) (h.prev x) (h.next x) = some .noInput := by
      unfold nodeCheck
      cases hv : a.role v with
      | input => exact absurd hv hlack.1
      | output =>
        dsimp only
        rw [if_pos hlack.2]
      | other =>
        dsimp only
        rw [if_pos hlack.2]
    have hprev : h1.prev x ≠ [] := fun hc =>
      (prev_nil w1 x).1 hc a.inName ((l1 _ _).2 (Or.inr ⟨rfl, rfl⟩))
    have hnext : h1.next x = [] ↔ h.next x = [] := by
      rw [next_nil, next_nil]
      refine forall_congr' fun b => not_congr ?_
      rw [l1]
      constructor
      · rintro (h | ⟨h, _⟩)
        · exact h
        · exact absurd h hxi
      · exact Or.inl
    obtain ⟨h2, e2, w2, l2, p2, m2⟩ := second k h1 w1
      (names_sub (fun q hq => (m1 q).2 (Or.inl hq)) hxn)
      (usable_keep (P := fun q => q = (a.inName, a.inVal)) w1 huo
        (fun q hq => (m1 q).1 hq) (fun q hq => (m1 q).2 (Or.inl hq))
        (fun q hq he => by rw [hq] at he; exact absurd he hio))
      ⟨fun h => absurd h hlack.1, fun h => absurd h hprev⟩
      (fun h => hnext.2 (hr.2 h))
    refine ⟨h2, ?_, w2, fun y z => ?_, p1.trans p2, fun q => ?_⟩
    · rw [show k + 3 = (k + 2) + 1 from rfl, checkNode]
      dsimp only
      rw [hcheck]
      dsimp only
      rw [if_pos rfl, addInput, e]
      exact e2
    · rw [l2, l1, hnext]
      constructor
      · rintro ((h | ⟨h1, h2⟩) | h)
        · exact Or.inl h
        · exact Or.inr (Or.inl ⟨h1, h2, hlack⟩)
        · exact Or.inr (Or.inr h)
      · rintro (h | ⟨h1, h2, _⟩ | h)
        · exact Or.inl (Or.inl h)
        · exact Or.inl (Or.inr ⟨h1, h2⟩)
        · exact Or.inr h
    · rw [m2, m1, hnext]
      constructor
      · rintro ((h | h) | h)
        · exact Or.inl h
        · exact Or.inr (Or.inl ⟨h, hlack⟩)
        · exact Or.inr (Or.inr h)
      · rintro (h | ⟨h, _⟩ | h)
        · exact Or.inl (Or.inl h)
        · exact Or.inl (Or.inr h)
        · exact Or.inr h
  · obtain ⟨h2, e2, w2, l2, p2, m2⟩ := second (k + 1) h hw hxn huo
      ⟨hr.1, fun h => by by_contra hc; exact hlack ⟨hc, h⟩⟩ hr.2
    refine ⟨h2, e2, w2, fun y z => ?_, p2, fun q => ?_⟩
    · rw [l2]
      constructor
      · rintro (h | h)
        · exact Or.inl h
        · exact Or.inr (Or.inr h)
      · rintro (h | ⟨_, _, h⟩ | h)
        · exact Or.inl h
        · exact absurd h hlack
        · exact Or.inr h
    · rw [m2]
      constructor
      · rintro (h | h)
        · exact Or.inl h
        · exact Or.inr (Or.inr h)
      · rintro (h | ⟨_, h⟩ | h)
        · exact Or.inl h
        · exact absurd h hlack
        · exact Or.inr h

theorem checkAll_ok {a : Auto N V} (hio : a.inName ≠ a.outName) (k : ℕ) :
    ∀ (l : List (N × V)) (h : G N V), Wf h → (l.map (·.1)).Nodup →
      (∀ p ∈ l, p ∈ h.nodes ∧ p.1 ≠ a.inName ∧ p.1 ≠ a.outName
        ∧ (a.role p.2 = .input → h.prev p.1 = []) ∧ (a.role p.2 = .output → h.next p.1 = [])) →
      Usable h a.inName a.inVal → Usable h a.outName a.outVal →
      ∃ h', forEach (fun h p => checkNode a true (k + 3) p h) l h = (h', none) ∧ Wf h'
        ∧ (∀ y z, Edge h' y z ↔ Edge h y z
          ∨ (y = a.inName ∧ ∃ v, (z, v) ∈ l ∧ a.role v ≠ .input ∧ h.prev z = [])
          ∨ (z = a.outName ∧ ∃ v, (y, v) ∈ l ∧ a.role v ≠ .output ∧ h.next y = []))
        ∧ h.nodes <+: h'.nodes
        ∧ ∀ q, q ∈ h'.nodes ↔ q ∈ h.nodes
          ∨ (q = (a.inName, a.inVal) ∧ ∃ p ∈ l, a.role p.2 ≠ .input ∧ h.prev p.1 = [])
          ∨ (q = (a.outName, a.outVal) ∧ ∃ p ∈ l, a.role p.2 ≠ .output ∧ h.next p.1 = [])
  | [], h, hw, _, _, _, _ => ⟨h, rfl, hw, by simp, List.prefix_refl _, by simp⟩
  | (x, v) :: l, h, hw, hnd, hall, hui, huo => by
    obtain ⟨hx, hxi, hxo, hr⟩ := hall (x, v) (List.Mem.head _)
    obtain ⟨h1, e1, w1, l1, p1, m1⟩ := checkNode_ok hw hx hxi hxo hio hr hui huo k
    rw [List.map_cons, List.nodup_cons] at hnd
    have hsub : ∀ q ∈ h.nodes, q ∈ h1.nodes := fun q hq => (m1 q).2 (Or.inl hq)
    have hprev : ∀ p ∈ l, (h1.prev p.1 = [] ↔ h.prev p.1 = []) := by
      intro p hp
      have hpx : p.1 ≠ x := fun he => hnd.1 (List.mem_map.2 ⟨p, hp, he⟩)
      have hpo := (hall p (List.Mem.tail _ hp)).2.2.1
      rw [prev_nil w1, prev_nil hw]
      refine forall_congr' fun b => not_congr ?_
      rw [l1]
      constructor
      · rintro (h | ⟨_, h, _⟩ | ⟨h, _⟩)
        · exact h
        · exact absurd h hpx
        · exact absurd h hpo
      · exact Or.inl
    have hnext : ∀ p ∈ l, (h1.next p.1 = [] ↔ h.next p.1 = []) := by
      intro p hp
      have hpx : p.1 ≠ x := fun he => hnd.1 (List.mem_map.2 ⟨p, hp, he⟩)
      have hpi := (hall p (List.Mem.tail _ hp)).2.1
      rw [next_nil, next_nil]
      refine forall_congr' fun b => not_congr ?_
      rw [l1]
      constructor
      · rintro (h | ⟨h, _⟩ | ⟨_, h, _⟩)
        · exact h
        · exact absurd h hpi
        · exact absurd h hpx
      · exact Or.inl
    obtain ⟨h2, e2, w2, l2, p2, m2⟩ := checkAll_ok hio k l h1 w1 hnd.2
      (fun p hp => by
        obtain ⟨b1, b2, b3, b4, b5⟩ := hall p (List.Mem.tail _ hp)
        exact ⟨hsub p b1, b2, b3, fun h => (hprev p hp).2 (b4 h), fun h => (hnext p hp).2 (b5 h)⟩)
      (usable_keep (P := fun q => q = (a.inName, a.inVal) ∨ q = (a.outName, a.outVal)) w1 hui
        (fun q hq => by
          rcases (m1 q).1 hq with h | ⟨h, _⟩ | ⟨h, _⟩
          · exact Or.inl h
          · exact Or.inr (Or.inl h)
          · exact Or.inr (Or.inr h)) hsub
        (fun q hq he => by
          rcases hq with h | h
          · exact h
          · rw [h] at he; exact absurd he.symm hio))
      (usable_keep (P := fun q => q = (a.inName, a.inVal) ∨ q = (a.outName, a.outVal)) w1 huo
        (fun q hq => by
          rcases (m1 q).1 hq with h | ⟨h, _⟩ | ⟨h, _⟩
          · exact Or.inl h
          · exact Or.inr (Or.inl h)
          · exact Or.inr (Or.inr h)) hsub
        (fun q hq he => by
          rcases hq with h | h
          · rw [h] at he; exact absurd he hio
          · exact h))
    refine ⟨h2, ?_, w2, fun y z => ?_, p1.trans p2, fun q => ?_⟩
    · rw [forEach, e1]
      exact e2
    · rw [l2, l1]
      constructor
      · rintro ((h | ⟨h1, rfl, h3⟩ | ⟨h1, rfl, h3⟩) | ⟨h1, w, h2, h3, h4⟩ | ⟨h1, w, h2, h3, h4⟩)
        · exact Or.inl h
        · exact Or.inr (Or.inl ⟨h1, v, List.Mem.head _, h3⟩)
        · exact Or.inr (Or.inr ⟨h1, v, List.Mem.head _, h3⟩)
        · exact Or.inr (Or.inl ⟨h1, w, List.Mem.tail _ h2, h3, (hprev _ h2).1 h4⟩)
        · exact Or.inr (Or.inr ⟨h1, w, List.Mem.tail _ h2, h3, (hnext _ h2).1 h4⟩)
      · rintro (h | ⟨h1, w, h2, h3, h4⟩ | ⟨h1, w, h2, h3, h4⟩)
        · exact Or.inl (Or.inl h)
        · rcases List.mem_cons.1 h2 with h2 | h2
          · cases h2
            exact Or.inl (Or.inr (Or.inl ⟨h1, rfl, h3, h4⟩))
          · exact Or.inr (Or.inl ⟨h1, w, h2, h3, (hprev _ h2).2 h4⟩)
        · rcases List.mem_cons.1 h2 with h2 | h2
          · cases h2
            exact Or.inl (Or.inr (Or.inr ⟨h1, rfl, h3, h4⟩))
          · exact Or.inr (Or.inr ⟨h1, w, h2, h3, (hnext _ h2).2 h4⟩)
    · rw [m2, m1]
      constructor
      · rintro ((h | ⟨h1, h3⟩ | ⟨h1, h3⟩) | ⟨h1, w, h2, h3, h4⟩ | ⟨h1, w, h2, h3, h4⟩)
        · exact Or.inl h
        · exact Or.inr (Or.inl ⟨h1, _, List.Mem.head _, h3⟩)
        · exact Or.inr (Or.inr ⟨h1, _, List.Mem.head _, h3⟩)
        · exact Or.inr (Or.inl ⟨h1, w, List.Mem.tail _ h2, h3, (hprev _ h2).1 h4⟩)
        · exact Or.inr (Or.inr ⟨h1, w, List.Mem.tail _ h2, h3, (hnext _ h2).1 h4⟩)
      · rintro (h | ⟨h1, w, h2, h3, h4⟩ | ⟨h1, w, h2, h3, h4⟩)
        · exact Or.inl (Or.inl h)
        · rcases List.mem_cons.1 h2 with h2 | h2
          · subst h2
            exact Or.inl (Or.inr (Or.inl ⟨h1, h3, h4⟩))
          · exact Or.inr (Or.inl ⟨h1, w, h2, h3, (hprev _ h2).2 h4⟩)
        · rcases List.mem_cons.1 h2 with h2 | h2
          · subst h2
            exact Or.inl (Or.inr (Or.inr ⟨h1, h3, h4⟩))
          · exact Or.inr (Or.inr ⟨h1, w, h2, h3, (hnext _ h2).2 h4⟩)

theorem checkPlain_ok {a : Auto N V} (k : ℕ) (g : G N V) : ∀ (l : List (N × V)),
    forEach (fun h p => checkNode a false (k + 1) p h) l g = (g, none)
      ↔ ∀ p ∈ l, NodeOk a.role g p
  | [] => by simp [forEach]
  | p :: l => by
    have ih := checkPlain_ok (a := a) k g l
    rw [forEach, checkNode]
    cases hc : nodeCheck (a.role p.2) (g.prev p.1) (g.next p.1) with
    | none =>
      dsimp only
      rw [ih]
      constructor
      · intro h q hq
        rcases List.mem_cons.1 hq with rfl | hq
        · exact (nodeCheck_none _ _ _).1 hc
        · exact h q hq
      · exact fun h q hq => h q (List.Mem.tail _ hq)
    | some d =>
      dsimp only
      rw [if_neg (by decide)]
      constructor
      · intro h
        cases h
      · intro h
        have := (nodeCheck_none _ _ _).2 (h p (List.Mem.head _))
        rw [hc] at this
        cases this

section paths

variable {K : Type}

theorem ksNode_self (p : Tracer.PNode K) : keyOf p ∈ ksNode p := by
  cases p with
  | layer k n => exact List.Mem.head _
  | cat id subs => exact List.Mem.head _

theorem mem_ksPath (k : Key K) : ∀ l : List (Tracer.PNode K),
    k ∈ ksPath l ↔ ∃ p ∈ l, k ∈ ksNode p
  | [] => by simp [ksPath]
  | p :: l => by rw [ksPath, List.mem_append, mem_ksPath k l]; simp

theorem mem_ksPaths (k : Key K) : ∀ l : List (List (Tracer.PNode K)),
    k ∈ ksPaths l ↔ ∃ p ∈ l, k ∈ ksPath p
  | [] => by simp [ksPaths]
  | p :: l => by rw [ksPaths, List.mem_append, mem_ksPaths k l]; simp

theorem mem_ksSubs (k : Key K) : ∀ l : List (List (List (Tracer.PNode K))),
    k ∈ ksSubs l ↔ ∃ p ∈ l, k ∈ ksPaths p
  | [] => by simp [ksSubs]
  | p :: l => by rw [ksSubs, List.mem_append, mem_ksSubs k l]; simp

theorem ks_of_mentions {ps : List (Tracer.Path K)} {k : Key K} (h : Mentions ps k) :
    k ∈ ksPaths ps := by
  induction h with
  | here h hp => exact (mem_ksPaths _ _).2 ⟨_, h, (mem_ksPath _ _).2 ⟨_, hp, ksNode_self _⟩⟩
  | inside h hp hs _ ih =>
    refine (mem_ksPaths _ _).2 ⟨_, h, (mem_ksPath _ _).2 ⟨_, hp, ?_⟩⟩
    rw [ksNode]
    exact List.Mem.tail _ ((mem_ksSubs _ _).2 ⟨_, hs, ih⟩)

mutual

theorem mentions_node (k : Key K) (ps : List (Tracer.Path K)) (path : Tracer.Path K)
    (h : path ∈ ps) : ∀ p, p ∈ path → k ∈ ksNode p → Mentions ps k
  | .layer kd n, hp, hk => by
    rw [ksNode, List.mem_singleton] at hk
    rw [hk]
    exact Mentions.here h hp
  | .cat id subs, hp, hk => by
    rw [ksNode] at hk
    rcases List.mem_cons.1 hk with hk | hk
    · rw [hk]
      exact Mentions.here h hp
    · obtain ⟨sub, hs, hm⟩ := mentions_subs k subs hk
      exact Mentions.inside h hp hs hm

theorem mentions_path (k : Key K) (ps : List (Tracer.Path K)) (path : Tracer.Path K)
    (h : path ∈ ps) : ∀ l : List (Tracer.PNode K), (∀ p ∈ l, p ∈ path) → k ∈ ksPath l → Mentions ps k
  | [], _, hk => by cases hk
  | p :: l, hl, hk => by
    rw [ksPath] at hk
    rcases List.mem_append.1 hk with hk | hk
    · exact mentions_node k ps path h p (hl p (List.Mem.head _)) hk
    · exact mentions_path k ps path h l (fun q hq => hl q (List.Mem.tail _ hq)) hk

theorem mentions_paths (k : Key K) (ps : List (Tracer.Path K)) :
    ∀ l : List (List (Tracer.PNode K)), (∀ p ∈ l, p ∈ ps) → k ∈ ksPaths l → Mentions ps k
  | [], _, hk => by cases hk
  | p :: l, hl, hk => by
    rw [ksPaths] at hk
    rcases List.mem_append.1 hk with hk | hk
    · exact mentions_path k ps p (hl p (List.Mem.head _)) p (fun _ h => h) hk
    · exact mentions_paths k ps l (fun q hq => hl q (List.Mem.tail _ hq)) hk

theorem mentions_subs (k : Key K) : ∀ l : List (List (List (Tracer.PNode K))), k ∈ ksSubs l →
    ∃ sub ∈ l, Mentions sub k
  | [], hk => by cases hk
  | p :: l, hk => by
    rw [ksSubs] at hk
    rcases List.mem_append.1 hk with hk | hk
    · exact ⟨p, List.Mem.head _, mentions_paths k p p (fun _ h => h) hk⟩
    · obtain ⟨sub, hs, hm⟩ := mentions_subs k l hk
      exact ⟨sub, List.Mem.tail _ hs, hm⟩

end

theorem mentions_iff (ps : List (Tracer.Path K)) (k : Key K) : Mentions ps k ↔ k ∈ ksPaths ps :=
  ⟨ks_of_mentions, mentions_paths k ps ps (fun _ h => h)⟩

theorem ev_next (b a : Tracer.PNode K) (l' : List (Tracer.PNode K)) :
    ∀ l : List (Tracer.PNode K), (keyOf a, keyOf b) ∈ evPath (l ++ b :: a :: l')
  | [] => by
    rw [List.nil_append, evPath]
    exact List.mem_append.2 (Or.inr (List.mem_append.2 (Or.inl (List.Mem.head _))))
  | p :: l => by
    rw [List.cons_append, evPath]
    exact List.mem_append.2 (Or.inr (List.mem_append.2 (Or.inr (ev_next b a l' l))))

theorem ev_node_path (e : Key K × Key K) : ∀ (l : List (Tracer.PNode K)) (p), p ∈ l →
    e ∈ evNode p → e ∈ evPath l
  | [], _, h, _ => by cases h
  | q :: l, p, h, he => by
    rw [evPath]
    rcases List.mem_cons.1 h with rfl | h
    · exact List.mem_append.2 (Or.inl he)
    · exact List.mem_append.2 (Or.inr (List.mem_append.2 (Or.inr (ev_node_path e l p h he))))

theorem mem_evPaths (e : Key K × Key K) : ∀ l : List (List (Tracer.PNode K)),
    e ∈ evPaths l ↔ ∃ p ∈ l, e ∈ evPath p
  | [] => by simp [evPaths]
  | p :: l => by rw [evPaths, List.mem_append, mem_evPaths e l]; simp

theorem mem_evSubs (c : Key K) (e : Key K × Key K) : ∀ l : List (List (List (Tracer.PNode K))),
    e ∈ evSubs c l ↔ ∃ p ∈ l, e ∈ evPaths p
      ∨ ∃ q m, (q :: m) ∈ p ∧ e = (keyOf q, c)
  | [] => by simp [evSubs]
  | p :: l => by
    rw [evSubs, List.mem_append, List.mem_append, mem_evSubs c e l]
    have : e ∈ (p.filterMap (fun q => q.head?.map keyOf)).map (fun k => (k, c))
        ↔ ∃ q m, (q :: m) ∈ p ∧ e = (keyOf q, c) := by
      constructor
      · intro h
        obtain ⟨k, hk, rfl⟩ := List.mem_map.1 h
        obtain ⟨w, hw, he⟩ := List.mem_filterMap.1 hk
        cases w with
        | nil => cases he
        | cons q m =>
          cases he
          exact ⟨q, m, hw, rfl⟩
      · rintro ⟨q, m, hm, rfl⟩
        exact List.mem_map.2 ⟨keyOf q, List.mem_filterMap.2 ⟨_, hm, rfl⟩, rfl⟩
    rw [this]
    constructor
    · rintro (h | h | ⟨r, hr, h⟩)
      · exact ⟨p, List.Mem.head _, Or.inr h⟩
      · exact ⟨p, List.Mem.head _, Or.inl h⟩
      · exact ⟨r, List.Mem.tail _ hr, h⟩
    · rintro ⟨r, hr, h⟩
      rcases List.mem_cons.1 hr with rfl | hr
      · exact h.elim (fun h => Or.inr (Or.inl h)) Or.inl
      · exact Or.inr (Or.inr ⟨r, hr, h⟩)

theorem ev_of_feeds {ps : List (Tracer.Path K)} {a b : Key K} (h : Feeds ps a b) :
    (a, b) ∈ evPaths ps := by
  induction h with
  | next h => exact (mem_evPaths _ _).2 ⟨_, h, ev_next _ _ _ _⟩
  | input h hp hs hq =>
    refine (mem_evPaths _ _).2 ⟨_, h, ev_node_path _ _ _ hp ?_⟩
    rw [evNode]
    exact (mem_evSubs _ _ _).2 ⟨_, hs, Or.inr ⟨_, _, hq, rfl⟩⟩
  | inside h hp hs _ ih =>
    refine (mem_evPaths _ _).2 ⟨_, h, ev_node_path _ _ _ hp ?_⟩
    rw [evNode]
    exact (mem_evSubs _ _ _).2 ⟨_, hs, Or.inl ih⟩

theorem head_link {a b : Key K} {p : Tracer.PNode K} {l : List (Tracer.PNode K)}
    (h : (a, b) ∈ (l.head?.map keyOf).toList.map (fun k => (k, keyOf p))) :
    ∃ q m, l = q :: m ∧ a = keyOf q ∧ b = keyOf p := by
  cases l with
  | nil => cases h
  | cons q l =>
    have h : (a, b) ∈ [(keyOf q, keyOf p)] := h
    rw [List.mem_singleton] at h
    cases h
    exact ⟨q, l, rfl, rfl, rfl⟩

mutual

theorem feeds_node (a b : Key K) (ps : List (Tracer.Path K)) (path : Tracer.Path K)
    (h : path ∈ ps) : ∀ p, p ∈ path → (a, b) ∈ evNode p → Feeds ps a b
  | .layer kd n, hp, hk => by
    rw [evNode] at hk
    cases hk
  | .cat id subs, hp, hk => by
    rw [evNode] at hk
    rcases feeds_subs a b (.cat id) subs hk with ⟨sub, hs, hm⟩ | ⟨sub, hs, q, m, hm, ha, hb⟩
    · exact Feeds.inside h hp hs hm
    · rw [ha, hb]
      exact Feeds.input h hp hs hm
  termination_by structural p => p

theorem feeds_path (a b : Key K) (ps : List (Tracer.Path K)) :
    ∀ (l pre : List (Tracer.PNode K)), pre ++ l ∈ ps → (a, b) ∈ evPath l → Feeds ps a b
  | [], _, _, hk => by cases hk
  | p :: l, pre, h, hk => by
    rw [evPath] at hk
    rcases List.mem_append.1 hk with hk | hk
    · exact feeds_node a b ps _ h p (by simp) hk
    rcases List.mem_append.1 hk with hk | hk
    · obtain ⟨q, m, hl, ha, hb⟩ := head_link hk
      rw [ha, hb]
      rw [hl] at h
      exact Feeds.next h
    · exact feeds_path a b ps l (pre ++ [p]) (by simpa using h) hk
  termination_by structural l => l

theorem feeds_paths (a b : Key K) (ps : List (Tracer.Path K)) :
    ∀ l : List (List (Tracer.PNode K)), (∀ p ∈ l, p ∈ ps) → (a, b) ∈ evPaths l → Feeds ps a b
  | [], _, hk => by cases hk
  | p :: l, hl, hk => by
    rw [evPaths] at hk
    rcases List.mem_append.1 hk with hk | hk
    · exact feeds_path a b ps p [] (hl p (List.Mem.head _)) hk
    · exact feeds_paths a b ps l (fun q hq => hl q (List.Mem.tail _ hq)) hk
  termination_by structural l => l

theorem feeds_subs (a b c : Key K) : ∀ l : List (List (List (Tracer.PNode K))), (a, b) ∈ evSubs c l →
    (∃ sub ∈ l, Feeds sub a b) ∨ ∃ sub ∈ l, ∃ q m, (q :: m) ∈ sub ∧ a = keyOf q ∧ b = c
  | [], hk => by cases hk
  | p :: l, hk => by
    rw [evSubs] at hk
    rcases List.mem_append.1 hk with hk | hk
    · obtain ⟨k, hk, he⟩ := List.mem_map.1 hk
      obtain ⟨w, hw, hk⟩ := List.mem_filterMap.1 hk
      cases w with
      | nil => cases hk
      | cons q m =>
        cases hk
        cases he
        exact Or.inr ⟨p, List.Mem.head _, q, m, hw, rfl, rfl⟩
    rcases List.mem_append.1 hk with hk | hk
    · exact Or.inl ⟨p, List.Mem.head _, feeds_paths a b p p (fun _ h => h) hk⟩
    · rcases feeds_subs a b c l hk with ⟨sub, hs, hm⟩ | ⟨sub, hs, hm⟩
      · exact Or.inl ⟨sub, List.Mem.tail _ hs, hm⟩
      · exact Or.inr ⟨sub, List.Mem.tail _ hs, hm⟩
  termination_by structural l => l

end

theorem feeds_iff (ps : List (Tracer.Path K)) (a b : Key K) : Feeds ps a b ↔ (a, b) ∈ evPaths ps :=
  ⟨ev_of_feeds, feeds_paths a b ps ps (fun _ h => h)⟩

end paths

theorem linkOut_ok (n : N) : ∀ (l : List N) (g : G N V), Wf g → n ∈ names g →
    (∀ y ∈ l, y ∈ names g) →
    ∃ g', forEach (fun g b => linkChecked g n b) l g = (g', none) ∧ Wf g' ∧ names g' = names g
      ∧ ∀ x y, Edge g' x y ↔ Edge g x y ∨ (x = n ∧ y ∈ l)
  | [], g, hw, _, _ => ⟨g, rfl, hw, rfl, by simp⟩
  | z :: l, g, hw, hn, hl => by
    have hz := hl z (List.Mem.head _)
    obtain ⟨g', e, w, nm, ed⟩ := linkOut_ok n l (link g n z) (link_wf g n z hw hn hz)
      (by rw [link_names]; exact hn)
      (fun y hy => by rw [link_names]; exact hl y (List.Mem.tail _ hy))
    refine ⟨g', ?_, w, by rw [nm, link_names], fun x y => ?_⟩
    · rw [forEach, linkChecked, if_pos ⟨hn, hz⟩]
      exact e
    · rw [ed, link_edge, List.mem_cons]
      tauto

theorem linkIn_ok (n : N) : ∀ (l : List N) (g : G N V), Wf g → n ∈ names g →
    (∀ y ∈ l, y ∈ names g) →
    ∃ g', forEach (fun g p => linkChecked g p n) l g = (g', none) ∧ Wf g' ∧ names g' = names g
      ∧ ∀ x y, Edge g' x y ↔ Edge g x y ∨ (y = n ∧ x ∈ l)
  | [], g, hw, _, _ => ⟨g, rfl, hw, rfl, by simp⟩
  | z :: l, g, hw, hn, hl => by
    have hz := hl z (List.Mem.head _)
    obtain ⟨g', e, w, nm, ed⟩ := linkIn_ok n l (link g z n) (link_wf g z n hw hz hn)
      (by rw [link_names]; exact hn)
      (fun y hy => by rw [link_names]; exact hl y (List.Mem.tail _ hy))
    refine ⟨g', ?_, w, by rw [nm, link_names], fun x y => ?_⟩
    · rw [forEach, linkChecked, if_pos ⟨hz, hn⟩]
      exact e
    · rw [ed, link_edge, List.mem_cons]
      tauto

section parse

variable {K : Type} [DecidableEq K]

theorem nm_ext {C D : List K} (h : C <+: D) {k : Key K} (hk : Known C k) : nm D k = nm C k := by
  obtain ⟨E, rfl⟩ := h
  cases k with
  | layer n => rfl
  | cat id => exact congrArg Nm.cat (List.idxOf_append_of_mem hk)

theorem known_ext {C D : List K} (h : C <+: D) {k : Key K} (hk : Known C k) : Known D k := by
  cases k with
  | layer n => trivial
  | cat id => exact h.subset hk

theorem nm_inj {C : List K} {k k' : Key K} (h : Known C k) (h' : Known C k')
    (he : nm C k = nm C k') : k = k' := by
  cases k with
  | layer n =>
    cases k' with
    | layer n' => cases he; rfl
    | cat id' => cases he
  | cat id =>
    cases k' with
    | layer n' => cases he
    | cat id' =>
      have he : C.idxOf id = C.idxOf id' := Nm.cat.inj he
      exact congrArg Key.cat ((List.idxOf_inj h).1 he)

theorem Grow.refl {s : Conv K} (hw : Wf s.g) (nexts : List (Nm K)) : Grow s s [] [] [] nexts :=
  ⟨hw, List.prefix_refl _, by simp, by simp, by simp, by simp, by simp⟩

/-- Two steps with the same successors. -/
theorem Grow.trans {s s1 s2 : Conv K} {ks1 ks2 : List (Key K)} {es1 es2 : List (Key K × Key K)}
    {hs1 hs2 : List (Key K)} {nexts : List (Nm K)} (h1 : Grow s s1 ks1 es1 hs1 nexts)
    (h2 : Grow s1 s2 ks2 es2 hs2 nexts) :
    Grow s s2 (ks1 ++ ks2) (es1 ++ es2) (hs1 ++ hs2) nexts := by
  have hk : ∀ k ∈ ks1, nm s2.cats k = nm s1.cats k := fun k hk => nm_ext h2.cats (h1.known k hk)
  refine ⟨h2.wf, h1.cats.trans h2.cats, ?_, ?_, ?_, fun x => ?_, fun x y => ?_⟩
  · intro k hk
    rcases List.mem_append.1 hk with hk | hk
    · exact known_ext h2.cats (h1.known k hk)
    · exact h2.known k hk
  · intro e he
    rcases List.mem_append.1 he with he | he
    · exact ⟨List.mem_append.2 (Or.inl (h1.ends e he).1), List.mem_append.2 (Or.inl (h1.ends e he).2)⟩
    · exact ⟨List.mem_append.2 (Or.inr (h2.ends e he).1), List.mem_append.2 (Or.inr (h2.ends e he).2)⟩
  · intro k hk
    rcases List.mem_append.1 hk with hk | hk
    · exact List.mem_append.2 (Or.inl (h1.heads k hk))
    · exact List.mem_append.2 (Or.inr (h2.heads k hk))
  · rw [h2.nodes, h1.nodes]
    constructor
    · rintro ((h | ⟨k, h, rfl⟩) | ⟨k, h, rfl⟩)
      · exact Or.inl h
      · exact Or.inr ⟨k, List.mem_append.2 (Or.inl h), (hk k h).symm⟩
      · exact Or.inr ⟨k, List.mem_append.2 (Or.inr h), rfl⟩
    · rintro (h | ⟨k, h, rfl⟩)
      · exact Or.inl (Or.inl h)
      · rcases List.mem_append.1 h with h | h
        · exact Or.inl (Or.inr ⟨k, h, hk k h⟩)
        · exact Or.inr ⟨k, h, rfl⟩
  · rw [h2.edges, h1.edges]
    constructor
    · rintro ((h | ⟨e, h, rfl, rfl⟩ | ⟨k, h, rfl, hy⟩) | ⟨e, h, rfl, rfl⟩ | ⟨k, h, rfl, hy⟩)
      · exact Or.inl h
      · exact Or.inr (Or.inl ⟨e, List.mem_append.2 (Or.inl h), (hk _ (h1.ends e h).1).symm,
          (hk _ (h1.ends e h).2).symm⟩)
      · exact Or.inr (Or.inr ⟨k, List.mem_append.2 (Or.inl h), (hk _ (h1.heads k h)).symm, hy⟩)
      · exact Or.inr (Or.inl ⟨e, List.mem_append.2 (Or.inr h), rfl, rfl⟩)
      · exact Or.inr (Or.inr ⟨k, List.mem_append.2 (Or.inr h), rfl, hy⟩)
    · rintro (h | ⟨e, h, rfl, rfl⟩ | ⟨k, h, rfl, hy⟩)
      · exact Or.inl (Or.inl h)
      · rcases List.mem_append.1 h with h | h
        · exact Or.inl (Or.inr (Or.inl ⟨e, h, hk _ (h1.ends e h).1, hk _ (h1.ends e h).2⟩))
        · exact Or.inr (Or.inl ⟨e, h, rfl, rfl⟩)
      · rcases List.mem_append.1 h with h | h
        · exact Or.inl (Or.inr (Or.inr ⟨k, h, hk _ (h1.heads k h), hy⟩))
        · exact Or.inr (Or.inr ⟨k, h, rfl, hy⟩)

/-- A second step into a node of the first. -/
theorem Grow.into {s s1 s2 : Conv K} {ks1 ks2 : List (Key K)} {es1 es2 : List (Key K × Key K)}
    {hs1 hs2 : List (Key K)} {nexts : List (Nm K)} {c : Key K} (h1 : Grow s s1 ks1 es1 hs1 nexts)
    (hc : c ∈ ks1) (h2 : Grow s1 s2 ks2 es2 hs2 [nm s1.cats c]) :
    Grow s s2 (ks1 ++ ks2) (es1 ++ (hs2.map (fun k => (k, c)) ++ es2)) hs1 nexts := by
  have hk : ∀ k ∈ ks1, nm s2.cats k = nm s1.cats k := fun k hk => nm_ext h2.cats (h1.known k hk)
  refine ⟨h2.wf, h1.cats.trans h2.cats, ?_, ?_, ?_, fun x => ?_, fun x y => ?_⟩
  · intro k hk
    rcases List.mem_append.1 hk with hk | hk
    · exact known_ext h2.cats (h1.known k hk)
    · exact h2.known k hk
  · intro e he
    rcases List.mem_append.1 he with he | he
    · exact ⟨List.mem_append.2 (Or.inl (h1.ends e he).1), List.mem_append.2 (Or.inl (h1.ends e he).2)⟩
    rcases List.mem_append.1 he with he | he
    · obtain ⟨k, hk, rfl⟩ := List.mem_map.1 he
      exact ⟨List.mem_append.2 (Or.inr (h2.heads k hk)), List.mem_append.2 (Or.inl hc)⟩
    · exact ⟨List.mem_append.2 (Or.inr (h2.ends e he).1), List.mem_append.2 (Or.inr (h2.ends e he).2)⟩
  · exact fun k hk => List.mem_append.2 (Or.inl (h1.heads k hk))
  · rw [h2.nodes, h1.nodes]
    constructor
    · rintro ((h | ⟨k, h, rfl⟩) | ⟨k, h, rfl⟩)
      · exact Or.inl h
      · exact Or.inr ⟨k, List.mem_append.2 (Or.inl h), (hk k h).symm⟩
      · exact Or.inr ⟨k, List.mem_append.2 (Or.inr h), rfl⟩
    · rintro (h | ⟨k, h, rfl⟩)
      · exact Or.inl (Or.inl h)
      · rcases List.mem_append.1 h with h | h
        · exact Or.inl (Or.inr ⟨k, h, hk k h⟩)
        · exact Or.inr ⟨k, h, rfl⟩
  · rw [h2.edges, h1.edges]
    constructor
    · rintro ((h | ⟨e, h, rfl, rfl⟩ | ⟨k, h, rfl, hy⟩) | ⟨e, h, rfl, rfl⟩ | ⟨k, h, rfl, hy⟩)
      · exact Or.inl h
      · exact Or.inr (Or.inl ⟨e, List.mem_append.2 (Or.inl h), (hk _ (h1.ends e h).1).symm,
          (hk _ (h1.ends e h).2).symm⟩)
      · exact Or.inr (Or.inr ⟨k, h, (hk _ (h1.heads k h)).symm, hy⟩)
      · exact Or.inr (Or.inl ⟨e, List.mem_append.2 (Or.inr (List.mem_append.2 (Or.inr h))), rfl, rfl⟩)
      · refine Or.inr (Or.inl ⟨(k, c), List.mem_append.2 (Or.inr (List.mem_append.2 (Or.inl
          (List.mem_map.2 ⟨k, h, rfl⟩)))), rfl, ?_⟩)
        rw [List.mem_singleton.1 hy]
        exact (hk c hc).symm
    · rintro (h | ⟨e, h, rfl, rfl⟩ | ⟨k, h, rfl, hy⟩)
      · exact Or.inl (Or.inl h)
      · rcases List.mem_append.1 h with h | h
        · exact Or.inl (Or.inr (Or.inl ⟨e, h, hk _ (h1.ends e h).1, hk _ (h1.ends e h).2⟩))
        rcases List.mem_append.1 h with h | h
        · obtain ⟨k, hk', rfl⟩ := List.mem_map.1 h
          exact Or.inr (Or.inr ⟨k, hk', rfl, List.mem_singleton.2 (hk c hc)⟩)
        · exact Or.inr (Or.inl ⟨e, h, rfl, rfl⟩)
      · exact Or.inl (Or.inr (Or.inr ⟨k, h, hk _ (h1.heads k h), hy⟩))

theorem usable_unit (g : G (Nm K) Unit) (n : Nm K) : Usable g n () := by
  by_cases h : n ∈ names g
  · obtain ⟨⟨m, u⟩, hm, rfl⟩ := List.mem_map.1 h
    exact Or.inr hm
  · exact Or.inl h

/-- Adding a node and linking it to its successors. -/
theorem place_ok (s : Conv K) (hw : Wf s.g) (k : Key K) (hk : Known s.cats k) (nexts : List (Nm K))
    (hn : ∀ y ∈ nexts, y ∈ names s.g) :
    Grow s (toNexts (nm s.cats k) nexts (addNm s (nm s.cats k))) [k] [] [k] nexts := by
  obtain ⟨g1, e1, w1, l1, p1, m1⟩ := usable_add hw (usable_unit s.g (nm s.cats k))
  have hin : nm s.cats k ∈ names g1 := mem_names (p := (nm s.cats k, ())) ((m1 _).2 (Or.inr rfl))
  obtain ⟨g2, e2, w2, n2, l2⟩ := linkOut_ok (nm s.cats k) nexts g1 w1 hin
    (fun y hy => names_sub (fun q hq => (m1 q).2 (Or.inl hq)) (hn y hy))
  have heq : toNexts (nm s.cats k) nexts (addNm s (nm s.cats k)) = ⟨g2, s.cats⟩ := by
    unfold toNexts addNm
    dsimp only
    rw [e1]
    dsimp only
    rw [e2]
  rw [heq]
  refine ⟨w2, List.prefix_refl _, ?_, by simp, by simp, fun x => ?_, fun x y => ?_⟩
  · intro k' hk'
    rw [List.mem_singleton.1 hk']
    exact hk
  · show x ∈ names g2 ↔ _
    rw [n2]
    constructor
    · intro h
      obtain ⟨q, hq, rfl⟩ := List.mem_map.1 h
      rcases (m1 q).1 hq with hq | rfl
      · exact Or.inl (mem_names hq)
      · exact Or.inr ⟨k, List.Mem.head _, rfl⟩
    · rintro (h | ⟨k', hk', rfl⟩)
      · exact names_sub (fun q hq => (m1 q).2 (Or.inl hq)) h
      · rw [List.mem_singleton.1 hk']
        exact hin
  · show Edge g2 x y ↔ _
    rw [l2, l1]
    simp

theorem catName_ok (s : Conv K) (id : K) :
    ∃ C, s.cats <+: C ∧ id ∈ C ∧ catName s id = (⟨s.g, C⟩, nm C (.cat id)) := by
  unfold catName
  by_cases h : id ∈ s.cats
  · exact ⟨s.cats, List.prefix_refl _, h, by rw [if_pos h]; rfl⟩
  · refine ⟨s.cats ++ [id], List.prefix_append _ _, by simp, ?_⟩
    rw [if_neg h]
    refine congrArg (Prod.mk _) (congrArg Nm.cat ?_)
    show s.cats.length = List.idxOf id (s.cats ++ [id])
    rw [List.idxOf_append_of_notMem h]
    simp

theorem heads_cons {K : Type} (p : List (Tracer.PNode K)) (ps : List (List (Tracer.PNode K))) :
    heads (p :: ps) = (p.head?.map keyOf).toList ++ heads ps := by
  unfold heads
  cases p with
  | nil => rfl
  | cons q l => rfl

theorem Grow.mem {s s' : Conv K} {ks : List (Key K)} {es : List (Key K × Key K)} {hs : List (Key K)}
    {nexts : List (Nm K)} (h : Grow s s' ks es hs nexts) {x : Nm K} (hx : x ∈ names s.g) :
    x ∈ names s'.g := (h.nodes x).2 (Or.inl hx)

mutual

theorem node_grow : ∀ (p : Tracer.PNode K) (nexts : List (Nm K)) (s : Conv K), Wf s.g →
    (∀ y ∈ nexts, y ∈ names s.g) →
    Grow s (parseNode p nexts s).1 (ksNode p) (evNode p) [keyOf p] nexts
      ∧ (parseNode p nexts s).2 = nm (parseNode p nexts s).1.cats (keyOf p)
  | .layer kd n, nexts, s, hw, hn => by
    rw [parseNode, ksNode, evNode, keyOf]
    exact ⟨place_ok s hw (.layer n) trivial nexts hn, rfl⟩
  | .cat id subs, nexts, s, hw, hn => by
    obtain ⟨C, hC, hid, he⟩ := catName_ok s id
    have h0 := place_ok ⟨s.g, C⟩ hw (.cat id) hid nexts hn
    rw [parseNode, ksNode, evNode, keyOf, he]
    dsimp only
    have h2 := subs_grow subs (.cat id) _ _ _ _ _ _ h0 (List.Mem.head _)
    have hc : nm (toNexts (nm C (.cat id)) nexts (addNm ⟨s.g, C⟩ (nm C (.cat id)))).cats (.cat id)
        = nm C (.cat id) := rfl
    rw [hc] at h2
    exact ⟨⟨h2.wf, hC.trans h2.cats, h2.known, h2.ends, h2.heads, h2.nodes, h2.edges⟩,
      (nm_ext (k := .cat id) h2.cats hid).symm⟩
  termination_by structural p => p

theorem path_grow : ∀ (l : List (Tracer.PNode K)) (nexts : List (Nm K)) (s : Conv K), Wf s.g →
    (∀ y ∈ nexts, y ∈ names s.g) →
    Grow s (parsePath l nexts s) (ksPath l) (evPath l) (l.head?.map keyOf).toList nexts
  | [], nexts, s, hw, _ => Grow.refl hw nexts
  | p :: l, nexts, s, hw, hn => by
    obtain ⟨h1, hc⟩ := node_grow p nexts s hw hn
    have hmem : nm (parseNode p nexts s).1.cats (keyOf p) ∈ names (parseNode p nexts s).1.g :=
      (h1.nodes _).2 (Or.inr ⟨_, ksNode_self p, rfl⟩)
    have h2 := path_grow l [nm (parseNode p nexts s).1.cats (keyOf p)] (parseNode p nexts s).1 h1.wf
      (fun y hy => by rw [List.mem_singleton.1 hy]; exact hmem)
    rw [parsePath, ksPath, evPath]
    dsimp only
    rw [hc]
    exact h1.into (ksNode_self p) h2
  termination_by structural l => l

theorem paths_grow : ∀ (l : List (List (Tracer.PNode K))) (nexts : List (Nm K)) (s : Conv K),
    Wf s.g → (∀ y ∈ nexts, y ∈ names s.g) →
    Grow s (parsePaths l nexts s) (ksPaths l) (evPaths l) (heads l) nexts
  | [], nexts, s, hw, _ => Grow.refl hw nexts
  | p :: l, nexts, s, hw, hn => by
    have h1 := path_grow p nexts s hw hn
    have h2 := paths_grow l nexts (parsePath p nexts s) h1.wf (fun y hy => h1.mem (hn y hy))
    rw [parsePaths, ksPaths, evPaths, heads_cons]
    exact h1.trans h2
  termination_by structural l => l

theorem subs_grow : ∀ (l : List (List (List (Tracer.PNode K)))) (c : Key K) (s0 s : Conv K)
    (ks : List (Key K)) (es : List (Key K × Key K)) (hs : List (Key K)) (nexts : List (Nm K)),
    Grow s0 s ks es hs nexts → c ∈ ks →
    Grow s0 (parseSubs l (nm s.cats c) s) (ks ++ ksSubs l) (es ++ evSubs c l) hs nexts
  | [], c, s0, s, ks, es, hs, nexts, h, _ => by
    rw [parseSubs, ksSubs, evSubs, List.append_nil, List.append_nil]
    exact h
  | p :: l, c, s0, s, ks, es, hs, nexts, h, hc => by
    have h1 := paths_grow p [nm s.cats c] s h.wf (fun y hy => by
      rw [List.mem_singleton.1 hy]
      exact (h.nodes _).2 (Or.inr ⟨c, hc, rfl⟩))
    have h2 := subs_grow l c s0 (parsePaths p [nm s.cats c] s) _ _ hs nexts (h.into hc h1)
      (List.mem_append.2 (Or.inl hc))
    rw [nm_ext h1.cats (h.known c hc), List.append_assoc, List.append_assoc] at h2
    rw [parseSubs, ksSubs, evSubs]
    rw [List.append_assoc] at h2
    exact h2
  termination_by structural l => l

end

theorem insertBefore_ok {g : G (Nm K) Unit} (hw : Wf g) {n new : Nm K} (hn : n ∈ names g)
    (hnew : new ∈ names g) (hne : n ≠ new) (hfree : ∀ x, ¬ Edge g x new ∧ ¬ Edge g new x) :
    ∃ g', insertBefore g n new = (g', none) ∧ Wf g' ∧ names g' = names g
      ∧ ∀ x y, Edge g' x y ↔ (Edge g x y ∧ y ≠ n) ∨ (y = new ∧ Edge g x n) ∨ (x = new ∧ y = n) := by
  obtain ⟨g1, e1, w1, n1, l1⟩ := linkIn_ok new (g.prev n) g hw hnew
    (fun y hy => (hw.closed y n ((hw.symm y n).2 hy)).1)
  obtain ⟨g2, e2, w2, n2, l2⟩ := unlinkIn_loop n (g1.prev new) g1 w1 (n1 ▸ hn)
    (fun y hy => (w1.closed y new ((w1.symm y new).2 hy)).1)
  have n2 : names g2 = names g1 := by unfold names; rw [n2]
  have l2 : ∀ x y, Edge g2 x y ↔ Edge g1 x y ∧ ¬ (y = n ∧ x ∈ g1.prev new) := l2
  have hprev : ∀ x, x ∈ g1.prev new ↔ Edge g x n := by
    intro x
    rw [← w1.symm x new, ← Edge, l1]
    constructor
    · rintro (h | ⟨_, h⟩)
      · exact absurd h (hfree x).1
      · exact (hw.symm x n).2 h
    · exact fun h => Or.inr ⟨rfl, (hw.symm x n).1 h⟩
  have hn2 : n ∈ names g2 := by rw [n2, n1]; exact hn
  have hnew2 : new ∈ names g2 := by rw [n2, n1]; exact hnew
  refine ⟨link g2 new n, ?_, link_wf g2 new n w2 hnew2 hn2, by rw [link_names, n2, n1], fun x y => ?_⟩
  · unfold insertBefore
    rw [e1]
    dsimp only [andThen]
    rw [e2]
    dsimp only
    rw [linkChecked, if_pos ⟨hnew2, hn2⟩]
  · rw [link_edge, l2, hprev, l1]
    have hs : x ∈ g.prev n ↔ Edge g x n := (hw.symm x n).symm
    rw [hs]
    constructor
    · rintro (⟨h | ⟨h1, h2⟩, h3⟩ | h)
      · by_cases hy : y = n
        · exact absurd ⟨hy, hy ▸ h⟩ h3
        · exact Or.inl ⟨h, hy⟩
      · exact Or.inr (Or.inl ⟨h1, h2⟩)
      · exact Or.inr (Or.inr h)
    · rintro (⟨h1, h2⟩ | ⟨h1, h2⟩ | h)
      · exact Or.inl ⟨Or.inl h1, fun h => h2 h.1⟩
      · exact Or.inl ⟨Or.inr ⟨h1, h2⟩, fun h => hne (h.1.symm.trans h1)⟩
      · exact Or.inr h

theorem bindLoop_ok : ∀ (l : List (Nm K)) (j : ℕ) (g : G (Nm K) Unit), Wf g → l.Nodup →
    (∀ n ∈ l, n ∈ names g ∧ ¬ IsBind n) → (∀ i, j ≤ i → Nm.bind i ∉ names g) →
    ∃ g', bindLoop j l g = (g', none) ∧ Wf g'
      ∧ (∀ x, x ∈ names g' ↔ x ∈ names g ∨ ∃ i n, l[i]? = some n ∧ x = .bind (j + i))
      ∧ ∀ x y, Edge g' x y ↔ (Edge g x y ∧ y ∉ l)
        ∨ (∃ (i : ℕ) (n : Nm K), l[i]? = some n ∧ y = .bind (j + i) ∧ Edge g x n)
        ∨ (∃ (i : ℕ) (n : Nm K), l[i]? = some n ∧ x = .bind (j + i) ∧ y = n)
  | [], j, g, hw, _, _, _ => ⟨g, rfl, hw, by simp, by simp⟩
  | n :: l, j, g, hw, hnd, hl, hb => by
    obtain ⟨e0, w0⟩ := addNode_wf hw (v := ()) (hb j le_rfl)
    obtain ⟨hn, hnb⟩ := hl n (List.Mem.head _)
    rw [List.nodup_cons] at hnd
    have hnames0 : ∀ x, x ∈ names (⟨g.nodes ++ [(Nm.bind j, ())], g.prev, g.next⟩ : G (Nm K) Unit)
        ↔ x ∈ names g ∨ x = .bind j := by
      intro x
      unfold names
      simp
    have hfree : ∀ x, ¬ Edge g x (.bind j) ∧ ¬ Edge g (.bind j) x := fun x =>
      ⟨fun h => hb j le_rfl (hw.closed _ _ h).2, fun h => hb j le_rfl (hw.closed _ _ h).1⟩
    obtain ⟨g1, e1, w1, n1, l1⟩ := insertBefore_ok w0 (n := n) (new := .bind j)
      ((hnames0 n).2 (Or.inl hn)) ((hnames0 _).2 (Or.inr rfl)) (fun h => hnb ⟨j, h⟩) hfree
    have l1 : ∀ x y, Edge g1 x y ↔ (Edge g x y ∧ y ≠ n) ∨ (y = .bind j ∧ Edge g x n)
        ∨ (x = .bind j ∧ y = n) := l1
    have hnames1 : ∀ x, x ∈ names g1 ↔ x ∈ names g ∨ x = .bind j := fun x => by
      rw [n1]; exact hnames0 x
    obtain ⟨g2, e2, w2, n2, l2⟩ := bindLoop_ok l (j + 1) g1 w1 hnd.2
      (fun m hm => ⟨(hnames1 m).2 (Or.inl (hl m (List.Mem.tail _ hm)).1),
        (hl m (List.Mem.tail _ hm)).2⟩)
      (fun i hi h => by
        rcases (hnames1 _).1 h with h | h
        · exact hb i (by omega) h
        · have := Nm.bind.inj h
          omega)
    have hkeep : ∀ x m, m ∈ l → (Edge g1 x m ↔ Edge g x m) := by
      intro x m hm
      rw [l1]
      constructor
      · rintro (h | ⟨h, _⟩ | ⟨_, h⟩)
        · exact h.1
        · exact absurd ⟨j, h⟩ (hl m (List.Mem.tail _ hm)).2
        · exact absurd (h ▸ hm) hnd.1
      · exact fun h => Or.inl ⟨h, fun he => hnd.1 (he ▸ hm)⟩
    refine ⟨g2, ?_, w2, fun x => ?_, fun x y => ?_⟩
    · rw [bindLoop, e0]
      dsimp only [andThen]
      rw [e1]
      exact e2
    · rw [n2, hnames1]
      constructor
      · rintro ((h | h) | ⟨i, m, h1, h2⟩)
        · exact Or.inl h
        · exact Or.inr ⟨0, n, rfl, h⟩
        · exact Or.inr ⟨i + 1, m, h1, by rw [h2]; congr 1; omega⟩
      · rintro (h | ⟨i, m, h1, h2⟩)
        · exact Or.inl (Or.inl h)
        · cases i with
          | zero => exact Or.inl (Or.inr h2)
          | succ i => exact Or.inr ⟨i, m, h1, by rw [h2]; congr 1; omega⟩
    · rw [l2]
      constructor
      · rintro (⟨h1, h2⟩ | ⟨i, m, h1, h2, h3⟩ | ⟨i, m, h1, h2, h3⟩)
        · rcases (l1 x y).1 h1 with ⟨h, hy⟩ | ⟨h, hx⟩ | h
          · exact Or.inl ⟨h, fun hm => (List.mem_cons.1 hm).elim hy h2⟩
          · exact Or.inr (Or.inl ⟨0, n, rfl, h, hx⟩)
          · exact Or.inr (Or.inr ⟨0, n, rfl, h.1, h.2⟩)
        · exact Or.inr (Or.inl ⟨i + 1, m, h1, by rw [h2]; congr 1; omega,
            (hkeep x m (List.mem_of_getElem? h1)).1 h3⟩)
        · exact Or.inr (Or.inr ⟨i + 1, m, h1, by rw [h2]; congr 1; omega, h3⟩)
      · rintro (⟨h1, h2⟩ | ⟨i, m, h1, h2, h3⟩ | ⟨i, m, h1, h2, h3⟩)
        · rw [List.mem_cons, not_or] at h2
          exact Or.inl ⟨(l1 x y).2 (Or.inl ⟨h1, h2.1⟩), h2.2⟩
        · cases i with
          | zero =>
            cases h1
            refine Or.inl ⟨(l1 x y).2 (Or.inr (Or.inl ⟨h2, h3⟩)), fun hm => ?_⟩
            exact (hl y (List.Mem.tail _ hm)).2 ⟨_, h2⟩
          | succ i =>
            exact Or.inr (Or.inl ⟨i, m, h1, by rw [h2]; congr 1; omega,
              (hkeep x m (List.mem_of_getElem? h1)).2 h3⟩)
        · cases i with
          | zero =>
            cases h1
            exact Or.inl ⟨(l1 x y).2 (Or.inr (Or.inr ⟨h2, h3⟩)), fun hm => hnd.1 (h3 ▸ hm)⟩
          | succ i => exact Or.inr (Or.inr ⟨i, m, h1, by rw [h2]; congr 1; omega, h3⟩)

end parse

theorem sort_ok {g : G N V} (hw : Wf g) (hac : Acyclic g) :
    ∃ h, topoSort g = (h, none) ∧ h.prev = g.prev ∧ h.next = g.next ∧ (names h).Perm (names g)
      ∧ ∀ l1 y l2, names h = l1 ++ y :: l2 → ∀ p, Edge g p y → p ∈ l1 := by
  obtain ⟨order, ho, hp⟩ := traverse_acyclic hw hac
  obtain ⟨_, h2, h3, _⟩ := traverse_spec g hw
  rw [ho] at h2 h3
  have hn := filterMap_names g order h2
  refine ⟨⟨order.filterMap (fun n => g.nodes.find? (fun p => decide (p.1 = n))), g.prev, g.next⟩,
    ?_, rfl, rfl, ?_, ?_⟩
  · unfold topoSort
    rw [ho]
  · unfold names
    dsimp only
    rw [hn]
    exact hp
  · intro l1 y l2 h p hpe
    unfold names at h
    dsimp only at h
    rw [hn] at h
    exact h3 l1 y l2 h p ((hw.symm p y).1 hpe)

theorem nm_notBind {K : Type} (num : K → ℕ) (k : Key K) : ¬ IsBind (nodeOf num k) := by
  rintro ⟨j, h⟩
  cases k <;> cases h

section bound

variable {K : Type} [DecidableEq K]

/-- The graph before and after bind nodes are put in. -/
theorem bound_ok (ps : List (Tracer.Path K)) : ∃ (g0 g : G (Nm K) Unit) (num : K → ℕ)
    (l : List (Nm K)),
    insertBinds (parsePaths ps [] ⟨empty, []⟩).g = (g, none) ∧ Wf g0 ∧ Wf g
    ∧ (∀ k k', Mentions ps k → Mentions ps k' → nodeOf num k = nodeOf num k' → k = k')
    ∧ (∀ x, x ∈ names g0 ↔ ∃ k, Mentions ps k ∧ x = nodeOf num k)
    ∧ (∀ x y, Edge g0 x y ↔ ∃ a b, Feeds ps a b ∧ x = nodeOf num a ∧ y = nodeOf num b)
    ∧ (∀ a b, Feeds ps a b → Mentions ps a ∧ Mentions ps b)
    ∧ l.Nodup ∧ (∀ x, x ∈ l ↔ x ∈ names g0 ∧ ∃ n, x = .layer n ∧ 1 < (g0.prev x).length)
    ∧ (∀ x, x ∈ names g ↔ x ∈ names g0 ∨ ∃ (i : ℕ) (n : Nm K), l[i]? = some n ∧ x = .bind i)
    ∧ ∀ x y, Edge g x y ↔ (Edge g0 x y ∧ y ∉ l)
        ∨ (∃ (i : ℕ) (n : Nm K), l[i]? = some n ∧ y = .bind i ∧ Edge g0 x n)
        ∨ (∃ (i : ℕ) (n : Nm K), l[i]? = some n ∧ x = .bind i ∧ y = n) := by
  have hg := paths_grow ps [] ⟨empty, []⟩ empty_wf (by simp)
  have hnames : ∀ x, x ∈ names (parsePaths ps [] ⟨empty, []⟩).g
      ↔ ∃ k, Mentions ps k ∧ x = nm (parsePaths ps [] ⟨empty, []⟩).cats k := by
    intro x
    rw [hg.nodes]
    constructor
    · rintro (h | ⟨k, hk, h⟩)
      · cases h
      · exact ⟨k, (mentions_iff ps k).2 hk, h⟩
    · rintro ⟨k, hk, h⟩
      exact Or.inr ⟨k, (mentions_iff ps k).1 hk, h⟩
  have hnb : ∀ x, x ∈ names (parsePaths ps [] ⟨empty, []⟩).g → ¬ IsBind x := by
    intro x hx
    obtain ⟨k, _, rfl⟩ := (hnames x).1 hx
    exact nm_notBind _ k
  have hl : ∀ x, x ∈ (names (parsePaths ps [] ⟨empty, []⟩).g).filter
      (needsBind (parsePaths ps [] ⟨empty, []⟩).g) ↔ x ∈ names (parsePaths ps [] ⟨empty, []⟩).g
      ∧ ∃ n, x = .layer n ∧ 1 < ((parsePaths ps [] ⟨empty, []⟩).g.prev x).length := by
    intro x
    rw [List.mem_filter]
    refine and_congr Iff.rfl ?_
    cases x with
    | layer n => simp [needsBind]
    | cat j => simp [needsBind]
    | bind j => simp [needsBind]
  obtain ⟨g, e, w, n1, l1⟩ := bindLoop_ok ((names (parsePaths ps [] ⟨empty, []⟩).g).filter
      (needsBind (parsePaths ps [] ⟨empty, []⟩).g)) 0 (parsePaths ps [] ⟨empty, []⟩).g hg.wf
    (hg.wf.names_nodup.filter _) (fun n hn => ⟨((hl n).1 hn).1, hnb n ((hl n).1 hn).1⟩)
    (fun i _ h => hnb _ h ⟨i, rfl⟩)
  refine ⟨_, g, fun id => (parsePaths ps [] ⟨empty, []⟩).cats.idxOf id, _, e, hg.wf, w, ?_, hnames,
    ?_, ?_, hg.wf.names_nodup.filter _, hl, ?_, ?_⟩
  · intro k k' hk hk' h
    exact nm_inj (hg.known k ((mentions_iff ps k).1 hk)) (hg.known k' ((mentions_iff ps k').1 hk')) h
  · intro x y
    rw [hg.edges]
    constructor
    · rintro (h | ⟨e, he, hx, hy⟩ | ⟨k, _, _, h⟩)
      · cases h
      · exact ⟨e.1, e.2, (feeds_iff ps e.1 e.2).2 he, hx, hy⟩
      · cases h
    · rintro ⟨a, b, h, hx, hy⟩
      exact Or.inr (Or.inl ⟨(a, b), (feeds_iff ps a b).1 h, hx, hy⟩)
  · intro a b h
    have := hg.ends (a, b) ((feeds_iff ps a b).1 h)
    exact ⟨(mentions_iff ps a).2 this.1, (mentions_iff ps b).2 this.2⟩
  · simpa only [Nat.zero_add] using n1
  · simpa only [Nat.zero_add] using l1

theorem trans_feeds {ps : List (Tracer.Path K)} {g0 : G (Nm K) Unit} {num : K → ℕ}
    (hinj : ∀ k k', Mentions ps k → Mentions ps k' → nodeOf num k = nodeOf num k' → k = k')
    (hed : ∀ x y, Edge g0 x y ↔ ∃ a b, Feeds ps a b ∧ x = nodeOf num a ∧ y = nodeOf num b)
    (hm : ∀ a b, Feeds ps a b → Mentions ps a ∧ Mentions ps b) {x y : Nm K}
    (h : Relation.TransGen (Edge g0) x y) :
    ∃ a b, Relation.TransGen (Feeds ps) a b ∧ Mentions ps b ∧ x = nodeOf num a ∧ y = nodeOf num b := by
  induction h with
  | single h =>
    obtain ⟨a, b, hf, hx, hy⟩ := (hed _ _).1 h
    exact ⟨a, b, Relation.TransGen.single hf, (hm a b hf).2, hx, hy⟩
  | tail _ h ih =>
    obtain ⟨a, b, ht, hb, hx, hy⟩ := ih
    obtain ⟨b', c, hf, hy', hz⟩ := (hed _ _).1 h
    have := hinj b b' hb (hm b' c hf).1 (hy.symm.trans hy')
    subst this
    exact ⟨a, c, ht.tail hf, (hm _ _ hf).2, hx, hz⟩

theorem feeds_trans {ps : List (Tracer.Path K)} {g0 : G (Nm K) Unit} {num : K → ℕ}
    (hed : ∀ x y, Edge g0 x y ↔ ∃ a b, Feeds ps a b ∧ x = nodeOf num a ∧ y = nodeOf num b)
    {a b : Key K} (h : Relation.TransGen (Feeds ps) a b) :
    Relation.TransGen (Edge g0) (nodeOf num a) (nodeOf num b) := by
  induction h with
  | single h => exact Relation.TransGen.single ((hed _ _).2 ⟨_, _, h, rfl, rfl⟩)
  | tail _ h ih => exact ih.tail ((hed _ _).2 ⟨_, _, h, rfl, rfl⟩)

theorem Bound.into {g0 g : G (Nm K) Unit} {l : List (Nm K)} (h : Bound g0 g l) (x : Nm K) (j : ℕ) :
    Edge g x (.bind j) ↔ ∃ n, l[j]? = some n ∧ Edge g0 x n := by
  rw [h.edges]
  constructor
  · rintro (⟨h1, _⟩ | ⟨i, n, h1, h2, h3⟩ | ⟨i, n, h1, _, h3⟩)
    · exact absurd ⟨j, rfl⟩ (h.nb _ (h.wf0.closed _ _ h1).2)
    · cases h2
      exact ⟨n, h1, h3⟩
    · exact absurd ⟨j, h3.symm⟩ (h.nb n (h.lay n (List.mem_of_getElem? h1)))
  · rintro ⟨n, h1, h3⟩
    exact Or.inr (Or.inl ⟨j, n, h1, rfl, h3⟩)

theorem Bound.out {g0 g : G (Nm K) Unit} {l : List (Nm K)} (h : Bound g0 g l) (y : Nm K) (j : ℕ) :
    Edge g (.bind j) y ↔ l[j]? = some y := by
  rw [h.edges]
  constructor
  · rintro (⟨h1, _⟩ | ⟨i, n, h1, h2, h3⟩ | ⟨i, n, h1, h2, h3⟩)
    · exact absurd ⟨j, rfl⟩ (h.nb _ (h.wf0.closed _ _ h1).1)
    · exact absurd ⟨j, rfl⟩ (h.nb _ (h.wf0.closed _ _ h3).1)
    · cases h2
      rw [h3]
      exact h1
  · intro h1
    exact Or.inr (Or.inr ⟨j, y, h1, rfl, rfl⟩)

theorem Bound.plain {g0 g : G (Nm K) Unit} {l : List (Nm K)} (h : Bound g0 g l) {x y : Nm K}
    (hx : ¬ IsBind x) (hy : ¬ IsBind y) : Edge g x y ↔ Edge g0 x y ∧ y ∉ l := by
  rw [h.edges]
  constructor
  · rintro (h1 | ⟨i, n, _, h2, _⟩ | ⟨i, n, _, h2, _⟩)
    · exact h1
    · exact absurd ⟨i, h2⟩ hy
    · exact absurd ⟨i, h2⟩ hx
  · exact Or.inl

theorem Bound.through {g0 g : G (Nm K) Unit} {l : List (Nm K)} (h : Bound g0 g l) {x y : Nm K}
    (hx : ¬ IsBind x) (hy : ¬ IsBind y) : Through g x y ↔ Edge g0 x y := by
  unfold Through
  rw [h.plain hx hy]
  constructor
  · rintro (h1 | ⟨j, h1, h2⟩)
    · exact h1.1
    · obtain ⟨n, hn, he⟩ := (h.into x j).1 h1
      rw [(h.out y j).1 h2] at hn
      cases hn
      exact he
  · intro he
    by_cases hl : y ∈ l
    · obtain ⟨j, hj⟩ := List.mem_iff_getElem?.1 hl
      exact Or.inr ⟨j, (h.into x j).2 ⟨y, hj, he⟩, (h.out y j).2 hj⟩
    · exact Or.inl ⟨he, hl⟩

theorem Bound.trans {g0 g : G (Nm K) Unit} {l : List (Nm K)} (h : Bound g0 g l) {x y : Nm K}
    (hx : ¬ IsBind x) (ht : Relation.TransGen (Edge g) x y) :
    (¬ IsBind y → Relation.TransGen (Edge g0) x y)
    ∧ ∀ j n, y = .bind j → l[j]? = some n → Relation.TransGen (Edge g0) x n := by
  induction ht with
  | single h1 =>
    constructor
    · intro hy
      exact Relation.TransGen.single ((h.plain hx hy).1 h1).1
    · rintro j n rfl hn
      obtain ⟨m, hm, he⟩ := (h.into x j).1 h1
      rw [hn] at hm
      cases hm
      exact Relation.TransGen.single he
  | tail _ h1 ih =>
    rename_i b c _
    by_cases hb : IsBind b
    · obtain ⟨i, rfl⟩ := hb
      have hc := (h.out c i).1 h1
      have ht := ih.2 i c rfl hc
      refine ⟨fun _ => ht, ?_⟩
      rintro j n rfl _
      exact absurd ⟨j, rfl⟩ (h.nb _ (h.lay _ (List.mem_of_getElem? hc)))
    · constructor
      · intro hc
        exact (ih.1 hb).tail ((h.plain hb hc).1 h1).1
      · rintro j n rfl hn
        obtain ⟨m, hm, he⟩ := (h.into b j).1 h1
        rw [hn] at hm
        cases hm
        exact (ih.1 hb).tail he

theorem Bound.acyclic {g0 g : G (Nm K) Unit} {l : List (Nm K)} (h : Bound g0 g l) :
    Acyclic g ↔ Acyclic g0 := by
  constructor
  · intro hac x hx
    have step : ∀ x y, Edge g0 x y → Relation.TransGen (Edge g) x y := by
      intro x y he
      have hc := h.wf0.closed _ _ he
      rcases (h.through (h.nb _ hc.1) (h.nb _ hc.2)).2 he with h1 | ⟨j, h1, h2⟩
      · exact Relation.TransGen.single h1
      · exact (Relation.TransGen.single h1).tail h2
    refine hac x ?_
    have : ∀ y, Relation.TransGen (Edge g0) x y → Relation.TransGen (Edge g) x y := by
      intro y ht
      induction ht with
      | single h1 => exact step _ _ h1
      | tail _ h1 ih => exact ih.trans (step _ _ h1)
    exact this x hx
  · intro hac x hx
    by_cases hb : IsBind x
    · obtain ⟨j, rfl⟩ := hb
      obtain ⟨y, hy, hr⟩ := Relation.TransGen.head'_iff.1 hx
      have hl := (h.out y j).1 hy
      have hyb := h.nb _ (h.lay _ (List.mem_of_getElem? hl))
      have ht : Relation.TransGen (Edge g) y (.bind j) := by
        rcases Relation.reflTransGen_iff_eq_or_transGen.1 hr with he | ht
        · exact absurd ⟨j, he.symm⟩ hyb
        · exact ht
      exact hac y ((h.trans hyb ht).2 j y rfl hl)
    · exact hac x ((h.trans hb hx).1 hb)

theorem bound_of {g0 g : G (Nm K) Unit} {l : List (Nm K)} (w0 : Wf g0) (w : Wf g) (hnd : l.Nodup)
    (hnb : ∀ x ∈ names g0, ¬ IsBind x)
    (hl : ∀ x, x ∈ l ↔ x ∈ names g0 ∧ ∃ n, x = .layer n ∧ 1 < (g0.prev x).length)
    (hn : ∀ x, x ∈ names g ↔ x ∈ names g0 ∨ ∃ (i : ℕ) (n : Nm K), l[i]? = some n ∧ x = .bind i)
    (he : ∀ x y, Edge g x y ↔ (Edge g0 x y ∧ y ∉ l)
        ∨ (∃ (i : ℕ) (n : Nm K), l[i]? = some n ∧ y = .bind i ∧ Edge g0 x n)
        ∨ (∃ (i : ℕ) (n : Nm K), l[i]? = some n ∧ x = .bind i ∧ y = n)) : Bound g0 g l :=
  ⟨hnb, w0, w, hnd, fun x hx => ((hl x).1 hx).1, hn, he⟩

theorem single_of {A : Type} {l : List A} {a : A} (hnd : l.Nodup) (h : ∀ x, x ∈ l ↔ x = a) :
    l = [a] := by
  cases l with
  | nil => exact absurd ((h a).2 rfl) (by simp)
  | cons b l =>
    have hb := (h b).1 (List.Mem.head _)
    subst hb
    cases l with
    | nil => rfl
    | cons c l =>
      have hc := (h c).1 (List.Mem.tail _ (List.Mem.head _))
      subst hc
      simp at hnd

theorem Bound.layer {g0 g : G (Nm K) Unit} {l : List (Nm K)} (h : Bound g0 g l)
    (hl : ∀ x, x ∈ l ↔ x ∈ Graph.names g0 ∧ ∃ n, x = .layer n ∧ 1 < (g0.prev x).length) (n : K) :
    (g.prev (.layer n)).length ≤ 1 := by
  have hlb : ¬ IsBind (Nm.layer n) := by rintro ⟨j, hj⟩; cases hj
  by_cases hn : Nm.layer n ∈ l
  · obtain ⟨j, hj⟩ := List.mem_iff_getElem?.1 hn
    have : g.prev (.layer n) = [.bind j] := by
      refine single_of (h.wf.prev_nodup _) fun x => ?_
      rw [← h.wf.symm x, ← Edge]
      constructor
      · intro he
        by_cases hx : IsBind x
        · obtain ⟨i, rfl⟩ := hx
          have hi := (h.out _ i).1 he
          obtain ⟨b1, b2⟩ := List.getElem?_eq_some_iff.1 hi
          obtain ⟨b3, b4⟩ := List.getElem?_eq_some_iff.1 hj
          rw [(h.nodup.getElem_inj_iff (hi := b1) (hj := b3)).1 (b2.trans b4.symm)]
        · exact absurd hn ((h.plain hx hlb).1 he).2
      · rintro rfl
        exact (h.out _ j).2 hj
    rw [this]
    simp
  · have hsub : g.prev (.layer n) ⊆ g0.prev (.layer n) := by
      intro x hx
      have he : Edge g x (.layer n) := (h.wf.symm x _).2 hx
      refine (h.wf0.symm x _).1 ?_
      by_cases hxb : IsBind x
      · obtain ⟨i, rfl⟩ := hxb
        exact absurd (List.mem_of_getElem? ((h.out _ i).1 he)) hn
      · exact ((h.plain hxb hlb).1 he).1
    have hle := (List.subperm_of_subset (h.wf.prev_nodup _) hsub).length_le
    refine hle.trans ?_
    by_contra hc
    push Not at hc
    refine hn ((hl _).2 ⟨?_, n, rfl, hc⟩)
    cases hp : g0.prev (.layer n) with
    | nil => rw [hp] at hc; simp at hc
    | cons a m =>
      exact (h.wf0.closed a _ ((h.wf0.symm a _).2 (by rw [hp]; exact List.Mem.head _))).2

end bound

section pathProps

variable {K : Type} [DecidableEq K]

end pathProps

end Verif.ModuleGraph
