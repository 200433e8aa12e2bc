import Verif.Lemmas.Graph

/-! C20, C21: the graph used to analyse models. -/

namespace Verif.Graph
open Verif

variable {N V : Type} [DecidableEq N] [DecidableEq V]

/-! ### C21 -/

/-- C21: after any history of operations (failing ones included) in which no node
linked to itself was deleted: predecessor and successor links agree, none is stored
twice, and they only join nodes of the graph. -/
theorem C21_links (g : G N V) (h : Reach g) : Wf g := by
  induction h with
  | start => exact empty_wf
  | op g o _ ho ih => exact step_wf g o ih ho

/-- C21, connecting: exactly the requested link is added; names not in the graph are
refused without a change. -/
theorem C21_connect (g : G N V) (a : N) (va : V) (b : N) (vb : V) :
    (found g a va = true ∧ found g b vb = true →
      (connect g a va b vb).2 = none ∧
      ∀ x y, Edge (connect g a va b vb).1 x y ↔ Edge g x y ∨ (x = a ∧ y = b)) ∧
    (¬ (found g a va = true ∧ found g b vb = true) → connect g a va b vb = (g, some .assertion)) := by
  constructor
  · intro h
    rw [connect, if_pos h]
    exact ⟨rfl, link_edge g a b⟩
  · intro h
    rw [connect, if_neg h]

/-- C21, disconnecting: exactly the requested link is removed. -/
theorem C21_disconnect (g : G N V) (hg : Reach g) (a : N) (va : V) (b : N) (vb : V)
    (h : found g a va = true ∧ found g b vb = true) :
    (disconnect g a va b vb).2 = none ∧
      ∀ x y, Edge (disconnect g a va b vb).1 x y ↔ Edge g x y ∧ ¬ (x = a ∧ y = b) := by
  rw [disconnect, if_pos h]
  exact ⟨rfl, unlink_edge g (C21_links g hg).next_nodup a b⟩

/-- C21, deleting a node without a link to itself: it fails, changing nothing, exactly
when the node has several predecessors and several successors; otherwise the node
disappears, every predecessor is linked to every successor, and all other links
stay. -/
theorem C21_delete (g : G N V) (hg : Reach g) (n : N) (v : V) (hf : found g n v = true)
    (hself : ¬ Edge g n n) :
    (2 ≤ (g.prev n).length ∧ 2 ≤ (g.next n).length → deleteNode g n v = (g, some .runtime)) ∧
    (¬ (2 ≤ (g.prev n).length ∧ 2 ≤ (g.next n).length) →
      (deleteNode g n v).2 = none ∧
      names (deleteNode g n v).1 = (names g).filter (fun x => decide (x ≠ n)) ∧
      ∀ x y, Edge (deleteNode g n v).1 x y ↔
        x ≠ n ∧ y ≠ n ∧ (Edge g x y ∨ (Edge g x n ∧ Edge g n y))) := by
  have hw := C21_links g hg
  rcases bypass_spec g n hw (found_mem g n v hf) hself with ⟨g', h1, hcard, _, h3, h4⟩ | ⟨h1, h2, h3⟩
  · refine ⟨fun h => absurd h hcard, fun _ => ?_⟩
    rw [deleteNode, if_pos hf, h1]
    simp only [andThen]
    refine ⟨trivial, ?_, h4⟩
    rw [show names { g' with nodes := g'.nodes.filter (fun p => decide (p.1 ≠ n)) }
        = (g'.nodes.filter (fun p => decide (p.1 ≠ n))).map (·.1) from rfl, h3]
    exact names_filter g n
  · refine ⟨fun _ => ?_, fun h => absurd ⟨h2, h3⟩ h⟩
    rw [deleteNode, if_pos hf, h1]
    rfl

example : (runOps (exOps ++ [.delete 2 0]) empty).next 1 = [3, 4] ∧
    (runOps (exOps ++ [.delete 2 0]) empty).prev 4 = [3, 1] := by decide

/-- C21 is violated by deleting a node that is linked to itself and to another node:
the other node keeps a predecessor that is no longer in the graph. -/
theorem C21_self_loop_violated :
    ∃ ops : List (Op Nat Nat), ∃ b, 1 ∈ (runOps ops empty).prev b ∧ 1 ∉ names (runOps ops empty) := by
  exact ⟨[.add 1 0, .add 2 0, .connect 1 0 1 0, .connect 1 0 2 0, .delete 1 0], 2, by decide, by decide⟩

/-! ### C20 -/

/-- C20, order: a traversal never repeats a node, yields only nodes of the graph, and
yields a node only after everything that feeds it (also when it fails later on). -/
theorem C20_order (g : G N V) (hg : Reach g) :
    (topoTraverse g).1.Nodup ∧ (∀ y ∈ (topoTraverse g).1, y ∈ names g) ∧
    ∀ l1 y l2, (topoTraverse g).1 = l1 ++ y :: l2 → ∀ p, Edge g p y → p ∈ l1 := by
  obtain ⟨h1, h2, h3, _⟩ := traverse_spec g (C21_links g hg)
  exact ⟨h1, h2, fun l1 y l2 h p hp => h3 l1 y l2 h p (((C21_links g hg).symm p y).mp hp)⟩

/-- C20, which nodes: exactly those that are neither on a cycle nor fed by one. -/
theorem C20_visited (g : G N V) (hg : Reach g) (x : N) :
    x ∈ (topoTraverse g).1 ↔ x ∈ names g ∧ ¬ BehindCycle g x := by
  have hw := C21_links g hg
  obtain ⟨h1, h2, h3, h4⟩ := traverse_spec g hw
  constructor
  · intro hx
    refine ⟨h2 x hx, not_behind_of_acc g x ?_⟩
    -- induction on the position
    have key : ∀ n (l1 : List N) y l2, l1.length = n → (topoTraverse g).1 = l1 ++ y :: l2 → Acc (Edge g) y := by
      intro n
      induction n using Nat.strong_induction_on with
      | _ n ih =>
        intro l1 y l2 hn hsplit
        refine Acc.intro _ fun p hp => ?_
        have hp1 := h3 l1 y l2 hsplit p ((hw.symm p y).mp hp)
        obtain ⟨a, b, hab⟩ := List.append_of_mem hp1
        exact ih a.length (by rw [← hn, hab]; simp) a p (b ++ y :: l2) rfl (by rw [hsplit, hab]; simp)
    obtain ⟨a, b, hab⟩ := List.append_of_mem hx
    exact key a.length a x b rfl hab
  · rintro ⟨hx, hnb⟩
    have hacc := acc_of_not_behind g hw x hx hnb
    rcases h4 with ⟨_, b⟩ | ⟨_, _, c⟩
    · exact b x hx
    · induction hacc with
      | intro x _ ih =>
        by_contra hcon
        obtain ⟨p, hp, hpl⟩ := c x hx hcon
        have hedge : Edge g p x := (hw.symm p x).mpr hp
        have hpn : ¬ BehindCycle g p := by
          rintro ⟨c, hc, hcp⟩
          exact hnb ⟨c, hc, hcp.tail hedge⟩
        exact hpl (ih p hedge (hw.closed p x hedge).1 hpn)

/-- C20, acyclic graphs: the traversal succeeds and yields every node exactly once. -/
theorem C20_acyclic (g : G N V) (hg : Reach g) (hac : ∀ x, ¬ Relation.TransGen (Edge g) x x) :
    (topoTraverse g).2 = none ∧ (topoTraverse g).1.Perm (names g) := by
  have hw := C21_links g hg
  obtain ⟨h1, h2, _, h4⟩ := traverse_spec g hw
  have hall : ∀ x ∈ names g, x ∈ (topoTraverse g).1 := fun x hx =>
    (C20_visited g hg x).mpr ⟨hx, fun ⟨c, hc, _⟩ => hac c hc⟩
  refine ⟨?_, (List.perm_ext_iff_of_nodup h1 hw.names_nodup).mpr fun x => ⟨h2 x, hall x⟩⟩
  rcases h4 with ⟨a, _⟩ | ⟨_, ⟨x, hx, hn⟩, _⟩
  · exact a
  · exact absurd (hall x hx) hn

/-- C20, cyclic graphs: the traversal ends with an exception. -/
theorem C20_cyclic (g : G N V) (hg : Reach g) (x : N) (hc : Relation.TransGen (Edge g) x x) :
    (topoTraverse g).2 = some .runtime := by
  have hw := C21_links g hg
  obtain ⟨_, _, _, h4⟩ := traverse_spec g hw
  rcases h4 with ⟨_, b⟩ | ⟨a, _⟩
  · have hx : x ∈ names g := by
      obtain ⟨y, hy, _⟩ := Relation.TransGen.head'_iff.mp hc
      exact (hw.closed x y hy).1
    exact absurd ⟨x, hc, Relation.ReflTransGen.refl⟩ ((C20_visited g hg x).mp (b x hx)).2
  · exact a

example : topoTraverse (runOps exOps empty) = ([1, 2, 3, 4], none) := by decide

example : topoTraverse (runOps (exOps ++ [.connect 4 0 2 0]) empty) = ([1, 3], some .runtime) := by decide

/-- C20, sorting an acyclic graph: the nodes and links stay the same, and the stored
order puts every node after everything that feeds it; on a cyclic graph it raises and
changes nothing. -/
theorem C20_sort (g : G N V) (hg : Reach g) :
    ((∀ x, ¬ Relation.TransGen (Edge g) x x) →
      (topoSort g).2 = none ∧ (names (topoSort g).1).Perm (names g) ∧
      (∀ x y, Edge (topoSort g).1 x y ↔ Edge g x y) ∧
      ∀ l1 y l2, names (topoSort g).1 = l1 ++ y :: l2 → ∀ p, Edge g p y → p ∈ l1) ∧
    ((∃ x, Relation.TransGen (Edge g) x x) → topoSort g = (g, some .runtime)) := by
  constructor
  · intro hac
    obtain ⟨h1, h2⟩ := C20_acyclic g hg hac
    obtain ⟨o1, o2, o3⟩ := C20_order g hg
    have heq : topoTraverse g = ((topoTraverse g).1, none) := by rw [← h1]
    have hs : topoSort g = (⟨(topoTraverse g).1.filterMap
        (fun n => g.nodes.find? (fun p => decide (p.1 = n))), g.prev, g.next⟩, none) := by
      unfold topoSort
      rw [heq]
    have hn : names (topoSort g).1 = (topoTraverse g).1 := by
      rw [hs]
      exact filterMap_names g _ o2
    refine ⟨by rw [hs], by rw [hn]; exact h2, by rw [hs]; intro x y; rfl, ?_⟩
    rw [hn]
    exact o3
  · rintro ⟨x, hx⟩
    have h := C20_cyclic g hg x hx
    have heq : topoTraverse g = ((topoTraverse g).1, some .runtime) := by rw [← h]
    unfold topoSort
    rw [heq]

end Verif.Graph
