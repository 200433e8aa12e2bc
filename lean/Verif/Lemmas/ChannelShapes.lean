import Verif.Spec.ChannelShapes

/-! Numbers of channels in a graph: helper lemmas for `Verif/Props/ChannelShapes.lean`. -/

namespace Verif.ChannelNodes
open Verif

theorem bindLoop_total (t : Tensor) : ∀ (l : List Tensor) (s : S), (∀ u ∈ l, u.length = t.length) → ∃ s', bindLoop t l s = .ok s'
  | [], s, _ => ⟨s, rfl⟩
  | u :: l, s, h => by
    simp only [bindLoop, unionT]
    rw [if_pos (h u (by simp)).symm]
    exact bindLoop_total t l _ (fun v hv => h v (by simp [hv]))

theorem bindLoop_refused (t : Tensor) : ∀ (l : List Tensor) (s : S), ¬ (∀ u ∈ l, u.length = t.length) → bindLoop t l s = .error .assertion
  | [], s, h => absurd (by simp) h
  | u :: l, s, h => by
    simp only [bindLoop, unionT]
    by_cases h1 : t.length = u.length
    · rw [if_pos h1]
      refine bindLoop_refused t l _ (fun hl => h ?_)
      intro v hv
      rcases List.mem_cons.1 hv with rfl | hv
      · exact h1.symm
      · exact hl v hv
    · rw [if_neg h1]

theorem endLoop_total {e : Tensor} (he : e.length = 1) : ∀ (l : List Tensor) (s : S), ∃ s', endLoop e l s = .ok s'
  | [], s => ⟨s, rfl⟩
  | u :: l, s => by
    simp only [endLoop, unionT]
    rw [if_pos (by simp [expandT, fresh, elemsOf, he])]
    exact endLoop_total he l _

theorem groupLoop_total (t g : Tensor) (c : Nat) : ∀ (l : List Nat) (s : S), (∀ i ∈ l, i * c + c ≤ t.length) → g.length = c →
    ∃ s', groupLoop t g c l s = .ok s'
  | [], s, _, _ => ⟨s, rfl⟩
  | i :: l, s, h, hg => by
    simp only [groupLoop, unionT]
    have := h i (by simp)
    rw [if_pos (by rw [List.length_take, List.length_drop, hg]; omega)]
    exact groupLoop_total t g c l _ (fun j hj => h j (by simp [hj])) hg

theorem groupUnion_cases (t : Tensor) {groups : Nat} (h0 : groups ≠ 0) (g : Tensor) (s : S) :
    if groups * g.length = t.length then ∃ s', groupUnion t groups g s = .ok s' else groupUnion t groups g s = .error .assertion := by
  unfold groupUnion
  rw [if_neg h0]
  by_cases h : groups * g.length = t.length
  · rw [if_pos h, if_pos h]
    have hc : t.length / groups = g.length := by rw [← h, Nat.mul_div_cancel_left _ (by omega)]
    refine groupLoop_total t g _ _ s ?_ hc.symm
    intro i hi
    have hlt := List.mem_range.1 hi
    rw [hc, ← h]
    have := Nat.mul_le_mul_right g.length (Nat.succ_le_of_lt hlt)
    rw [Nat.succ_mul] at this
    exact this
  · rw [if_neg h, if_neg h]

theorem groupUnionNew_cases (t : Tensor) {groups : Nat} (h0 : groups ≠ 0) (s : S) :
    if groups ∣ t.length then ∃ s', groupUnionNew t groups s = .ok s' else groupUnionNew t groups s = .error .assertion := by
  unfold groupUnionNew
  rw [if_neg h0]
  have := groupUnion_cases t h0 (fresh (t.length / groups) s).1 (fresh (t.length / groups) s).2
  have hl : (fresh (t.length / groups) s).1.length = t.length / groups := by simp [fresh, elemsOf]
  rw [hl] at this
  by_cases h : groups ∣ t.length
  · rw [if_pos h]
    rwa [if_pos (Nat.mul_div_cancel' h)] at this
  · rw [if_neg h]
    rwa [if_neg (fun hc => h ⟨_, hc.symm⟩)] at this

theorem forwardNode_cases (k : Kind) (ins : List Tensor) (s : S) :
    match refusal k (ins.map List.length) with
    | some e => forwardNode k ins s = .error e
    | none => ∃ r s', forwardNode k ins s = .ok (r, s') := by
  cases k with
  | input n => exact ⟨_, _, rfl⟩
  | mix out =>
    match ins with
    | [] => rfl
    | [t] => exact ⟨_, _, rfl⟩
    | _ :: _ :: _ => rfl
  | passUnion =>
    match ins with
    | [] => rfl
    | t :: _ => exact ⟨_, _, rfl⟩
  | pass =>
    match ins with
    | [] => rfl
    | [t] => exact ⟨_, _, rfl⟩
    | _ :: _ :: _ => rfl
  | bind =>
    match ins with
    | [] => rfl
    | t :: l =>
      simp only [List.map_cons, refusal]
      by_cases h : ∀ m ∈ l.map List.length, m = t.length
      · rw [if_pos h]
        obtain ⟨s', e⟩ := bindLoop_total t l s (fun u hu => h _ (List.mem_map.2 ⟨u, hu, rfl⟩))
        exact ⟨same t, s', by simp only [forwardNode, e]⟩
      · rw [if_neg h]
        have e := bindLoop_refused t l s (fun hc => h (by
          intro m hm
          obtain ⟨u, hu, rfl⟩ := List.mem_map.1 hm
          exact hc u hu))
        simp only [forwardNode, e]
  | cat => exact ⟨_, _, rfl⟩
  | expand r =>
    match ins with
    | [] => rfl
    | [t] =>
      simp only [List.map_cons, List.map_nil, refusal, forwardNode, single]
      by_cases h : r = 0
      · rw [if_pos h, if_pos h]
      · rw [if_neg h, if_neg h]; exact ⟨_, _, rfl⟩
    | _ :: _ :: _ => rfl
  | stop =>
    obtain ⟨s', e⟩ := endLoop_total (e := (fresh 1 s).1) (by simp [fresh, elemsOf]) ins (fresh 1 s).2
    exact ⟨same (fresh 1 s).1, s', by simp only [forwardNode, e]⟩
  | group g out =>
    match ins with
    | [] => rfl
    | [t] =>
      simp only [List.map_cons, List.map_nil, refusal, forwardNode, single, groupForward]
      by_cases h : g = 0
      · rw [if_pos h]
        simp only [groupUnionNew, if_pos h]
      · rw [if_neg h]
        have h1 := groupUnionNew_cases t h s
        by_cases hd : g ∣ t.length
        · rw [if_pos hd] at h1
          obtain ⟨s1, e1⟩ := h1
          have h2 := groupUnionNew_cases (fresh out s1).1 h (fresh out s1).2
          have hl : (fresh out s1).1.length = out := by simp [fresh, elemsOf]
          rw [hl] at h2
          by_cases hd2 : g ∣ out
          · rw [if_pos hd2] at h2
            obtain ⟨s2, e2⟩ := h2
            rw [if_pos ⟨hd, hd2⟩]
            exact ⟨⟨t, (fresh out s1).1, (fresh out s1).1⟩, s2, by simp only [e1, e2]⟩
          · rw [if_neg hd2] at h2
            rw [if_neg (fun hc => hd2 hc.2)]
            simp only [e1, h2]
        · rw [if_neg hd] at h1
          rw [if_neg (fun hc => hd hc.1)]
          simp only [h1]
    | _ :: _ :: _ => rfl
  | groupNorm g c =>
    match ins with
    | [] => rfl
    | t :: l =>
      simp only [List.map_cons, refusal, forwardNode, groupNormForward]
      by_cases h : g = 0
      · rw [if_pos h, if_pos h]
      · rw [if_neg h, if_neg h]
        have h1 := groupUnion_cases t h (fresh (c / g) s).1 (fresh (c / g) s).2
        have hl : (fresh (c / g) s).1.length = c / g := by simp [fresh, elemsOf]
        rw [hl] at h1
        by_cases hd : g * (c / g) = t.length
        · rw [if_pos hd] at h1
          obtain ⟨s1, e1⟩ := h1
          rw [if_pos hd]
          exact ⟨same t, s1, by simp only [e1]⟩
        · rw [if_neg hd] at h1
          rw [if_neg hd]
          simp only [h1]

theorem fresh_length (n : Nat) (s : S) : (fresh n s).1.length = n := by simp [fresh, elemsOf]

theorem forwardNode_sizes (k : Kind) (ins : List Tensor) (s s' : S) (r : Rec) (h : forwardNode k ins s = .ok (r, s')) :
    r.sizes = sizesOf k (ins.map List.length) := by
  cases k with
  | input n =>
    simp only [forwardNode, Except.ok.injEq, Prod.mk.injEq] at h
    rw [← h.1]; simp [same, Rec.sizes, sizesOf, fresh_length]
  | mix out =>
    match ins, h with
    | [], h => cases h
    | [t], h =>
      simp only [forwardNode, Except.ok.injEq, Prod.mk.injEq] at h
      rw [← h.1]; simp [Rec.sizes, sizesOf, fresh_length]
    | _ :: _ :: _, h => cases h
  | passUnion =>
    match ins, h with
    | [], h => cases h
    | t :: _, h =>
      simp only [forwardNode, Except.ok.injEq, Prod.mk.injEq] at h
      rw [← h.1]; simp [same, Rec.sizes, sizesOf]
  | pass =>
    match ins, h with
    | [], h => cases h
    | [t], h =>
      simp only [forwardNode, single, Except.ok.injEq, Prod.mk.injEq] at h
      rw [← h.1]; simp [Rec.sizes, sizesOf, fresh_length]
    | _ :: _ :: _, h => cases h
  | bind =>
    match ins, h with
    | [], h => cases h
    | t :: l, h =>
      simp only [forwardNode] at h
      cases hb : bindLoop t l s with
      | error e => rw [hb] at h; cases h
      | ok s1 =>
        rw [hb] at h
        simp only [Except.ok.injEq, Prod.mk.injEq] at h
        rw [← h.1]; simp [same, Rec.sizes, sizesOf]
  | cat =>
    simp only [forwardNode, Except.ok.injEq, Prod.mk.injEq] at h
    rw [← h.1]; simp [same, Rec.sizes, sizesOf, List.length_flatten]
  | expand q =>
    match ins, h with
    | [], h => cases h
    | [t], h =>
      simp only [forwardNode, single] at h
      by_cases h0 : q = 0
      · rw [if_pos h0] at h; cases h
      · rw [if_neg h0] at h
        simp only [Except.ok.injEq, Prod.mk.injEq] at h
        rw [← h.1]; simp [Rec.sizes, sizesOf, expandT, fresh_length]
    | _ :: _ :: _, h => cases h
  | stop =>
    simp only [forwardNode] at h
    cases hb : endLoop (fresh 1 s).1 ins (fresh 1 s).2 with
    | error e => rw [hb] at h; cases h
    | ok s1 =>
      rw [hb] at h
      simp only [Except.ok.injEq, Prod.mk.injEq] at h
      rw [← h.1]; simp [same, Rec.sizes, sizesOf, fresh_length]
  | group g out =>
    match ins, h with
    | [], h => cases h
    | [t], h =>
      simp only [forwardNode, single, groupForward] at h
      cases h1 : groupUnionNew t g s with
      | error e => rw [h1] at h; cases h
      | ok s1 =>
        rw [h1] at h
        dsimp only at h
        cases h2 : groupUnionNew (fresh out s1).1 g (fresh out s1).2 with
        | error e => rw [h2] at h; cases h
        | ok s2 =>
          rw [h2] at h
          simp only [Except.ok.injEq, Prod.mk.injEq] at h
          rw [← h.1]; simp [Rec.sizes, sizesOf, fresh_length]
    | _ :: _ :: _, h => cases h
  | groupNorm g c =>
    match ins, h with
    | [], h => cases h
    | t :: l, h =>
      simp only [forwardNode, groupNormForward] at h
      by_cases h0 : g = 0
      · rw [if_pos h0] at h; cases h
      · rw [if_neg h0] at h
        cases h1 : groupUnion t g (fresh (c / g) s).1 (fresh (c / g) s).2 with
        | error e => rw [h1] at h; cases h
        | ok s1 =>
          rw [h1] at h
          simp only [Except.ok.injEq, Prod.mk.injEq] at h
          rw [← h.1]; simp [same, Rec.sizes, sizesOf]

theorem inputsOf_sizes (done : List Rec) : ∀ prev : List Nat,
    match prev.mapM (fun i => ((done.map Rec.sizes)[i]?).map Sizes.ret) with
    | none => inputsOf done prev = .error .attribute
    | some ns => ∃ ts, inputsOf done prev = .ok ts ∧ ts.map List.length = ns
  | [] => ⟨[], rfl, rfl⟩
  | i :: prev => by
    have ih := inputsOf_sizes done prev
    rw [List.mapM_cons]
    simp only [inputsOf]
    rw [List.getElem?_map]
    cases h1 : done[i]? with
    | none => simp
    | some r =>
      cases h2 : prev.mapM (fun i => ((done.map Rec.sizes)[i]?).map Sizes.ret) with
      | none =>
        rw [h2] at ih
        dsimp only at ih
        simp [ih]
      | some ns =>
        rw [h2] at ih
        obtain ⟨ts, e1, e2⟩ := ih
        simp [e1, e2, Rec.sizes]

theorem step_sizes (inputs : Nat) (n : Node) (done : List Rec) (s : S) :
    match sizesIn inputs (done.map Rec.sizes) n.prev with
    | none => step inputs n done s = .error .attribute
    | some ns =>
      match refusal n.kind ns with
      | some e => step inputs n done s = .error e
      | none => ∃ r s', step inputs n done s = .ok (r, s') ∧ r.sizes = sizesOf n.kind ns := by
  unfold sizesIn step
  by_cases hp : n.prev = []
  · rw [if_pos hp, if_pos hp]
    have h := forwardNode_cases n.kind [(fresh inputs s).1] (fresh inputs s).2
    rw [List.map_cons, List.map_nil, fresh_length] at h
    dsimp only
    cases hr : refusal n.kind [inputs] with
    | some e => rw [hr] at h; exact h
    | none =>
      rw [hr] at h
      obtain ⟨r, s', e⟩ := h
      refine ⟨r, s', e, ?_⟩
      have := forwardNode_sizes _ _ _ _ _ e
      rwa [List.map_cons, List.map_nil, fresh_length] at this
  · rw [if_neg hp, if_neg hp]
    have hi := inputsOf_sizes done n.prev
    cases hm : n.prev.mapM (fun i => ((done.map Rec.sizes)[i]?).map Sizes.ret) with
    | none =>
      rw [hm] at hi
      dsimp only at hi ⊢
      rw [hi]
    | some ns =>
      rw [hm] at hi
      obtain ⟨ts, e1, e2⟩ := hi
      dsimp only
      rw [e1]
      dsimp only
      have h := forwardNode_cases n.kind ts s
      rw [e2] at h
      cases hr : refusal n.kind ns with
      | some e => rw [hr] at h; exact h
      | none =>
        rw [hr] at h
        obtain ⟨r, s', e⟩ := h
        exact ⟨r, s', e, by rw [← e2]; exact forwardNode_sizes _ _ _ _ _ e⟩

theorem all_sizes (inputs : Nat) : ∀ (nodes : List Node) (done : List Rec) (s : S),
    match sizesAll inputs nodes (done.map Rec.sizes) with
    | .error e => forwardAll inputs nodes done s = .error e
    | .ok zs => ∃ recs s', forwardAll inputs nodes done s = .ok (recs, s') ∧ recs.map Rec.sizes = zs
  | [], done, s => ⟨done, s, rfl, rfl⟩
  | n :: rest, done, s => by
    have h := step_sizes inputs n done s
    simp only [sizesAll, forwardAll]
    cases h1 : sizesIn inputs (done.map Rec.sizes) n.prev with
    | none =>
      rw [h1] at h
      dsimp only at h ⊢
      rw [h]
    | some ns =>
      rw [h1] at h
      dsimp only at h ⊢
      cases h2 : refusal n.kind ns with
      | some e =>
        rw [h2] at h
        dsimp only at h ⊢
        rw [h]
      | none =>
        rw [h2] at h
        obtain ⟨r, s', e1, e2⟩ := h
        have ih := all_sizes inputs rest (done ++ [r]) s'
        rw [List.map_append, List.map_cons, List.map_nil, e2] at ih
        rw [e1]
        exact ih

theorem into_sizes (m : Nat) (r : Rec) : ∀ (l : List (Node × Rec)) (s : S),
    if ∀ q ∈ l, q.1.module = some m → r.sizes.inp = q.2.sizes.inp ∧ r.sizes.out = q.2.sizes.out then ∃ s', mergeInto m r l s = .ok s'
    else mergeInto m r l s = .error .assertion
  | [], s => by rw [if_pos (by simp)]; exact ⟨s, rfl⟩
  | (n, q) :: rest, s => by
    simp only [mergeInto]
    by_cases hm : n.module = some m
    · rw [if_pos hm]
      unfold unionT
      by_cases h1 : r.inp.length = q.inp.length
      · rw [if_pos h1]
        dsimp only
        by_cases h2 : r.out.length = q.out.length
        · rw [if_pos h2]
          dsimp only
          have ih := into_sizes m r rest (tie (r.out.zip q.out) (tie (r.inp.zip q.inp) s))
          by_cases h3 : ∀ q ∈ rest, q.1.module = some m → r.sizes.inp = q.2.sizes.inp ∧ r.sizes.out = q.2.sizes.out
          · rw [if_pos h3] at ih
            rw [if_pos (by
              intro x hx hxm
              rcases List.mem_cons.1 hx with rfl | hx
              · exact ⟨h1, h2⟩
              · exact h3 x hx hxm)]
            exact ih
          · rw [if_neg h3] at ih
            rw [if_neg (fun hc => h3 (fun x hx => hc x (by simp [hx])))]
            exact ih
        · rw [if_neg (fun hc => h2 (hc (n, q) (by simp) hm).2), if_neg h2]
      · rw [if_neg (fun hc => h1 (hc (n, q) (by simp) hm).1), if_neg h1]
    · rw [if_neg hm]
      have ih := into_sizes m r rest s
      by_cases h3 : ∀ q ∈ rest, q.1.module = some m → r.sizes.inp = q.2.sizes.inp ∧ r.sizes.out = q.2.sizes.out
      · rw [if_pos h3] at ih
        rw [if_pos (by
          intro x hx hxm
          rcases List.mem_cons.1 hx with rfl | hx
          · exact absurd hxm hm
          · exact h3 x hx hxm)]
        exact ih
      · rw [if_neg h3] at ih
        rw [if_neg (fun hc => h3 (fun x hx => hc x (by simp [hx])))]
        exact ih

/-- Agreement of nodes whose module is not yet dealt with. -/
def AgreeOff (seen : List Nat) (l : List (Node × Rec)) : Prop :=
  l.Pairwise (fun q q' => ∀ m, q.1.module = some m → m ∉ seen → q'.1.module = some m →
    q.2.sizes.inp = q'.2.sizes.inp ∧ q.2.sizes.out = q'.2.sizes.out)

theorem merge_sizes : ∀ (l : List (Node × Rec)) (seen : List Nat) (s : S),
    (AgreeOff seen l → ∃ s', merge seen l s = .ok s') ∧ (¬ AgreeOff seen l → merge seen l s = .error .assertion)
  | [], seen, s => ⟨fun _ => ⟨s, rfl⟩, fun h => absurd List.Pairwise.nil h⟩
  | (n, r) :: rest, seen, s => by
    simp only [merge]
    have skip : (∀ m, n.module = some m → m ∈ seen) → (AgreeOff seen ((n, r) :: rest) ↔ AgreeOff seen rest) := by
      intro hs
      unfold AgreeOff
      rw [List.pairwise_cons]
      exact ⟨fun h => h.2, fun h => ⟨fun q _ m hm hn => absurd (hs m hm) hn, h⟩⟩
    cases hm : n.module with
    | none =>
      dsimp only
      rw [skip (fun m h => by rw [hm] at h; cases h)]
      exact merge_sizes rest seen s
    | some m =>
      dsimp only
      by_cases hs : m ∈ seen
      · rw [if_pos hs, skip (fun m' h => by rw [hm] at h; cases h; exact hs)]
        exact merge_sizes rest seen s
      · rw [if_neg hs]
        have hi := into_sizes m r rest s
        by_cases h3 : ∀ q ∈ rest, q.1.module = some m → r.sizes.inp = q.2.sizes.inp ∧ r.sizes.out = q.2.sizes.out
        · rw [if_pos h3] at hi
          obtain ⟨s1, e1⟩ := hi
          rw [e1]
          dsimp only
          have ih := merge_sizes rest (m :: seen) s1
          have : AgreeOff seen ((n, r) :: rest) ↔ AgreeOff (m :: seen) rest := by
            unfold AgreeOff
            rw [List.pairwise_cons]
            constructor
            · rintro ⟨_, h⟩
              exact h.imp fun hh m' a b c => hh m' a (fun hc => b (by simp [hc])) c
            · intro h
              refine ⟨fun q hq m' a b c => ?_, ?_⟩
              · rw [hm] at a; cases a; exact h3 q hq c
              · refine List.Pairwise.imp_of_mem ?_ h
                intro q q' hq hq' hh m' a b c
                by_cases hmm : m' = m
                · rw [hmm] at a c
                  obtain ⟨x1, x2⟩ := h3 q hq a
                  obtain ⟨y1, y2⟩ := h3 q' hq' c
                  exact ⟨x1.symm.trans y1, x2.symm.trans y2⟩
                · exact hh m' a (by simp [hmm, b]) c
          rw [this]
          exact ih
        · rw [if_neg h3] at hi
          rw [hi]
          refine ⟨fun h => absurd ?_ h3, fun _ => rfl⟩
          intro q hq hqm
          exact (List.pairwise_cons.1 h).1 q hq m hm hs hqm

theorem agree_iff (nodes : List Node) (recs : List Rec) : SizesAgree (nodes.zip (recs.map Rec.sizes)) ↔ AgreeOff [] (nodes.zip recs) := by
  unfold SizesAgree AgreeOff
  rw [List.zip_map_right, List.pairwise_map]
  simp [Prod.map]

end Verif.ChannelNodes
