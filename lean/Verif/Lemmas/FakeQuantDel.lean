import Verif.Spec.FakeQuantDel

/-! Helper lemmas for `Verif/Props/FakeQuantDel.lean`. -/

/-! C49: deleting fake-quantisers from a graph. -/
namespace Verif.FakeQuantDel

theorem node?_some (m : GM) (i : Nat) (n : Node) (h : node? m i = some n) :
    n ∈ m.nodes ∧ n.id = i := by
  refine ⟨List.mem_of_find?_eq_some h, ?_⟩
  have := List.find?_some h
  simpa using this

theorem sorted_inj (l : List Node) (h : l.Pairwise fun a b => a.id < b.id) (n n' : Node)
    (h1 : n ∈ l) (h2 : n' ∈ l) (he : n.id = n'.id) : n = n' := by
  induction l with
  | nil => cases h1
  | cons a l ih =>
      rw [List.pairwise_cons] at h
      rcases List.mem_cons.mp h1 with e1 | k1
      · rcases List.mem_cons.mp h2 with e2 | k2
        · rw [e1, e2]
        · have := h.1 _ k2; subst e1; omega
      · rcases List.mem_cons.mp h2 with e2 | k2
        · have := h.1 _ k1; subst e2; omega
        · exact ih h.2 k1 k2

theorem node?_of_mem (m : GM) (hw : WF m) (n : Node) (h : n ∈ m.nodes) :
    node? m n.id = some n := by
  unfold node?
  cases hf : m.nodes.find? fun n' => n'.id == n.id with
  | none =>
      rw [List.find?_eq_none] at hf
      exact absurd (by simp) (hf n h)
  | some n' =>
      have h1 := List.mem_of_find?_eq_some hf
      have h2 := List.find?_some hf
      rw [sorted_inj _ hw.sorted n n' h h1 (by simpa using (by simpa using h2 : n'.id = n.id).symm)]

theorem remove_ok (m m' : GM) (n : Node) (a : Arg) (h : remove n a m = .ok m') :
    m' = ⟨(m.nodes.filter fun x => x.id != n.id).map (substNode n.id a),
      m.mods.filter fun p => p.1 != n.target⟩ := by
  unfold remove delAttr at h
  split at h
  · exact (Except.ok.inj h).symm
  · cases h

theorem getMod_filter (m : GM) (ns : List Node) (p q : List Nat) (h : p ≠ q) :
    getMod ⟨ns, m.mods.filter fun x => x.1 != q⟩ p = getMod m p := by
  unfold getMod
  congr 1
  induction m.mods with
  | nil => rfl
  | cons x xs ih =>
      by_cases hx : x.1 = q
      · rw [List.filter_cons_of_neg (by simp [hx]), ih,
          List.find?_cons_of_neg (by simp [hx]; exact fun h' => h h'.symm)]
      · rw [List.filter_cons_of_pos (by simp [hx])]
        by_cases hp : x.1 = p
        · rw [List.find?_cons_of_pos (by simp [hp]), List.find?_cons_of_pos (by simp [hp])]
        · rw [List.find?_cons_of_neg (by simp [hp]), List.find?_cons_of_neg (by simp [hp]), ih]

theorem getMod_deleted (m : GM) (ns : List Node) (q : List Nat) :
    getMod ⟨ns, m.mods.filter fun x => x.1 != q⟩ q = none := by
  unfold getMod
  rw [Option.map_eq_none_iff, List.find?_eq_none]
  intro x hx
  rw [List.mem_filter] at hx
  simpa using hx.2

/-- Removing one node keeps the other nodes what they are. -/
theorem isFq_remove (m : GM) (hw : WF m) (n x : Node) (a : Arg) (ns : List Node)
    (hn : n ∈ m.nodes) (hx : x ∈ m.nodes) (hf : isFq m n = true) (hne : x ≠ n) :
    isFq ⟨ns, m.mods.filter fun p => p.1 != n.target⟩ (substNode n.id a x) = isFq m x := by
  by_cases ht : x.target = n.target
  · have hx' : isFq m x = false := by
      by_contra h
      exact hne (hw.distinct x hx n hn (by simpa using h) hf ht)
    rw [hx']
    have hop : (x.op == Op.callModule) = false := by
      by_contra h
      have h : (x.op == Op.callModule) = true := by simpa using h
      have h2 : (getMod m n.target == some Mod.fakeQuant) = true := by
        unfold isFq at hf
        exact (Bool.and_eq_true _ _ ▸ hf).2
      unfold isFq at hx'
      rw [h, ht, h2] at hx'
      cases hx'
    simp [isFq, substNode, hop]
  · unfold isFq
    rw [show (substNode n.id a x).target = x.target from rfl, getMod_filter m ns _ _ ht]
    rfl

theorem refs_subst (i j : Nat) (a : Arg) (k : Nat) (h : (substArg i (.node j) a).Refs k) :
    (a.Refs k ∧ k ≠ i) ∨ (k = j ∧ a.Refs i) := by
  cases a with
  | const => cases h
  | node t =>
      simp only [substArg] at h
      split at h
      · rename_i ht
        exact .inr ⟨h.symm, ht⟩
      · rename_i ht
        have h : t = k := h
        exact .inl ⟨h, by omega⟩
  | nest l =>
      simp only [substArg, Arg.Refs, List.mem_map] at h
      obtain ⟨o, ho, hk⟩ := h
      split at hk
      · rename_i hi
        exact .inr ⟨(Option.some.inj hk).symm, by rw [hi] at ho; exact ho⟩
      · rename_i hi
        subst hk
        exact .inl ⟨ho, fun h => hi (by rw [h])⟩

theorem wf_remove (m m' : GM) (hw : WF m) (n : Node) (j : Nat) (hn : n ∈ m.nodes)
    (hf : isFq m n = true) (ha : n.args = [.node j]) (h : remove n (.node j) m = .ok m') :
    WF m' ∧ ∀ x ∈ m.nodes, x ≠ n →
      substNode n.id (.node j) x ∈ m'.nodes ∧
        isFq m' (substNode n.id (.node j) x) = isFq m x := by
  have hm := remove_ok m m' n _ h
  have hj : j < n.id := hw.earlier n hn (.node j) (by simp [ha]) j rfl
  obtain ⟨nj, hnj, hnjid⟩ := hw.closed n hn j (by simp [ha])
  have hmem : ∀ y ∈ m'.nodes, ∃ x ∈ m.nodes, x ≠ n ∧ y = substNode n.id (.node j) x := by
    intro y hy
    rw [hm] at hy
    simp only [List.mem_map, List.mem_filter, bne_iff_ne] at hy
    obtain ⟨x, ⟨hx, hne⟩, rfl⟩ := hy
    exact ⟨x, hx, fun h => hne (by rw [h]), rfl⟩
  have hmem' : ∀ x ∈ m.nodes, x ≠ n → substNode n.id (.node j) x ∈ m'.nodes := by
    intro x hx hne
    rw [hm]
    simp only [List.mem_map, List.mem_filter, bne_iff_ne]
    exact ⟨x, ⟨hx, fun h => hne (sorted_inj _ hw.sorted x n hx hn h)⟩, rfl⟩
  have hfq : ∀ x ∈ m.nodes, x ≠ n → isFq m' (substNode n.id (.node j) x) = isFq m x := by
    intro x hx hne
    rw [hm]
    exact isFq_remove m hw n x _ _ hn hx hf hne
  have hargs : ∀ x : Node, (substNode n.id (.node j) x).args ++
      (substNode n.id (.node j) x).kwargs =
        (x.args ++ x.kwargs).map (substArg n.id (.node j)) := by
    intro x; simp [substNode]
  refine ⟨⟨?_, ?_, ?_, ?_, ?_, ?_⟩, fun x hx hne => ⟨hmem' x hx hne, hfq x hx hne⟩⟩
  · rw [hm]
    simp only
    rw [List.pairwise_map]
    exact (hw.sorted.filter _).imp (fun h => h)
  · intro y hy a ha' k hk
    obtain ⟨x, hx, hne, rfl⟩ := hmem y hy
    rw [hargs, List.mem_map] at ha'
    obtain ⟨a0, ha0, rfl⟩ := ha'
    rcases refs_subst _ _ _ _ hk with ⟨h1, _⟩ | ⟨rfl, h1⟩
    · exact hw.earlier x hx a0 ha0 k h1
    · exact lt_trans hj (hw.earlier x hx a0 ha0 _ h1)
  · intro y hy k hk
    obtain ⟨x, hx, hne, rfl⟩ := hmem y hy
    rw [hargs, List.mem_map] at hk
    obtain ⟨a0, ha0, hk⟩ := hk
    have hget : ∀ z ∈ m.nodes, z ≠ n → ∃ n' ∈ m'.nodes, n'.id = z.id :=
      fun z hz hzn => ⟨_, hmem' z hz hzn, rfl⟩
    cases a0 with
    | const => cases hk
    | nest l => cases hk
    | node t =>
        simp only [substArg] at hk
        split at hk
        · obtain rfl := Arg.node.inj hk
          obtain ⟨z, hz, hzid⟩ := hget nj hnj (by rintro rfl; omega)
          exact ⟨z, hz, by omega⟩
        · rename_i ht
          obtain rfl := Arg.node.inj hk
          obtain ⟨z, hz, hzid⟩ := hw.closed x hx t ha0
          obtain ⟨z', hz', hzid'⟩ := hget z hz (by rintro rfl; exact ht hzid.symm)
          exact ⟨z', hz', by omega⟩
  · intro y hy hfy
    obtain ⟨x, hx, hne, rfl⟩ := hmem y hy
    rw [hfq x hx hne] at hfy
    obtain ⟨k, hk⟩ := hw.unary x hx hfy
    simp only [substNode, hk, List.map_cons, List.map_nil, substArg]
    split
    · exact ⟨j, rfl⟩
    · exact ⟨k, rfl⟩
  · intro y hy hfy
    obtain ⟨x, hx, hne, rfl⟩ := hmem y hy
    rw [hfq x hx hne] at hfy
    exact hw.root x hx hfy
  · intro y hy y' hy' hfy hfy' ht
    obtain ⟨x, hx, hne, rfl⟩ := hmem y hy
    obtain ⟨x', hx', hne', rfl⟩ := hmem y' hy'
    rw [hfq x hx hne] at hfy
    rw [hfq x' hx' hne'] at hfy'
    rw [hw.distinct x hx x' hx' hfy hfy' ht]

theorem argVal_subst {V : Type} (env1 env2 : Nat → V) (i j : Nat)
    (h : ∀ k, k ≠ i → env1 k = env2 k) (hi : env1 i = env2 j) (a : Arg) :
    argVal env2 (substArg i (.node j) a) = argVal env1 a := by
  cases a with
  | const => rfl
  | node k =>
      simp only [substArg]
      split
      · rename_i hk; simp [argVal, hk, hi]
      · rename_i hk; simp [argVal, h k hk]
  | nest l =>
      simp only [substArg, argVal, List.map_map]
      congr 1
      apply List.map_congr_left
      intro o _
      simp only [Function.comp]
      split
      · rename_i ho; simp [ho, hi]
      · rename_i ho
        cases o with
        | none => rfl
        | some k => simp [h k (fun hk => ho (by rw [hk]))]

theorem argVal_agree {V : Type} (env1 env2 : Nat → V) (i : Nat)
    (h : ∀ k, k ≠ i → env1 k = env2 k) (a : Arg) (ha : ¬ a.Refs i) (b : Arg) :
    argVal env2 (substArg i b a) = argVal env1 a := by
  cases a with
  | const => rfl
  | node k =>
      have hk : k ≠ i := ha
      simp [substArg, if_neg hk, argVal, h k hk]
  | nest l =>
      simp only [substArg, argVal, List.map_map]
      congr 1
      apply List.map_congr_left
      intro o ho
      have hne : o ≠ some i := by rintro rfl; exact ha ho
      simp only [Function.comp, if_neg hne]
      cases o with
      | none => rfl
      | some k => simp [h k (fun hk => hne (by rw [hk]))]

/-- After the removed node: the two runs agree. -/
theorem eval_after {V : Type} (sem : Nat → List (ArgVal V) → List (ArgVal V) → V)
    (fq : Nat → Bool) (i j : Nat) (hj : j < i) (l : List Node) (hl : ∀ n ∈ l, i < n.id)
    (env1 env2 : Nat → V) (h : ∀ k, k ≠ i → env1 k = env2 k) (hi : env1 i = env2 j) :
    (∀ k, k ≠ i → evalNodes sem fq l env1 k =
      evalNodes sem fq (l.map (substNode i (.node j))) env2 k) ∧
    evalNodes sem fq l env1 i = evalNodes sem fq l env1 j := by
  induction l generalizing env1 env2 with
  | nil => exact ⟨h, by rw [evalNodes, hi, h j (by omega)]⟩
  | cons n l ih =>
      have hn : i < n.id := hl n (by simp)
      have hv : nodeVal sem fq n.id (n.args.map (argVal env1)) (n.kwargs.map (argVal env1)) =
          nodeVal sem fq n.id ((n.args.map (substArg i (.node j))).map (argVal env2))
            ((n.kwargs.map (substArg i (.node j))).map (argVal env2)) := by
        have e : ∀ L : List Arg, (L.map (substArg i (.node j))).map (argVal env2) =
            L.map (argVal env1) := by
          intro L
          rw [List.map_map]
          apply List.map_congr_left
          intro a _
          exact argVal_subst env1 env2 i j h hi a
        rw [e, e]
      simp only [evalNodes, List.map_cons]
      apply ih (fun n hn => hl n (by simp [hn]))
      · intro k hk
        simp only [substNode]
        rw [← hv]
        by_cases hkn : k = n.id
        · rw [hkn, Function.update_self, Function.update_self]
        · rw [Function.update_of_ne hkn, Function.update_of_ne hkn, h k hk]
      · simp only [substNode]
        rw [Function.update_of_ne (by omega), Function.update_of_ne (by omega), hi]

theorem eval_remove {V : Type} (sem : Nat → List (ArgVal V) → List (ArgVal V) → V)
    (fq : Nat → Bool) (n : Node) (j : Nat) (hj : j < n.id) (ha : n.args = [.node j])
    (hf : fq n.id = true) (l : List Node) (hs : l.Pairwise fun a b => a.id < b.id) (hn : n ∈ l)
    (he : ∀ x ∈ l, ∀ a ∈ x.args ++ x.kwargs, ∀ k, a.Refs k → k < x.id)
    (env1 env2 : Nat → V) (h : ∀ k, k ≠ n.id → env1 k = env2 k) :
    (∀ k, k ≠ n.id → evalNodes sem fq l env1 k =
      evalNodes sem fq ((l.filter fun x => x.id != n.id).map (substNode n.id (.node j))) env2 k) ∧
    evalNodes sem fq l env1 n.id = evalNodes sem fq l env1 j := by
  induction l generalizing env1 env2 with
  | nil => cases hn
  | cons x l ih =>
      rw [List.pairwise_cons] at hs
      rcases List.mem_cons.mp hn with rfl | hn'
      · have hfl : (n :: l).filter (fun x => x.id != n.id) = l := by
          rw [List.filter_cons_of_neg (by simp)]
          rw [List.filter_eq_self]
          intro y hy
          have := hs.1 y hy
          simp; omega
        rw [hfl]
        simp only [evalNodes]
        apply eval_after sem fq n.id j hj l hs.1
        · intro k hk
          rw [Function.update_of_ne hk, h k hk]
        · rw [Function.update_self]
          simp [nodeVal, hf, ha, argVal, h j (by omega)]
      · have hx : x.id < n.id := hs.1 n hn'
        rw [List.filter_cons_of_pos (by simp; omega), List.map_cons]
        simp only [evalNodes]
        apply ih hs.2 hn' (fun y hy => he y (by simp [hy]))
        intro k hk
        have hv : nodeVal sem fq x.id (x.args.map (argVal env1)) (x.kwargs.map (argVal env1)) =
          nodeVal sem fq x.id ((x.args.map (substArg n.id (.node j))).map (argVal env2))
            ((x.kwargs.map (substArg n.id (.node j))).map (argVal env2)) := by
          have e : ∀ L : List Arg, (∀ a ∈ L, ¬ a.Refs n.id) →
              (L.map (substArg n.id (.node j))).map (argVal env2) = L.map (argVal env1) := by
            intro L hL
            rw [List.map_map]
            apply List.map_congr_left
            intro a ha'
            exact argVal_agree env1 env2 n.id h a (hL a ha') _
          have hr : ∀ a ∈ x.args ++ x.kwargs, ¬ a.Refs n.id := by
            intro a ha' hra
            have := he x (by simp) a ha' _ hra
            omega
          rw [e _ (fun a ha' => hr a (by simp [ha'])), e _ (fun a ha' => hr a (by simp [ha']))]
        simp only [substNode]
        rw [← hv]
        by_cases hkn : k = x.id
        · rw [hkn, Function.update_self, Function.update_self]
        · rw [Function.update_of_ne hkn, Function.update_of_ne hkn, h k hk]

theorem FqPath.trans {m : GM} {a b c : Nat} (h1 : FqPath m a b) (h2 : FqPath m b c) :
    FqPath m a c := by
  induction h1 with
  | refl => exact h2
  | step n l j hn hf ha _ ih => exact .step n l c hn hf ha (ih h2)

theorem ArgFrom.refl (m : GM) (a : Arg) : ArgFrom m a a := by
  cases a with
  | const => rfl
  | node k => exact ⟨k, rfl, .refl k⟩
  | nest l => exact ⟨l, rfl, List.forall₂_same.mpr fun _ _ => .inl rfl⟩

theorem forall₂_refl (m : GM) (l : List Arg) : List.Forall₂ (ArgFrom m) l l :=
  List.forall₂_same.mpr fun a _ => ArgFrom.refl m a

theorem argFrom_subst (m : GM) (i j : Nat) (hp : FqPath m i j) (a a' : Arg)
    (h : ArgFrom m a a') : ArgFrom m a (substArg i (.node j) a') := by
  cases a with
  | const => cases h; rfl
  | node k =>
      obtain ⟨t, rfl, ht⟩ := h
      simp only [substArg]
      split
      · rename_i e; subst e; exact ⟨j, rfl, ht.trans hp⟩
      · exact ⟨t, rfl, ht⟩
  | nest l =>
      obtain ⟨l', rfl, hl⟩ := h
      refine ⟨_, rfl, ?_⟩
      induction hl with
      | nil => exact .nil
      | @cons o o' l l' ho _ ih =>
          refine .cons ?_ ih
          simp only
          split
          · rename_i e
            rcases ho with rfl | ⟨k, t, rfl, ho', ht⟩
            · exact .inr ⟨i, j, e, rfl, hp⟩
            · rw [e] at ho'
              obtain rfl := Option.some.inj ho'
              exact .inr ⟨k, j, rfl, rfl, ht.trans hp⟩
          · exact ho

theorem forall₂_subst (m : GM) (i j : Nat) (hp : FqPath m i j) (l l' : List Arg)
    (h : List.Forall₂ (ArgFrom m) l l') :
    List.Forall₂ (ArgFrom m) l (l'.map (substArg i (.node j))) := by
  induction h with
  | nil => exact .nil
  | cons ha _ ih => exact .cons (argFrom_subst m i j hp _ _ ha) ih

theorem rest_of_reach (m m' : GM) (hw : WF m) (h : Reach m m') : Rest m m' := by
  induction h with
  | refl =>
      refine ⟨hw, ?_, ?_, ?_⟩
      · intro y hy
        exact ⟨y, hy, rfl, rfl, rfl, forall₂_refl m _, forall₂_refl m _, rfl⟩
      · intro x hx _; exact ⟨x, hx, rfl⟩
      · intro V sem env fq _ y _; rfl
  | @tail m₁ m₂ _ hr ih =>
      obtain ⟨n, j, hn, hf, ha, hrm⟩ := hr
      obtain ⟨hw2, hkeep⟩ := wf_remove m₁ m₂ ih.wf n j hn hf ha hrm
      have hm := remove_ok m₁ m₂ n _ hrm
      have hmem : ∀ y ∈ m₂.nodes, ∃ x ∈ m₁.nodes, x ≠ n ∧ x.id ≠ n.id ∧
          y = substNode n.id (.node j) x := by
        intro y hy
        rw [hm] at hy
        simp only [List.mem_map, List.mem_filter, bne_iff_ne] at hy
        obtain ⟨x, ⟨hx, hne⟩, rfl⟩ := hy
        exact ⟨x, hx, fun h => hne (by rw [h]), hne, rfl⟩
      obtain ⟨n0, hn0, hid, hop, htg, hargs, hkw, hfq⟩ := ih.from' n hn
      have hp : FqPath m n.id j := by
        rw [ha] at hargs
        rw [List.forall₂_cons_right_iff] at hargs
        obtain ⟨a, l, h1, h2, heq⟩ := hargs
        rw [List.forall₂_nil_right_iff] at h2
        subst h2
        cases a with
        | const => cases h1
        | nest l => obtain ⟨_, h, _⟩ := h1; cases h
        | node k =>
            obtain ⟨t, ht, hpath⟩ := h1
            obtain rfl := Arg.node.inj ht
            rw [← hid]
            exact .step n0 k j hn0 (by rw [← hfq]; exact hf) heq hpath
      refine ⟨hw2, ?_, ?_, ?_⟩
      · intro y hy
        obtain ⟨x, hx, hne, _, rfl⟩ := hmem y hy
        obtain ⟨x0, hx0, hid', hop', htg', hargs', hkw', hfq'⟩ := ih.from' x hx
        refine ⟨x0, hx0, hid', hop', htg', forall₂_subst m _ _ hp _ _ hargs',
          forall₂_subst m _ _ hp _ _ hkw', ?_⟩
        rw [(hkeep x hx hne).2, hfq']
      · intro x hx hxf
        obtain ⟨y, hy, hyid⟩ := ih.keeps x hx hxf
        have hyn : y ≠ n := by
          rintro rfl
          have : n0 = x := sorted_inj _ hw.sorted n0 x hn0 hx (by omega)
          rw [this, hxf] at hfq
          rw [hf] at hfq
          cases hfq
        exact ⟨_, (hkeep y hy hyn).1, hyid⟩
      · intro V sem env fq hall y hy
        obtain ⟨x, hx, hne, hidne, rfl⟩ := hmem y hy
        have hfn : fq n.id = true := by
          rw [← hid]; exact hall n0 hn0 (by rw [← hfq]; exact hf)
        have hj : j < n.id := ih.wf.earlier n hn (.node j) (by simp [ha]) j rfl
        have := (eval_remove sem fq n j hj ha hfn m₁.nodes ih.wf.sorted hn ih.wf.earlier env env
          (fun _ _ => rfl)).1 x.id hidne
        rw [hm]
        simp only [substNode] at this ⊢
        rw [← this]
        exact ih.same V sem env fq hall x hx

theorem foldlM_reach (f : GM → Nat → Except Err GM) (hf : ∀ m i m', WF m → f m i = .ok m' →
    Reach m m') (l : List Nat) (m m' : GM) (hw : WF m) (h : l.foldlM f m = .ok m') :
    Reach m m' := by
  induction l generalizing m with
  | nil =>
      simp only [List.foldlM_nil, pure, Except.pure] at h
      obtain rfl := Except.ok.inj h
      exact .refl
  | cons i l ih =>
      simp only [List.foldlM_cons, bind, Except.bind] at h
      cases hi : f m i with
      | error e => rw [hi] at h; cases h
      | ok m₁ =>
          rw [hi] at h
          have h1 := hf m i m₁ hw hi
          exact h1.trans (ih m₁ (rest_of_reach m m₁ hw h1).wf h)

theorem eraseOne_reach (m : GM) (i : Nat) (m' : GM) (hw : WF m) (h : eraseOne m i = .ok m') :
    Reach m m' := by
  unfold eraseOne at h
  split at h
  · cases h
  · rename_i n hn
    obtain ⟨hmem, _⟩ := node?_some m i n hn
    split at h
    · rename_i hf
      obtain ⟨j, hj⟩ := hw.unary n hmem hf
      rw [hj] at h
      exact .single ⟨n, j, hmem, hf, hj, h⟩
    · cases h

theorem before_reach (pred : Node → Bool) (m m' : GM) (hw : WF m)
    (h : delBefore pred m = .ok m') : Reach m m' := by
  refine foldlM_reach _ ?_ _ m m' hw h
  intro m i m' hw h
  unfold beforeStep at h
  split at h
  · obtain rfl := Except.ok.inj h; exact .refl
  · split at h
    · exact foldlM_reach _ eraseOne_reach _ m m' hw h
    · obtain rfl := Except.ok.inj h; exact .refl

theorem afterStep_reach (T : List Nat) (m : GM) (i : Nat) (m' : GM) (hw : WF m)
    (h : afterStep T m i = .ok m') : Reach m m' := by
  unfold afterStep at h
  split at h
  · obtain rfl := Except.ok.inj h; exact .refl
  · rename_i n hn
    obtain ⟨hmem, _⟩ := node?_some m i n hn
    split at h
    · rename_i hf
      obtain ⟨j, hj⟩ := hw.unary n hmem hf
      rw [hj] at h
      simp only at h
      split at h
      · exact .single ⟨n, j, hmem, hf, hj, h⟩
      · obtain rfl := Except.ok.inj h; exact .refl
    · obtain rfl := Except.ok.inj h; exact .refl

theorem moduleStep_reach (pats : List Nat) (m : GM) (i : Nat) (m' : GM) (hw : WF m)
    (h : moduleStep pats m i = .ok m') : Reach m m' := by
  unfold moduleStep at h
  split at h
  · obtain rfl := Except.ok.inj h; exact .refl
  · split at h
    · split at h
      · cases h
      · split at h
        · cases h
        · rename_i e he
          obtain ⟨hmem, _⟩ := node?_some m _ e he
          split at h
          · rename_i hf
            obtain ⟨j, hj⟩ := hw.unary e hmem hf
            rw [hj] at h
            exact .single ⟨e, j, hmem, hf, hj, h⟩
          · obtain rfl := Except.ok.inj h; exact .refl
      · cases h
    · obtain rfl := Except.ok.inj h; exact .refl

theorem remove_total (m : GM) (hw : WF m) (n : Node) (a : Arg) (hn : n ∈ m.nodes)
    (hf : isFq m n = true) : ∃ m', remove n a m = .ok m' := by
  unfold remove delAttr
  rw [if_pos (hw.root n hn hf)]
  exact ⟨_, rfl⟩

theorem foldlM_total (f : GM → Nat → Except Err GM) (P : GM → Prop)
    (hf : ∀ m i, WF m → P m → ∃ m', f m i = .ok m' ∧ Reach m m' ∧ P m') (l : List Nat) (m : GM)
    (hw : WF m) (hp : P m) : ∃ m', l.foldlM f m = .ok m' := by
  induction l generalizing m with
  | nil => exact ⟨m, rfl⟩
  | cons i l ih =>
      obtain ⟨m₁, h1, h2, h3⟩ := hf m i hw hp
      obtain ⟨m', h⟩ := ih m₁ (rest_of_reach m m₁ hw h2).wf h3
      exact ⟨m', by simpa [List.foldlM_cons, h1, bind, Except.bind] using h⟩

theorem getMod_mono (m m' : GM) (h : Reach m m') (p : List Nat) (v : Mod)
    (hv : getMod m' p = some v) : getMod m p = some v := by
  induction h with
  | refl => exact hv
  | @tail m₁ m₂ _ hr ih =>
      obtain ⟨n, j, hn, hf, ha, hrm⟩ := hr
      have hm := remove_ok m₁ m₂ n _ hrm
      apply ih
      by_cases hp : p = n.target
      · rw [hm, hp, getMod_deleted] at hv; cases hv
      · rw [hm, getMod_filter m₁ _ _ _ hp] at hv; exact hv

theorem alive_remove (m m' : GM) (hw : WF m) (n : Node) (j : Nat) (hn : n ∈ m.nodes)
    (hf : isFq m n = true) (ha : n.args = [.node j]) (h : remove n (.node j) m = .ok m')
    (k : Nat) : Alive m' k ↔ Alive m k ∧ k ≠ n.id := by
  obtain ⟨hw', hkeep⟩ := wf_remove m m' hw n j hn hf ha h
  have hm := remove_ok m m' n _ h
  constructor
  · rintro ⟨y, hy, rfl, hyf⟩
    rw [hm] at hy
    simp only [List.mem_map, List.mem_filter, bne_iff_ne] at hy
    obtain ⟨x, ⟨hx, hne⟩, rfl⟩ := hy
    have hxn : x ≠ n := fun h => hne (by rw [h])
    rw [(hkeep x hx hxn).2] at hyf
    exact ⟨⟨x, hx, rfl, hyf⟩, hne⟩
  · rintro ⟨⟨x, hx, rfl, hxf⟩, hne⟩
    have hxn : x ≠ n := fun h => hne (by rw [h])
    obtain ⟨h1, h2⟩ := hkeep x hx hxn
    exact ⟨_, h1, rfl, by rw [h2, hxf]⟩

theorem eraseAll_ok (l : List Nat) (m : GM) (hw : WF m) :
    (∃ m', l.foldlM eraseOne m = .ok m') ↔ l.Nodup ∧ ∀ i ∈ l, Alive m i := by
  induction l generalizing m with
  | nil => simp [pure, Except.pure]
  | cons i l ih =>
      simp only [List.foldlM_cons, bind, Except.bind, List.nodup_cons, List.mem_cons,
        forall_eq_or_imp]
      by_cases hal : Alive m i
      · obtain ⟨n, hn, rfl, hf⟩ := hal
        obtain ⟨j, hj⟩ := hw.unary n hn hf
        obtain ⟨m₁, h1⟩ := remove_total m hw n (.node j) hn hf
        have he : eraseOne m n.id = .ok m₁ := by
          unfold eraseOne
          rw [node?_of_mem m hw n hn]
          simp only [hf, if_true, hj, h1]
        rw [he]
        simp only
        rw [ih m₁ (wf_remove m m₁ hw n j hn hf hj h1).1]
        have hk := alive_remove m m₁ hw n j hn hf hj h1
        constructor
        · rintro ⟨a, b⟩
          refine ⟨⟨fun hin => ((hk n.id).mp (b _ hin)).2 rfl, a⟩, ⟨n, hn, rfl, hf⟩, ?_⟩
          intro k hkl
          exact ((hk k).mp (b k hkl)).1
        · rintro ⟨⟨a, b⟩, _, c⟩
          refine ⟨b, fun k hkl => (hk k).mpr ⟨c k hkl, ?_⟩⟩
          rintro rfl
          exact a hkl
      · have he : eraseOne m i = .error .assertion := by
          unfold eraseOne
          split
          · rfl
          · rename_i n hn
            obtain ⟨h1, h2⟩ := node?_some m i n hn
            rw [if_neg]
            intro hf
            exact hal ⟨n, h1, h2, hf⟩
        rw [he]
        simp [hal]

theorem mem_find (m : GM) (hw : WF m) (f t i : Nat)
    (hf : m.nodes.countP (fun n => n.id < t) < f) : i ∈ find m f t ↔ Up m t i := by
  induction f generalizing t with
  | zero => omega
  | succ f ih =>
      rw [find]
      cases hn : node? m t with
      | none =>
          simp only [List.not_mem_nil, false_iff]
          intro hu
          cases hu with
          | here n h1 h2 => rw [node?_of_mem m hw n h1] at hn; cases hn
          | up n j i h1 _ _ _ => rw [node?_of_mem m hw n h1] at hn; cases hn
      | some n =>
          obtain ⟨hmem, rfl⟩ := node?_some m t n hn
          simp only
          have huniq : ∀ n' ∈ m.nodes, n'.id = n.id → n' = n :=
            fun n' h1 h2 => sorted_inj _ hw.sorted n' n h1 hmem h2
          split
          · rename_i hfq
            simp only [List.mem_singleton]
            constructor
            · rintro rfl; exact .here n hmem hfq
            · intro hu
              generalize hk : n.id = k at hu
              cases hu with
              | here n' _ _ => rfl
              | up n' j i h1 h2 _ _ =>
                  rw [huniq n' h1 hk.symm, hfq] at h2; cases h2
          · rename_i hfq
            have hfq : isFq m n = false := by simpa using hfq
            rw [List.mem_flatMap]
            have hrank : ∀ j, Arg.node j ∈ n.args ++ n.kwargs →
                m.nodes.countP (fun x => x.id < j) < f := by
              intro j hj
              have hlt : j < n.id := hw.earlier n hmem _ hj j rfl
              obtain ⟨nj, hnj, hjid⟩ := hw.closed n hmem j hj
              have : m.nodes.countP (fun x => x.id < j) < m.nodes.countP (fun x => x.id < n.id) := by
                have h1 : m.nodes.countP (fun x => x.id < j) + 1 ≤
                    m.nodes.countP (fun x => x.id < j) + m.nodes.countP (fun x => x.id == j) := by
                  have : 0 < m.nodes.countP (fun x => x.id == j) :=
                    List.countP_pos_iff.mpr ⟨nj, hnj, by simp [hjid]⟩
                  omega
                have h2 : ∀ l : List Node, l.countP (fun x => x.id < j) +
                    l.countP (fun x => x.id == j) ≤ l.countP (fun x => x.id < n.id) := by
                  intro l
                  induction l with
                  | nil => simp
                  | cons x l ih =>
                      simp only [List.countP_cons]
                      have : (if decide (x.id < j) = true then 1 else 0) +
                          (if (x.id == j) = true then 1 else 0) ≤
                          (if decide (x.id < n.id) = true then 1 else 0) := by
                        by_cases c1 : x.id < j
                        · have c2 : x.id ≠ j := by omega
                          have c3 : x.id < n.id := by omega
                          simp [c1, c2, c3]
                        · by_cases c2 : x.id = j
                          · have c3 : x.id < n.id := by omega
                            have c4 : (x.id == j) = true := by simp [c2]
                            rw [if_neg (by simpa using c1), if_pos c4, if_pos (by simpa using c3)]
                          · simp [c1, c2]
                      omega
                have := h2 m.nodes
                omega
              omega
            constructor
            · rintro ⟨a, ha, hi⟩
              cases a with
              | const => cases hi
              | nest l => cases hi
              | node j => exact .up n j i hmem hfq ha ((ih j (hrank j ha)).mp hi)
            · intro hu
              generalize hk : n.id = k at hu
              cases hu with
              | here n' h1 h2 => rw [huniq n' h1 hk.symm, hfq] at h2; cases h2
              | up n' j i h1 h2 h3 h4 =>
                  obtain rfl := huniq n' h1 hk.symm
                  exact ⟨.node j, h3, (ih j (hrank j h3)).mpr h4⟩

theorem up_alive (m : GM) (t i : Nat) (h : Up m t i) : Alive m i := by
  induction h with
  | here n h1 h2 => exact ⟨n, h1, rfl, h2⟩
  | up _ _ _ _ _ _ _ ih => exact ih

theorem countP_fuel (m : GM) (t : Nat) :
    m.nodes.countP (fun n => n.id < t) < m.nodes.length + 1 :=
  Nat.lt_succ_of_le List.countP_le_length

theorem foldlM_skip (p : Op → List Nat → Bool) (m₀ m : GM) (l : List Nat)
    (hp : ∀ i ∈ l, ∀ n ∈ m.nodes, n.id = i → p n.op n.target = false) :
    l.foldlM (beforeStep fun n => p n.op n.target) m = .ok m := by
  induction l with
  | nil => rfl
  | cons i l ih =>
      have : beforeStep (fun n => p n.op n.target) m i = .ok m := by
        unfold beforeStep
        split
        · rfl
        · rename_i n hn
          obtain ⟨h1, h2⟩ := node?_some m i n hn
          rw [if_neg]
          simp [hp i (by simp) n h1 h2]
      simp only [List.foldlM_cons, this, bind, Except.bind]
      exact ih (fun i hi => hp i (by simp [hi]))

theorem before_one (m : GM) (hw : WF m) (p : Op → List Nat → Bool) (t : Node)
    (ht : t ∈ m.nodes) (hp : ∀ n ∈ m.nodes, p n.op n.target = true ↔ n = t) :
    delBefore (fun n => p n.op n.target) m =
      (find m (m.nodes.length + 1) t.id).foldlM eraseOne m := by
  obtain ⟨pre, post, hsplit⟩ := List.append_of_mem ht
  have hlt : (∀ n ∈ pre, n.id < t.id) ∧ (∀ n ∈ post, t.id < n.id) := by
    have := hw.sorted
    rw [hsplit, List.pairwise_append, List.pairwise_cons] at this
    exact ⟨fun n hn => this.2.2 n hn t (by simp), this.2.1.1⟩
  have hno : ∀ m', Reach m m' → ∀ i, i ≠ t.id → ∀ n ∈ m'.nodes, n.id = i →
      p n.op n.target = false := by
    intro m' hr i hi n hn hid
    obtain ⟨x, hx, hxid, hop, htg, _⟩ := (rest_of_reach m m' hw hr).from' n hn
    rw [← hop, ← htg]
    by_contra hc
    have := (hp x hx).mp (by simpa using hc)
    subst this
    omega
  unfold delBefore
  rw [hsplit]
  simp only [List.map_append, List.map_cons, List.foldlM_append, List.foldlM_cons]
  rw [← hsplit]
  rw [foldlM_skip p m m (pre.map (·.id)) (by
    intro i hi
    obtain ⟨n, hn, rfl⟩ := List.mem_map.mp hi
    exact hno m .refl _ (by have := hlt.1 n hn; omega))]
  simp only [bind, Except.bind]
  have hstep : beforeStep (fun n => p n.op n.target) m t.id =
      (find m (m.nodes.length + 1) t.id).foldlM eraseOne m := by
    unfold beforeStep
    rw [node?_of_mem m hw t ht]
    simp only
    rw [if_pos ((hp t ht).mpr rfl)]
  rw [hstep]
  cases hres : (find m (m.nodes.length + 1) t.id).foldlM eraseOne m with
  | error e => rfl
  | ok m₁ =>
      simp only
      apply foldlM_skip p m m₁
      intro i hi
      obtain ⟨n, hn, rfl⟩ := List.mem_map.mp hi
      exact hno m₁ (foldlM_reach _ eraseOne_reach _ m m₁ hw hres) _
        (by have := hlt.2 n hn; omega)

theorem missing_remove (m m₁ m₂ : GM) (n : Node) (a : Arg) (h : remove n a m₁ = .ok m₂) (i : Nat)
    (hi : Missing m m₂ i) : Missing m m₁ i ∨ i = n.id := by
  have hm := remove_ok m₁ m₂ n _ h
  by_cases hn : i = n.id
  · exact .inr hn
  · refine .inl ⟨hi.1, ?_⟩
    intro y hy hyi
    refine hi.2 (substNode n.id a y) ?_ hyi
    rw [hm]
    simp only [List.mem_map, List.mem_filter, bne_iff_ne]
    exact ⟨y, ⟨hy, by omega⟩, rfl⟩

theorem foldlM_missing (m : GM) (hw : WF m) (f : GM → Nat → Except Err GM) (Q : Nat → Prop)
    (hf : ∀ m₁ i m₂, Reach m m₁ → f m₁ i = .ok m₂ →
      Reach m₁ m₂ ∧ ∀ k, Missing m m₂ k → Missing m m₁ k ∨ Q k)
    (l : List Nat) (m₁ m₂ : GM) (hr : Reach m m₁) (hq : ∀ k, Missing m m₁ k → Q k)
    (h : l.foldlM f m₁ = .ok m₂) : ∀ k, Missing m m₂ k → Q k := by
  induction l generalizing m₁ with
  | nil =>
      simp only [List.foldlM_nil, pure, Except.pure] at h
      obtain rfl := Except.ok.inj h
      exact hq
  | cons i l ih =>
      simp only [List.foldlM_cons, bind, Except.bind] at h
      cases hi : f m₁ i with
      | error e => rw [hi] at h; cases h
      | ok m₃ =>
          rw [hi] at h
          obtain ⟨h1, h2⟩ := hf m₁ i m₃ hr hi
          refine ih m₃ (hr.trans h1) ?_ h
          intro k hk
          rcases h2 k hk with h | h
          · exact hq k h
          · exact h

theorem args_singleton (m m₁ : GM) (hr : Rest m m₁) (n : Node) (hn : n ∈ m₁.nodes) (j : Nat)
    (ha : n.args = [.node j]) :
    ∃ x ∈ m.nodes, x.id = n.id ∧ isFq m x = isFq m₁ n ∧ ∃ k, x.args = [.node k] ∧
      FqPath m k j := by
  obtain ⟨x, hx, hid, _, _, hargs, _, hfq⟩ := hr.from' n hn
  rw [ha, List.forall₂_cons_right_iff] at hargs
  obtain ⟨a, l, h1, h2, heq⟩ := hargs
  rw [List.forall₂_nil_right_iff] at h2
  subst h2
  cases a with
  | const => cases h1
  | nest l => obtain ⟨_, h, _⟩ := h1; cases h
  | node k =>
      obtain ⟨t, ht, hpath⟩ := h1
      obtain rfl := Arg.node.inj ht
      exact ⟨x, hx, hid, hfq.symm, k, heq, hpath⟩

theorem args_head (m m₁ : GM) (hr : Rest m m₁) (n : Node) (hn : n ∈ m₁.nodes) (j : Nat)
    (rest : List Arg) (ha : n.args = .node j :: rest) :
    ∃ x ∈ m.nodes, x.id = n.id ∧ x.op = n.op ∧ x.target = n.target ∧
      ∃ k r, x.args = .node k :: r ∧ FqPath m k j := by
  obtain ⟨x, hx, hid, hop, htg, hargs, _, hfq⟩ := hr.from' n hn
  rw [ha, List.forall₂_cons_right_iff] at hargs
  obtain ⟨a, l, h1, h2, heq⟩ := hargs
  cases a with
  | const => cases h1
  | nest l => obtain ⟨_, h, _⟩ := h1; cases h
  | node k =>
      obtain ⟨t, ht, hpath⟩ := h1
      obtain rfl := Arg.node.inj ht
      exact ⟨x, hx, hid, hop, htg, k, l, heq, hpath⟩

theorem refs_subst_id (i : Nat) (b a : Arg) (h : ¬ a.Refs i) : substArg i b a = a := by
  cases a with
  | const => rfl
  | node k => exact if_neg h
  | nest l =>
      simp only [substArg]
      congr 1
      conv_rhs => rw [← List.map_id l]
      apply List.map_congr_left
      intro o ho
      rw [if_neg (by rintro rfl; exact h ho)]
      rfl

theorem after_complete (T : List Nat) (l : List Nat) (hl : l.Pairwise (· < ·)) (m m' : GM)
    (hw : WF m)
    (hinv : ∀ y ∈ m.nodes, y.id ∈ l ∨ ((∀ k ∈ l, y.id < k) ∧ Done T m y))
    (h : l.foldlM (afterStep T) m = .ok m') : ∀ y ∈ m'.nodes, Done T m' y := by
  induction l generalizing m with
  | nil =>
      simp only [List.foldlM_nil, pure, Except.pure] at h
      obtain rfl := Except.ok.inj h
      intro y hy
      rcases hinv y hy with h | h
      · cases h
      · exact h.2
  | cons i l ih =>
      rw [List.pairwise_cons] at hl
      simp only [List.foldlM_cons, bind, Except.bind] at h
      cases hi : afterStep T m i with
      | error e => rw [hi] at h; cases h
      | ok m₁ =>
          rw [hi] at h
          have hreach := afterStep_reach T m i m₁ hw hi
          refine ih hl.2 m₁ (rest_of_reach m m₁ hw hreach).wf ?_ h
          -- the node `i` itself
          have hstay : m₁ = m ∧ (∀ y ∈ m.nodes, y.id = i → Done T m y) ∨
              ∃ n j, n ∈ m.nodes ∧ n.id = i ∧ isFq m n = true ∧ n.args = [.node j] ∧
                remove n (.node j) m = .ok m₁ := by
            unfold afterStep at hi
            split at hi
            · rename_i hn
              obtain rfl := Except.ok.inj hi
              refine .inl ⟨rfl, ?_⟩
              intro y hy hyi
              rw [← hyi, node?_of_mem m hw y hy] at hn
              cases hn
            · rename_i n hn
              obtain ⟨hmem, hid⟩ := node?_some m i n hn
              have huniq : ∀ y ∈ m.nodes, y.id = i → y = n :=
                fun y h1 h2 => sorted_inj _ hw.sorted y n h1 hmem (by omega)
              split at hi
              · rename_i hf
                obtain ⟨j, hj⟩ := hw.unary n hmem hf
                rw [hj] at hi
                simp only at hi
                split at hi
                · exact .inr ⟨n, j, hmem, hid, hf, hj, hi⟩
                · rename_i hjT
                  obtain rfl := Except.ok.inj hi
                  refine .inl ⟨rfl, ?_⟩
                  intro y hy hyi
                  rw [huniq y hy hyi]
                  intro _ j' hj'
                  rw [hj] at hj'
                  obtain rfl := Arg.node.inj (List.cons.inj hj').1
                  exact hjT
              · rename_i hf
                obtain rfl := Except.ok.inj hi
                refine .inl ⟨rfl, ?_⟩
                intro y hy hyi
                rw [huniq y hy hyi]
                intro hf'
                exact absurd hf' hf
          rcases hstay with ⟨rfl, hdone⟩ | ⟨n, j, hn, hid, hf, ha, hrm⟩
          · intro y hy
            rcases hinv y hy with h | h
            · rcases List.mem_cons.mp h with h | h
              · exact .inr ⟨fun k hk => by rw [h]; exact hl.1 k hk, hdone y hy h⟩
              · exact .inl h
            · exact .inr ⟨fun k hk => h.1 k (by simp [hk]), h.2⟩
          · obtain ⟨_, hkeep⟩ := wf_remove m m₁ hw n j hn hf ha hrm
            have hm := remove_ok m m₁ n _ hrm
            intro y hy
            have hy' := hy
            rw [hm] at hy'
            simp only [List.mem_map, List.mem_filter, bne_iff_ne] at hy'
            obtain ⟨x, ⟨hx, hne⟩, rfl⟩ := hy'
            have hxn : x ≠ n := fun h => hne (by rw [h])
            rcases hinv x hx with h | h
            · rcases List.mem_cons.mp h with h | h
              · omega
              · exact .inl h
            · refine .inr ⟨fun k hk => h.1 k (by simp [hk]), ?_⟩
              intro hfx j' hj'
              rw [(hkeep x hx hxn).2] at hfx
              have hlt : x.id < i := h.1 i (by simp)
              have hsame : (substNode n.id (.node j) x).args = x.args := by
                simp only [substNode]
                conv_rhs => rw [← List.map_id x.args]
                apply List.map_congr_left
                intro a ha'
                apply refs_subst_id
                intro hr
                have := hw.earlier x hx a (by simp [ha']) _ hr
                omega
              rw [hsame] at hj'
              exact h.2 hfx j' hj'

theorem addTwice_wf : WF addTwice := by
  constructor <;> simp [addTwice, isFq, getMod, Arg.Refs] <;> decide

theorem twoUsers_wf : WF twoUsers := by
  constructor <;> simp [twoUsers, isFq, getMod, Arg.Refs] <;> decide

theorem kwOnly_wf : WF kwOnly := by
  constructor <;> simp [kwOnly, isFq, getMod, Arg.Refs] <;> decide

theorem removes_getMod {m m' : GM} (h : Removes m m') {p : List Nat} {v : Mod} (hv : getMod m' p = some v) : getMod m p = some v := by
  obtain ⟨n, j, _, _, _, hr⟩ := h
  rw [remove_ok m m' n _ hr] at hv
  by_cases hp : p = n.target
  · rw [hp, getMod_deleted] at hv
    cases hv
  · rw [getMod_filter m _ _ _ hp] at hv
    exact hv

theorem reach_getMod {m m' : GM} (h : Reach m m') {p : List Nat} {v : Mod} (hv : getMod m' p = some v) : getMod m p = some v := by
  induction h with
  | refl => exact hv
  | tail _ hs ih => exact ih (removes_getMod hs hv)

theorem removes_done {T : List Nat} {m m' : GM} (hw : WF m) (h : Removes m m') (hd : ∀ y ∈ m.nodes, Done T m y) :
    ∀ y ∈ m'.nodes, Done T m' y := by
  obtain ⟨n, j, hn, hf, ha, hr⟩ := h
  obtain ⟨_, hk⟩ := wf_remove m m' hw n j hn hf ha hr
  intro y hy hfy k hka
  have hm := remove_ok m m' n _ hr
  have hy' : y ∈ (m.nodes.filter fun x => x.id != n.id).map (substNode n.id (.node j)) := by
    rw [hm] at hy
    exact hy
  obtain ⟨x, hx, rfl⟩ := List.mem_map.1 hy'
  obtain ⟨hxm, hxi⟩ := List.mem_filter.1 hx
  have hxn : x ≠ n := by
    rintro rfl
    simp at hxi
  rw [(hk x hxm hxn).2] at hfy
  obtain ⟨i, hi⟩ := hw.unary x hxm hfy
  unfold substNode at hka
  rw [hi] at hka
  simp only [List.map_cons, List.map_nil, List.cons.injEq, and_true, substArg] at hka
  split at hka
  · cases hka
    exact hd n hn hf j ha
  · cases hka
    exact hd x hxm hfy k hi

theorem reach_wf {m m' : GM} (hw : WF m) (h : Reach m m') : WF m' := (rest_of_reach m m' hw h).wf

theorem reach_done {T : List Nat} {m m' : GM} (hw : WF m) (h : Reach m m') (hd : ∀ y ∈ m.nodes, Done T m y) :
    ∀ y ∈ m'.nodes, Done T m' y := by
  induction h with
  | refl => exact hd
  | tail h1 hs ih => exact removes_done (reach_wf hw h1) hs ih

theorem delAfter_none (pred : Node → Bool) (m : GM) (h : ∀ n ∈ m.nodes, pred n = false) (hw : WF m) : delAfter pred m = .ok m := by
  unfold delAfter
  have : m.nodes.filter pred = [] := List.filter_eq_nil_iff.2 fun n hn => by rw [h n hn]; exact Bool.false_ne_true
  rw [this]
  have key : ∀ l : List Nat, l.foldlM (afterStep []) m = .ok m := by
    intro l
    induction l with
    | nil => rfl
    | cons i l ih =>
      rw [List.foldlM_cons]
      have : afterStep [] m i = .ok m := by
        unfold afterStep
        cases hn : node? m i with
        | none => rfl
        | some n =>
          dsimp only
          by_cases hf : isFq m n = true
          · obtain ⟨j, hj⟩ := hw.unary n (node?_some m i n hn).1 hf
            rw [if_pos hf, hj]
            exact if_neg (by simp)
          · exact if_neg hf
      rw [this]
      exact ih
  exact key _

theorem delBefore_none (pred : Node → Bool) (m : GM) (h : ∀ n ∈ m.nodes, pred n = false) : delBefore pred m = .ok m := by
  unfold delBefore
  have key : ∀ l : List Nat, l.foldlM (beforeStep pred) m = .ok m := by
    intro l
    induction l with
    | nil => rfl
    | cons i l ih =>
      rw [List.foldlM_cons]
      have : beforeStep pred m i = .ok m := by
        unfold beforeStep
        cases hn : node? m i with
        | none => rfl
        | some n =>
          dsimp only
          exact if_neg (by rw [h n (node?_some m i n hn).1]; exact Bool.false_ne_true)
      rw [this]
      exact ih
  exact key _

theorem delBeforeModule_none (m : GM) : delBeforeModule [] m = .ok m := by
  unfold delBeforeModule
  have ht : ∀ n, isTargetMod [] m n = false := by
    intro n
    unfold isTargetMod
    cases getMod m n.target with
    | none => simp
    | some v => cases v <;> simp
  have key : ∀ l : List Nat, l.foldlM (moduleStep []) m = .ok m := by
    intro l
    induction l with
    | nil => rfl
    | cons i l ih =>
      rw [List.foldlM_cons]
      have : moduleStep [] m i = .ok m := by
        unfold moduleStep
        cases hn : node? m i with
        | none => rfl
        | some n =>
          dsimp only
          exact if_neg (by rw [ht n]; exact Bool.false_ne_true)
      rw [this]
      exact ih
  exact key _

theorem poolNet_wf : WF poolNet := by
  constructor <;> simp [poolNet, isFq, getMod, Arg.Refs] <;> decide

end Verif.FakeQuantDel
