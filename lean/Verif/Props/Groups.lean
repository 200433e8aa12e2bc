import Verif.Lemmas.Groups

namespace Verif.Groups
open Verif

variable {K : Type} [DecidableEq K]

/-- If every module stands for at most one element, the groups together contain every
element exactly as often as the network does: each element is in exactly one group. Missing: modules that stand for several
elements, see `C24_derived_violated` and `C24_two_sources_violated`. -/
theorem C24_partition_partial (net : Net K) (custom : List (List K)) (hs : Simple net)
    (gs : List ((String × Nat) × List (Mut K))) (h : build net custom = .ok gs) :
    (gs.flatMap (·.2)).Perm (net.flatMap (·.2)) ∧ ∀ (i : Nat) g, gs[i]? = some g → g.1.2 = i := by
  obtain ⟨b1, b2, h1, h2, hnd, rfl, -⟩ := build_ok h
  obtain ⟨g1, c1, c2, c3, -, c5⟩ := customGroups_spec net custom _ _ _ h1
  obtain ⟨g2, new, a1, a2, a3, -, -, a6, -⟩ := aliasGroups_spec net _ _ _ h2
  obtain ⟨g3, s1, s2, s3, s4⟩ := singles_spec net b2
  refine ⟨?_, s4 (a6 (c5 (by intro i g hg; simp at hg)))⟩
  rw [s3] at hnd
  simp only [List.nil_append] at c1 c3
  have hc : List.Forall₂ (Elem net) (custom.flatten.flatMap (denoteNames net)) (g1.flatMap (·.2)) := by
    clear c1 c3 h1 h
    induction c2 with
    | nil => exact .nil
    | cons h _ ih =>
      rw [List.flatten_cons, List.flatMap_append, List.flatMap_cons]
      exact forall2_append h ih
  have hb : List.Forall₂ (Elem net) b2.names ((g1 ++ g2).flatMap (·.2)) := by
    rw [a2, c3, List.flatMap_append]; exact forall2_append hc a3
  rw [s1, a1, c1, List.flatMap_append, s2, forall2_elem_flat hb]
  rw [flat_net hs _ (fun e he => (List.mem_filter.1 he).1), flat_net hs net (fun e he => he)]
  rw [← List.flatMap_append]
  refine List.Perm.flatMap_right _ ?_
  have hsub : ∀ n ∈ b2.names, n ∈ net.map (·.1) := by
    intro n hn
    obtain ⟨i, hi, hi'⟩ := List.getElem_of_mem hn
    have := List.Forall₂.get hb hi (by rw [← hb.length_eq]; exact hi)
    simp only [List.get_eq_getElem, hi', Elem] at this
    obtain ⟨ms, hm, _⟩ := mutOf_some this
    exact List.mem_map.2 ⟨_, hm, rfl⟩
  have hN := hs.1
  rw [List.perm_ext_iff_of_nodup]
  · intro n
    rw [List.mem_append]
    constructor
    · rintro (hn | hn)
      · exact hsub n hn
      · obtain ⟨e, he, rfl⟩ := List.mem_map.1 hn
        exact List.mem_map.2 ⟨e, (List.mem_filter.1 he).1, rfl⟩
    · intro hn
      obtain ⟨e, he, rfl⟩ := List.mem_map.1 hn
      by_cases hb' : e.1 ∈ b2.names
      · exact Or.inl hb'
      · exact Or.inr (List.mem_map.2 ⟨e, List.mem_filter.2 ⟨he, by simpa using hb'⟩, rfl⟩)
  · rw [List.nodup_append]
    refine ⟨hnd, (List.filter_sublist.map _).nodup hN, ?_⟩
    rintro x hx y hy rfl
    obtain ⟨e, he, rfl⟩ := List.mem_map.1 hy
    have := (List.mem_filter.1 he).2
    simp at this; exact this hx
  · exact hN

/-- The first groups are the custom groups, in order, with exactly the elements their
items stand for. -/
theorem C24_custom (net : Net K) (custom : List (List K))
    (gs : List ((String × Nat) × List (Mut K))) (h : build net custom = .ok gs) :
    ∃ rest, gs.map (·.2) =
      custom.map (fun g => (g.flatMap (denoteNames net)).flatMap (fun n => (mutOf net n).toList)) ++ rest := by
  obtain ⟨b1, b2, h1, h2, hnd, rfl, -⟩ := build_ok h
  obtain ⟨g1, c1, c2, -⟩ := customGroups_spec net custom _ _ _ h1
  obtain ⟨g2, new, a1, -⟩ := aliasGroups_spec net _ _ _ h2
  obtain ⟨g3, s1, -⟩ := singles_spec net b2
  refine ⟨(g2 ++ g3).map (·.2), ?_⟩
  rw [s1, a1, c1]
  have : g1.map (·.2) = custom.map (fun g => (g.flatMap (denoteNames net)).flatMap (fun n => (mutOf net n).toList)) := by
    clear c1 h1 h
    induction c2 with
    | nil => rfl
    | cons h _ ih => rw [List.map_cons, List.map_cons, ih, forall2_elem_flat h]
  simp [this]

/-- Elements with the same alias, whose modules are not named in the custom groups, are
in one group. Missing: modules named in custom groups. -/
theorem C24_alias_partial (net : Net K) (custom : List (List K)) (hs : Simple net)
    (gs : List ((String × Nat) × List (Mut K))) (h : build net custom = .ok gs)
    (n n' : K) (m m' : Mut K) (a : K) (hn : (n, [m]) ∈ net) (hn' : (n', [m']) ∈ net)
    (ha : m.aka = some a) (ha' : m'.aka = some a)
    (hc : n ∉ custom.flatten) (hc' : n' ∉ custom.flatten) :
    ∃ g ∈ gs, m ∈ g.2 ∧ m' ∈ g.2 := by
  obtain ⟨b1, b2, h1, h2, hnd, rfl, -⟩ := build_ok h
  obtain ⟨g1, c1, c2, c3, c4, -⟩ := customGroups_spec net custom _ _ _ h1
  obtain ⟨g2, new, a1, a2, a3, -, -, -, a7⟩ := aliasGroups_spec net _ _ _ h2
  obtain ⟨g3, s1, s2, s3, s4⟩ := singles_spec net b2
  simp only [List.nil_append] at c1 c3 c4
  have hw : n ∈ namesWith net a := (mem_namesWith net a n).2 ⟨_, hn, m, by simp, ha⟩
  have hw' : n' ∈ namesWith net a := (mem_namesWith net a n').2 ⟨_, hn', m', by simp, ha'⟩
  have hne : namesWith net a ≠ [] := List.ne_nil_of_mem hw
  have hE : Elem net n m := by rw [Elem, mutOf_mem hs hn]; rfl
  have hE' : Elem net n' m' := by rw [Elem, mutOf_mem hs hn']; rfl
  -- a module name occurs under its own alias only
  have huniq : ∀ k mk b, (k, [mk]) ∈ net → mk.aka = some a → k ∈ namesWith net b → b = a := by
    intro k mk b hk hka hkb
    obtain ⟨ms, h1, m2, h2, h3⟩ := (mem_namesWith net b k).1 hkb
    have e := (get?_mem hs.1 hk).symm.trans (get?_mem hs.1 h1)
    cases e
    simp at h2; subst h2
    rw [hka] at h3; exact (Option.some.inj h3).symm
  by_cases hac : a ∈ custom.flatten
  · obtain ⟨g, hg, hag⟩ := List.mem_flatten.1 hac
    have hd : denoteNames net a = namesWith net a := by simp [denoteNames, hne]
    obtain ⟨grp, hgrp, hf⟩ := forall2_left c2 hg
    have key : ∀ k mk, k ∈ namesWith net a → Elem net k mk → mk ∈ grp.2 := by
      intro k mk hk hek
      rw [forall2_elem_flat hf]
      refine List.mem_flatMap.2 ⟨k, List.mem_flatMap.2 ⟨a, hag, by rw [hd]; exact hk⟩, ?_⟩
      rw [hek]; simp
    refine ⟨grp, ?_, key n m hw hE, key n' m' hw' hE'⟩
    rw [s1, a1, c1]; simp [hgrp]
  · -- by alias
    have hmem : (a, namesWith net a) ∈ aliasNames net := by
      have := get?_aliasNames net a
      rw [if_neg hne] at this
      exact mem_of_get? this
    have hnot : ∀ k mk, (k, [mk]) ∈ net → mk.aka = some a → k ∉ custom.flatten → k ∉ b1.names := by
      intro k mk hk hka hkc hkb
      rw [c3] at hkb
      obtain ⟨item, hi, hki⟩ := List.mem_flatMap.1 hkb
      unfold denoteNames at hki
      split at hki
      · simp at hki; subst hki; exact hkc hi
      · have := huniq k mk item hk hka hki
        subst this; exact hac hi
    obtain ⟨g, hg, hgm⟩ := a7 a _ n n' m m' hmem
      (by rw [c4]; intro hx; exact hac (List.mem_filter.1 hx).1) hw hw' (hnot n m hn ha hc) (hnot n' m' hn' ha' hc')
      (by
        intro q hq hx
        obtain ⟨b, ns⟩ := q
        obtain ⟨rfl, -⟩ := mem_aliasNames net hq
        rcases hx with hx | hx
        · exact huniq n m b hn ha hx
        · exact huniq n' m' b hn' ha' hx)
      (nodup_fold _ _ (by simp)) hE hE'
    exact ⟨g, by rw [s1, a1]; simp [hg], hgm⟩

/-- A key that is neither an alias nor the name of a searchable module is rejected. -/
theorem C24_unknown (net : Net K) (custom : List (List K)) (k : K) (hk : k ∈ custom.flatten)
    (h1 : ¬ IsAlias net k) (h2 : mutOf net k = none) : build net custom = .error .assertion := by
  have hne : custom ≠ [] := by rintro rfl; simp at hk
  have hv : checkValid net custom = .error .assertion := by
    unfold checkValid
    dsimp only
    rw [if_neg]
    intro hall
    rw [List.all_eq_true] at hall
    have := hall k hk
    rw [get?_aliasNames, if_pos (by by_contra hx; exact h1 ((namesWith_ne net k).1 hx)), h2] at this
    simp at this
  unfold build
  rw [if_neg hne, hv]

/-- Using an alias and the name of one of its modules together is rejected. -/
theorem C24_alias_and_name (net : Net K) (custom : List (List K)) (a n : K) (ms : List (Mut K)) (m : Mut K)
    (ha : a ∈ custom.flatten) (hn : n ∈ custom.flatten) (hm : (n, ms) ∈ net) (hms : m ∈ ms)
    (hal : m.aka = some a) : build net custom = .error .assertion := by
  have hne : custom ≠ [] := by rintro rfl; simp at ha
  have hw : n ∈ namesWith net a := (mem_namesWith net a n).2 ⟨_, hm, m, hms, hal⟩
  have hv : checkValid net custom = .error .assertion := by
    unfold checkValid
    dsimp only
    split
    · rw [if_neg]
      intro hall
      rw [List.all_eq_true] at hall
      have := hall a ha
      rw [get?_aliasNames, if_neg (List.ne_nil_of_mem hw)] at this
      simp only [List.all_eq_true, decide_eq_true_eq] at this
      exact this n hw hn
    · rfl
  unfold build
  rw [if_neg hne, hv]

/-- Naming a key twice is rejected. -/
theorem C24_duplicate (net : Net K) (custom : List (List K)) (hd : ¬ custom.flatten.Nodup) :
    ∃ e, build net custom = .error e := by
  cases h : build net custom with
  | error e => exact ⟨e, rfl⟩
  | ok gs =>
    exfalso
    obtain ⟨b1, b2, h1, h2, hnd, rfl, -⟩ := build_ok h
    obtain ⟨g1, c1, c2, c3, c4, -⟩ := customGroups_spec net custom _ _ _ h1
    obtain ⟨g2, new, a1, a2, -⟩ := aliasGroups_spec net _ _ _ h2
    obtain ⟨g3, s1, s2, s3, s4⟩ := singles_spec net b2
    simp only [List.nil_append] at c3
    rw [s3, a2, c3] at hnd
    exact hd (flatMap_nodup (denoteNames_ne net) _ (List.nodup_append.1 hnd).1)

/-- Custom groups of known keys, none used twice, no alias together with one of its
modules, each group ending with the name of a module that is not an alias: building
succeeds. Missing: custom groups by alias, see `C24_alias_alone_violated` and `C24_mixed_violated`. -/
theorem C24_succeeds_partial (net : Net K) (custom : List (List K)) (hs : Simple net)
    (hknown : ∀ k ∈ custom.flatten, IsAlias net k ∨ ∃ m, mutOf net k = some m)
    (hnodup : custom.flatten.Nodup)
    (hmix : ∀ a ∈ custom.flatten, ∀ e ∈ net, ∀ m ∈ e.2, m.aka = some a → e.1 ∉ custom.flatten)
    (hlast : ∀ g ∈ custom, ∃ x m, g.getLast? = some x ∧ mutOf net x = some m) :
    ∃ gs, build net custom = .ok gs := by
  have hname : ∀ a, ∀ n ∈ namesWith net a, ∃ m, mutOf net n = some m := by
    intro a n hn
    obtain ⟨ms, h1, m, h2, -⟩ := (mem_namesWith net a n).1 hn
    exact mutOf_isSome hs.1 h1 (List.ne_nil_of_mem h2)
  have hden : ∀ x ∈ custom.flatten, ∀ n ∈ denoteNames net x, ∃ m, mutOf net n = some m := by
    intro x hx n hn
    unfold denoteNames at hn
    split at hn
    · rename_i he
      simp at hn; subst hn
      rcases hknown n hx with h | h
      · exact absurd he ((namesWith_ne net n).2 h)
      · exact h
    · exact hname x n hn
  obtain ⟨b1, h1⟩ := customGroups_total net custom
    (fun g hg x hx => hden x (List.mem_flatten.2 ⟨g, hg, hx⟩)) hlast none ⟨[], [], []⟩
  obtain ⟨b2, h2⟩ := aliasGroups_total net (aliasNames net) (by
    intro p hp
    obtain ⟨a, ns⟩ := p
    obtain ⟨rfl, hne⟩ := mem_aliasNames net hp
    exact ⟨hne, hname a⟩) b1
  obtain ⟨g1, c1, c2, c3, c4, -⟩ := customGroups_spec net custom _ _ _ h1
  obtain ⟨g2, new, a1, a2, a3, a4, a5, -⟩ := aliasGroups_spec net _ _ _ h2
  obtain ⟨g3, s1, s2, s3, s4⟩ := singles_spec net b2
  simp only [List.nil_append] at c3
  have hcust : (custom.flatten.flatMap (denoteNames net)).Nodup := by
    rw [List.nodup_flatMap]
    refine ⟨?_, ?_⟩
    · intro x _; unfold denoteNames; split
      · simp
      · exact namesWith_nodup hs x
    · refine hnodup.imp_of_mem ?_
      intro x y hx hy hxy
      rw [Function.onFun, List.disjoint_left]
      intro n hnx hny
      have one : ∀ z, z ∈ custom.flatten → n ∈ denoteNames net z → n = z ∧ namesWith net z = [] ∨ n ∈ namesWith net z := by
        intro z _ hz; unfold denoteNames at hz; split at hz
        · rename_i he; simp at hz; exact Or.inl ⟨hz, he⟩
        · exact Or.inr hz
      have mix : ∀ z, z ∈ custom.flatten → n ∈ namesWith net z → n ∉ custom.flatten := by
        intro z hz hn
        obtain ⟨ms, e1, m, e2, e3⟩ := (mem_namesWith net z n).1 hn
        exact hmix z hz _ e1 m e2 e3
      rcases one x hx hnx with ⟨h, _⟩ | h <;> rcases one y hy hny with ⟨h', _⟩ | h'
      · exact hxy (h.symm.trans h')
      · exact mix y hy h' (h ▸ hx)
      · exact mix x hx h (h' ▸ hy)
      · obtain ⟨ms, e1, m, e2, e3⟩ := (mem_namesWith net x n).1 h
        obtain ⟨ms', e1', m', e2', e3'⟩ := (mem_namesWith net y n).1 h'
        have := (get?_mem hs.1 e1).symm.trans (get?_mem hs.1 e1')
        cases this
        have hl := hs.2 _ e1
        match ms, hl, e2, e2' with
        | [q], _, e2, e2' =>
          simp at e2 e2'; subst e2; subst e2'
          rw [e3] at e3'; exact hxy (Option.some.inj e3')
        | _ :: _ :: _, hl, _, _ => simp at hl
  have hnd : (singles net b2).names.Nodup := by
    rw [s3, a2, List.nodup_append]
    refine ⟨by rw [c3]; exact hcust, a4, ?_⟩
    rintro x hx y hy rfl
    exact a5 x hy hx
  have hrest : buildRest net custom = .ok (singles net b2).groups := by
    simp only [buildRest, h1, h2, finish]; rw [if_pos hnd]
  have hv : checkValid net custom = .ok () := by
    unfold checkValid
    dsimp only
    rw [if_pos, if_pos]
    · rw [List.all_eq_true]
      intro k hk
      rw [get?_aliasNames]
      by_cases he : namesWith net k = []
      · simp [he]
      · rw [if_neg he]
        simp only [List.all_eq_true, decide_eq_true_eq]
        intro n hn
        obtain ⟨ms, e1, m, e2, e3⟩ := (mem_namesWith net k n).1 hn
        exact hmix k hk _ e1 m e2 e3
    · rw [List.all_eq_true]
      intro k hk
      rw [get?_aliasNames]
      rcases hknown k hk with h | ⟨m, h⟩
      · rw [if_neg ((namesWith_ne net k).2 h)]; simp
      · simp [h]
  refine ⟨(singles net b2).groups, ?_⟩
  unfold build
  split
  · exact hrest
  · rw [hv]; exact hrest

/-- The first documented example (grouping by alias, lines 43-47) raises a `KeyError`:
the prefix of a custom group is looked up under the alias. -/
theorem C24_alias_alone_violated : errorOf (build toy [["a1"], ["a2"]]) = some .key := by decide +kernel

/-- So does the third one, mixing aliases and names (lines 56-61). -/
theorem C24_mixed_violated : errorOf (build toy [["a2"], ["op2"]]) = some .key := by decide +kernel

/-- An element that is both a module and the source of a derived one is put in two
groups. -/
theorem C24_derived_violated :
    ids (build [("ratio", [⟨1, none, "v"⟩]), ("out", [⟨1, none, "v"⟩])] ([] : List (List String))) =
      some [[1], [1]] := by decide +kernel

/-- Of a derived module with two sources only the last is found by name: here the
source with the alias is in no group at all. -/
theorem C24_two_sources_violated :
    ids (build [("out", [⟨1, some "a", "v"⟩, ⟨2, none, "v"⟩])] ([] : List (List String))) = some [[2]] := by
  decide +kernel

/-! Concrete cases. -/

-- grouping by module name, the second documented example
example : ids (build toy [["op1", "op2"], ["op3"]]) = some [[1, 2], [3]] := by decide +kernel

-- no custom groups: by alias
example : ids (build toy []) = some [[1, 2], [3]] := by decide +kernel

example : Simple toy := by unfold Simple toy; decide +kernel

example : ∃ gs, build toy [["op1", "op2"], ["op3"]] = .ok gs := by
  refine C24_succeeds_partial toy _ (by unfold Simple toy; decide +kernel) ?_ (by decide +kernel) ?_ ?_
  · intro k hk
    right
    simp at hk
    rcases hk with rfl | rfl | rfl <;> exact ⟨_, rfl⟩
  · decide +kernel
  · intro g hg
    simp at hg
    rcases hg with rfl | rfl <;> exact ⟨_, _, rfl, rfl⟩

end Verif.Groups
