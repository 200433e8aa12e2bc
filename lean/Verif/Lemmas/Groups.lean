import Verif.Spec.Groups

/-! Helper lemmas for `Verif/Props/Groups.lean`. -/

namespace Verif.Groups
open Verif

variable {K : Type} [DecidableEq K]

/-! helper lemmas -/

theorem get?_cons {A : Type} (k : K) (v : A) (d : List (K × A)) (x : K) :
    get? ((k, v) :: d) x = if k = x then some v else get? d x := by
  unfold get?
  by_cases h : k = x <;> simp [h]

theorem get?_mem {A : Type} {d : List (K × A)} (hd : (d.map (·.1)).Nodup) {k : K} {v : A} (h : (k, v) ∈ d) :
    get? d k = some v := by
  induction d with
  | nil => simp at h
  | cons p d ih =>
    obtain ⟨k', v'⟩ := p
    simp only [List.map_cons, List.nodup_cons] at hd
    rw [get?_cons]
    rcases List.mem_cons.1 h with h | h
    · cases h; rw [if_pos rfl]
    · rw [if_neg, ih hd.2 h]
      rintro rfl
      exact hd.1 (List.mem_map.2 ⟨_, h, rfl⟩)

theorem mem_of_get? {A : Type} {d : List (K × A)} {k : K} {v : A} (h : get? d k = some v) : (k, v) ∈ d := by
  unfold get? at h
  cases hf : d.find? (fun p => decide (p.1 = k)) with
  | none => rw [hf] at h; simp at h
  | some p =>
    rw [hf] at h
    have h1 := List.find?_some hf
    have h2 := List.mem_of_find?_eq_some hf
    simp at h h1
    obtain ⟨a, b⟩ := p
    simp at h h1; subst h; subst h1; exact h2

theorem get?_addAlias (d : List (K × List K)) (a n b : K) :
    get? (addAlias d (a, n)) b = if b = a then some ((get? d a).getD [] ++ [n]) else get? d b := by
  induction d with
  | nil =>
    simp only [addAlias, get?_cons]
    by_cases h : a = b
    · simp [h, get?]
    · simp [h, Ne.symm h, get?]
  | cons p d ih =>
    obtain ⟨k, ns⟩ := p
    simp only [addAlias]
    by_cases hk : k = a
    · subst hk
      rw [if_pos rfl, get?_cons, get?_cons, get?_cons, if_pos rfl]
      by_cases hb : k = b
      · simp [hb]
      · simp [hb, Ne.symm hb]
    · rw [if_neg hk, get?_cons, get?_cons, get?_cons, if_neg hk, ih]
      by_cases hb : b = a
      · subst hb; simp [hk]
      · simp [hb]

theorem get?_fold (ps : List (K × K)) : ∀ (d : List (K × List K)) (b : K),
    get? (ps.foldl addAlias d) b =
      if (ps.filter (fun p => decide (p.1 = b))).map (·.2) = [] then get? d b
      else some ((get? d b).getD [] ++ (ps.filter (fun p => decide (p.1 = b))).map (·.2)) := by
  induction ps with
  | nil => intro d b; simp
  | cons p ps ih =>
    intro d b
    obtain ⟨a, n⟩ := p
    rw [List.foldl_cons, ih, get?_addAlias]
    by_cases hb : b = a
    · subst hb
      simp only [if_true, decide_true, List.filter_cons_of_pos, List.map_cons]
      by_cases hl : (ps.filter (fun p => decide (p.1 = b))).map (·.2) = []
      · rw [if_pos hl]; simp [hl]
      · rw [if_neg hl]; simp
    · rw [if_neg hb]
      have : (List.filter (fun p => decide (p.1 = b)) ((a, n) :: ps)) = ps.filter (fun p => decide (p.1 = b)) := by
        simp [Ne.symm hb]
      rw [this]

theorem get?_aliasNames (net : Net K) (a : K) :
    get? (aliasNames net) a = if namesWith net a = [] then none else some (namesWith net a) := by
  unfold aliasNames namesWith
  rw [get?_fold]
  simp [get?]

theorem nodup_addAlias (d : List (K × List K)) (p : K × K) (hd : (d.map (·.1)).Nodup) :
    ((addAlias d p).map (·.1)).Nodup ∧ ∀ x, x ∈ (addAlias d p).map (·.1) ↔ x ∈ d.map (·.1) ∨ x = p.1 := by
  obtain ⟨a, n⟩ := p
  induction d with
  | nil => simp [addAlias]
  | cons q d ih =>
    obtain ⟨k, ns⟩ := q
    simp only [List.map_cons, List.nodup_cons] at hd
    obtain ⟨i1, i2⟩ := ih hd.2
    simp only [addAlias]
    by_cases hk : k = a
    · subst hk; rw [if_pos rfl]
      refine ⟨by simpa using hd, fun x => by simp; tauto⟩
    · rw [if_neg hk]
      refine ⟨?_, fun x => ?_⟩
      · simp only [List.map_cons, List.nodup_cons, i2]
        exact ⟨fun h => h.elim hd.1 hk, i1⟩
      · simp only [List.map_cons, List.mem_cons, i2]; tauto

theorem nodup_fold (ps : List (K × K)) : ∀ d : List (K × List K), (d.map (·.1)).Nodup →
    ((ps.foldl addAlias d).map (·.1)).Nodup := by
  induction ps with
  | nil => intro d h; exact h
  | cons p ps ih => intro d h; exact ih _ (nodup_addAlias d p h).1

theorem mem_aliasNames (net : Net K) {a : K} {ns : List K} (h : (a, ns) ∈ aliasNames net) :
    ns = namesWith net a ∧ namesWith net a ≠ [] := by
  have h1 := get?_mem (nodup_fold (aliasPairs net) [] (by simp)) h
  have h2 := get?_aliasNames net a
  unfold aliasNames at h2
  rw [h1] at h2
  split at h2
  · cases h2
  · rename_i hne; exact ⟨Option.some.inj h2, hne⟩

theorem mem_namesWith (net : Net K) (a n : K) :
    n ∈ namesWith net a ↔ ∃ ms, (n, ms) ∈ net ∧ ∃ m ∈ ms, m.aka = some a := by
  simp only [namesWith, aliasPairs, List.mem_map, List.mem_filter, List.mem_flatMap, List.mem_filterMap,
    Option.map_eq_some_iff, decide_eq_true_eq]
  constructor
  · rintro ⟨⟨a', n'⟩, ⟨⟨⟨k, ms⟩, he, m, hm, a'', ha, heq⟩, rfl⟩, rfl⟩
    cases heq
    exact ⟨ms, he, m, hm, ha⟩
  · rintro ⟨ms, he, m, hm, ha⟩
    exact ⟨(a, n), ⟨⟨(n, ms), he, m, hm, a, ha, rfl⟩, rfl⟩, rfl⟩

theorem namesWith_ne (net : Net K) (a : K) : namesWith net a ≠ [] ↔ IsAlias net a := by
  constructor
  · intro h
    obtain ⟨n, hn⟩ := List.exists_mem_of_ne_nil _ h
    obtain ⟨ms, h1, m, h2, h3⟩ := (mem_namesWith net a n).1 hn
    exact ⟨_, h1, m, h2, h3⟩
  · rintro ⟨⟨n, ms⟩, h1, m, h2, h3⟩ h
    have := (mem_namesWith net a n).2 ⟨ms, h1, m, h2, h3⟩
    rw [h] at this; simp at this

theorem mutOf_mem {net : Net K} (hs : Simple net) {n : K} {ms : List (Mut K)} (h : (n, ms) ∈ net) :
    mutOf net n = ms.head? := by
  unfold mutOf
  rw [get?_mem hs.1 h]
  have hl := hs.2 _ h
  match ms, hl with
  | [], _ => rfl
  | [m], _ => rfl
  | _ :: _ :: _, hl => simp at hl

theorem mutOf_some {net : Net K} {n : K} {m : Mut K} (h : mutOf net n = some m) : ∃ ms, (n, ms) ∈ net ∧ m ∈ ms := by
  unfold mutOf at h
  cases hg : get? net n with
  | none => rw [hg] at h; simp at h
  | some ms =>
    rw [hg] at h
    exact ⟨ms, mem_of_get? hg, List.mem_of_getLast? h⟩

theorem mutOf_isSome {net : Net K} (hd : (net.map (·.1)).Nodup) {n : K} {ms : List (Mut K)} (h : (n, ms) ∈ net) (hne : ms ≠ []) :
    ∃ m, mutOf net n = some m := by
  unfold mutOf
  rw [get?_mem hd h]
  exact ⟨ms.getLast hne, List.getLast?_eq_some_getLast hne⟩

theorem mutsOf_spec (net : Net K) (ns : List K) : ∀ ms, mutsOf net ns = .ok ms → List.Forall₂ (Elem net) ns ms := by
  induction ns with
  | nil => intro ms h; simp only [mutsOf, Except.ok.injEq] at h; subst h; exact .nil
  | cons n ns ih =>
    intro ms h
    simp only [mutsOf] at h
    cases h1 : mutOf net n with
    | none => simp only [h1] at h; cases h
    | some m =>
      simp only [h1] at h
      cases h2 : mutsOf net ns with
      | error e => simp only [h2] at h; cases h
      | ok ms' =>
        simp only [h2, Except.ok.injEq] at h; subst h
        exact .cons h1 (ih _ h2)

theorem mutsOf_total (net : Net K) (ns : List K) (h : ∀ n ∈ ns, ∃ m, mutOf net n = some m) : ∃ ms, mutsOf net ns = .ok ms := by
  induction ns with
  | nil => exact ⟨[], rfl⟩
  | cons n ns ih =>
    obtain ⟨m, hm⟩ := h n (by simp)
    obtain ⟨ms, hms⟩ := ih (fun n hn => h n (by simp [hn]))
    exact ⟨m :: ms, by simp only [mutsOf, hm, hms]⟩

theorem forall2_append {A B : Type} {R : A → B → Prop} {a a' : List A} {b b' : List B}
    (h : List.Forall₂ R a b) (h' : List.Forall₂ R a' b') : List.Forall₂ R (a ++ a') (b ++ b') := by
  induction h with
  | nil => exact h'
  | cons x _ ih => exact .cons x ih

theorem forall2_left {A B : Type} {R : A → B → Prop} {a : List A} {b : List B} (h : List.Forall₂ R a b) {x : A}
    (hx : x ∈ a) : ∃ y ∈ b, R x y := by
  induction h with
  | nil => simp at hx
  | cons h _ ih =>
    rcases List.mem_cons.1 hx with rfl | hx
    · exact ⟨_, List.mem_cons_self, h⟩
    · obtain ⟨y, hy, hr⟩ := ih hx
      exact ⟨y, by simp [hy], hr⟩

theorem customItems_spec (net : Net K) (g : List K) : ∀ ms names als r, customItems net g (ms, names, als) = .ok r →
    ∃ xs, r.1 = ms ++ xs ∧ r.2.1 = names ++ g.flatMap (denoteNames net) ∧
      List.Forall₂ (Elem net) (g.flatMap (denoteNames net)) xs ∧
      r.2.2 = als ++ g.filter (fun a => decide (namesWith net a ≠ [])) := by
  induction g with
  | nil =>
    intro ms names als r h
    simp only [customItems, Except.ok.injEq] at h; subst h
    exact ⟨[], by simp⟩
  | cons item g ih =>
    intro ms names als r h
    simp only [customItems] at h
    rw [get?_aliasNames] at h
    by_cases hn : namesWith net item = []
    · rw [if_pos hn] at h
      simp only at h
      cases hm : mutOf net item with
      | none => simp only [hm] at h; cases h
      | some m =>
        simp only [hm] at h
        obtain ⟨xs, h1, h2, h3, h4⟩ := ih _ _ _ _ h
        have hdn : denoteNames net item = [item] := by simp [denoteNames, hn]
        refine ⟨m :: xs, by rw [h1]; simp, by rw [h2]; simp [hdn], ?_, by rw [h4]; simp [hn]⟩
        rw [List.flatMap_cons, hdn]; exact .cons hm h3
    · rw [if_neg hn] at h
      simp only at h
      cases hm : mutsOf net (namesWith net item) with
      | error e => simp only [hm] at h; cases h
      | ok ms' =>
        simp only [hm] at h
        obtain ⟨xs, h1, h2, h3, h4⟩ := ih _ _ _ _ h
        have hdn : denoteNames net item = namesWith net item := by simp [denoteNames, hn]
        refine ⟨ms' ++ xs, by rw [h1]; simp, by rw [h2]; simp [hdn], ?_, by rw [h4]; simp [hn]⟩
        rw [List.flatMap_cons, hdn]; exact forall2_append (mutsOf_spec _ _ _ hm) h3

theorem numbered_snoc {gs : List ((String × Nat) × List (Mut K))} (h : Numbered gs) (p : String) (ms : List (Mut K)) :
    Numbered (gs ++ [((p, gs.length), ms)]) := by
  intro i g hg
  rcases Nat.lt_trichotomy i gs.length with hi | hi | hi
  · rw [List.getElem?_append_left hi] at hg; exact h i g hg
  · subst hi; simp at hg; rw [← hg]
  · rw [List.getElem?_eq_none (by simp; omega)] at hg; cases hg

theorem customGroups_spec (net : Net K) (custom : List (List K)) : ∀ last b b', customGroups net custom last b = .ok b' →
    ∃ gs, b'.groups = b.groups ++ gs ∧
      List.Forall₂ (fun g grp => List.Forall₂ (Elem net) (g.flatMap (denoteNames net)) grp.2) custom gs ∧
      b'.names = b.names ++ custom.flatten.flatMap (denoteNames net) ∧
      b'.aliases = b.aliases ++ custom.flatten.filter (fun a => decide (namesWith net a ≠ [])) ∧
      (Numbered b.groups → Numbered b'.groups) := by
  induction custom with
  | nil =>
    intro last b b' h
    simp only [customGroups, Except.ok.injEq] at h; subst h
    exact ⟨[], by simp⟩
  | cons g custom ih =>
    intro last b b' h
    simp only [customGroups] at h
    cases hi : customItems net g ([], b.names, b.aliases) with
    | error e => simp only [hi] at h; cases h
    | ok r =>
      obtain ⟨ms, names, als⟩ := r
      simp only [hi] at h
      obtain ⟨xs, i1, i2, i3, i4⟩ := customItems_spec net g _ _ _ _ hi
      simp only [List.nil_append] at i1 i2 i4
      cases hl : lastItem g last with
      | none => simp only [hl] at h; cases h
      | some it =>
        simp only [hl] at h
        cases hm : mutOf net it with
        | none => simp only [hm] at h; cases h
        | some m =>
          simp only [hm] at h
          obtain ⟨gs, g1, g2, g3, g4, g5⟩ := ih _ _ _ h
          refine ⟨((m.pre, b.groups.length), ms) :: gs, ?_, ?_, ?_, ?_, ?_⟩
          · rw [g1]; simp
          · refine .cons ?_ g2
            rw [i1]; exact i3
          · rw [g3]; simp only [i2]; simp
          · rw [g4]; simp only [i4]; simp
          · intro hn; exact g5 (numbered_snoc hn _ _)

theorem aliasMembers_spec (net : Net K) (ns : List K) : ∀ ms names r, aliasMembers net ns (ms, names) = .ok r →
    ∃ new xs, r.1 = ms ++ xs ∧ r.2 = names ++ new ∧ List.Forall₂ (Elem net) new xs ∧ new.Nodup ∧
      (∀ n ∈ new, n ∉ names ∧ n ∈ ns) ∧ (∀ n ∈ ns, n ∉ names → n ∈ new) := by
  induction ns with
  | nil =>
    intro ms names r h
    simp only [aliasMembers, Except.ok.injEq] at h; subst h
    exact ⟨[], [], by simp⟩
  | cons n ns ih =>
    intro ms names r h
    simp only [aliasMembers] at h
    by_cases hn : n ∈ names
    · rw [if_pos hn] at h
      obtain ⟨new, xs, h1, h2, h3, h4, h5, h6⟩ := ih _ _ _ h
      refine ⟨new, xs, h1, h2, h3, h4, fun k hk => ⟨(h5 k hk).1, by simp [(h5 k hk).2]⟩, ?_⟩
      intro k hk hkn
      rcases List.mem_cons.1 hk with rfl | hk
      · exact absurd hn hkn
      · exact h6 k hk hkn
    · rw [if_neg hn] at h
      cases hm : mutOf net n with
      | none => simp only [hm] at h; cases h
      | some m =>
        simp only [hm] at h
        obtain ⟨new, xs, h1, h2, h3, h4, h5, h6⟩ := ih _ _ _ h
        refine ⟨n :: new, m :: xs, by rw [h1]; simp, by rw [h2]; simp, .cons hm h3, ?_, ?_, ?_⟩
        · rw [List.nodup_cons]
          exact ⟨fun hk => (h5 n hk).1 (by simp), h4⟩
        · intro k hk
          rcases List.mem_cons.1 hk with rfl | hk
          · exact ⟨hn, by simp⟩
          · have := h5 k hk
            exact ⟨fun h => this.1 (by simp [h]), by simp [this.2]⟩
        · intro k hk hkn
          rcases List.mem_cons.1 hk with rfl | hk
          · simp
          · by_cases hkn' : k = n
            · simp [hkn']
            · simp [h6 k hk (by simp [hkn, hkn'])]

theorem aliasGroups_spec (net : Net K) (al : List (K × List K)) : ∀ b b', aliasGroups net al b = .ok b' →
    ∃ gs new, b'.groups = b.groups ++ gs ∧ b'.names = b.names ++ new ∧
      List.Forall₂ (Elem net) new (gs.flatMap (·.2)) ∧ new.Nodup ∧ (∀ n ∈ new, n ∉ b.names) ∧
      (Numbered b.groups → Numbered b'.groups) ∧
      (∀ a ns n n' m m', (a, ns) ∈ al → a ∉ b.aliases → n ∈ ns → n' ∈ ns → n ∉ b.names → n' ∉ b.names →
        (∀ q ∈ al, n ∈ q.2 ∨ n' ∈ q.2 → q.1 = a) → (al.map (·.1)).Nodup → Elem net n m → Elem net n' m' →
        ∃ g ∈ gs, m ∈ g.2 ∧ m' ∈ g.2) := by
  induction al with
  | nil =>
    intro b b' h
    simp only [aliasGroups, Except.ok.injEq] at h; subst h
    refine ⟨[], [], by simp, by simp, by simp, by simp, by simp, by simp, by simp⟩
  | cons p al ih =>
    obtain ⟨a0, ns0⟩ := p
    intro b b' h
    simp only [aliasGroups] at h
    by_cases ha : a0 ∈ b.aliases
    · rw [if_pos ha] at h
      obtain ⟨gs, new, h1, h2, h3, h4, h5, h6, h7⟩ := ih _ _ h
      refine ⟨gs, new, h1, h2, h3, h4, h5, h6, ?_⟩
      intro a ns n n' m m' hmem haa hn hn' hnb hnb' hq hnd
      rcases List.mem_cons.1 hmem with he | he
      · cases he; exact absurd ha haa
      · exact h7 a ns n n' m m' he haa hn hn' hnb hnb' (fun q hq' => hq q (by simp [hq'])) (by simp at hnd; simpa using hnd.2)
    · rw [if_neg ha] at h
      by_cases hall : ns0.all (fun n => decide (n ∈ b.names)) = true
      · rw [if_pos hall] at h
        obtain ⟨gs, new, h1, h2, h3, h4, h5, h6, h7⟩ := ih _ _ h
        refine ⟨gs, new, h1, h2, h3, h4, h5, h6, ?_⟩
        intro a ns n n' m m' hmem haa hn hn' hnb hnb' hq hnd
        rcases List.mem_cons.1 hmem with he | he
        · cases he
          simp only [List.all_eq_true, decide_eq_true_eq] at hall
          exact absurd (hall n hn) hnb
        · exact h7 a ns n n' m m' he haa hn hn' hnb hnb' (fun q hq' => hq q (by simp [hq'])) (by simp at hnd; simpa using hnd.2)
      · rw [if_neg hall] at h
        cases hm0 : (ns0.head?).bind (mutOf net) with
        | none => simp only [hm0] at h; cases h
        | some m0 =>
          simp only [hm0] at h
          cases hr : aliasMembers net ns0 ([], b.names) with
          | error e => simp only [hr] at h; cases h
          | ok r =>
            obtain ⟨ms, names⟩ := r
            simp only [hr] at h
            obtain ⟨nw, xs, r1, r2, r3, r4, r5, r6⟩ := aliasMembers_spec net ns0 _ _ _ hr
            simp only [List.nil_append] at r1 r2
            obtain ⟨gs, new, h1, h2, h3, h4, h5, h6, h7⟩ := ih _ _ h
            simp only [r2] at h2 h5 h7
            subst r1
            refine ⟨((m0.pre, b.groups.length), ms) :: gs, nw ++ new, by rw [h1]; simp, by rw [h2]; simp, ?_, ?_, ?_, ?_, ?_⟩
            · rw [List.flatMap_cons]; exact forall2_append r3 h3
            · rw [List.nodup_append]
              refine ⟨r4, h4, ?_⟩
              rintro x hx y hy rfl
              exact h5 x hy (by simp [hx])
            · intro n hn
              rcases List.mem_append.1 hn with hn | hn
              · exact (r5 n hn).1
              · intro hb; exact h5 n hn (by simp [hb])
            · intro hN; exact h6 (numbered_snoc hN _ _)
            · intro a ns n n' m m' hmem haa hn hn' hnb hnb' hq hnd hem hem'
              rcases List.mem_cons.1 hmem with he | he
              · cases he
                refine ⟨_, List.mem_cons_self, ?_, ?_⟩
                · obtain ⟨i, hi, hi'⟩ := List.getElem_of_mem (r6 n hn hnb)
                  have := List.Forall₂.get r3 hi (by rw [← r3.length_eq]; exact hi)
                  simp only [List.get_eq_getElem, hi', Elem] at this
                  have e : m = ms[i]'(by rw [← r3.length_eq]; exact hi) := Option.some.inj (hem.symm.trans this)
                  rw [e]; exact List.getElem_mem _
                · obtain ⟨i, hi, hi'⟩ := List.getElem_of_mem (r6 n' hn' hnb')
                  have := List.Forall₂.get r3 hi (by rw [← r3.length_eq]; exact hi)
                  simp only [List.get_eq_getElem, hi', Elem] at this
                  have e : m' = ms[i]'(by rw [← r3.length_eq]; exact hi) := Option.some.inj (hem'.symm.trans this)
                  rw [e]; exact List.getElem_mem _
              · have hne : a0 ≠ a := by
                  rintro rfl
                  simp only [List.map_cons, List.nodup_cons] at hnd
                  exact hnd.1 (List.mem_map.2 ⟨_, he, rfl⟩)
                have hx : ∀ k, k = n ∨ k = n' → k ∉ nw := by
                  intro k hk hkn
                  have := (r5 k hkn).2
                  exact hne (hq (a0, ns0) (by simp) (by rcases hk with rfl | rfl <;> simp [this]))
                obtain ⟨g, hg, hgm⟩ := h7 a ns n n' m m' he haa hn hn'
                  (by simp [hnb, hx n (Or.inl rfl)]) (by simp [hnb', hx n' (Or.inr rfl)])
                  (fun q hq' => hq q (by simp [hq'])) (by simp at hnd; simpa using hnd.2) hem hem'
                exact ⟨g, by simp [hg], hgm⟩

theorem addSingles_spec (ms : List (Mut K)) : ∀ b, ∃ gs, (addSingles ms b).groups = b.groups ++ gs ∧
    gs.flatMap (·.2) = ms ∧ (addSingles ms b).names = b.names ∧ (Numbered b.groups → Numbered (addSingles ms b).groups) := by
  induction ms with
  | nil => intro b; exact ⟨[], by simp [addSingles]⟩
  | cons m ms ih =>
    intro b
    obtain ⟨gs, h1, h2, h3, h4⟩ := ih ⟨b.groups ++ [((m.pre, b.groups.length), [m])], b.names, b.aliases⟩
    refine ⟨((m.pre, b.groups.length), [m]) :: gs, ?_, ?_, ?_, ?_⟩
    · simp only [addSingles, h1]; simp
    · simp [h2]
    · simp only [addSingles]; exact h3
    · intro hN; simp only [addSingles]; exact h4 (numbered_snoc hN _ _)

theorem singles_spec (net : Net K) : ∀ b, ∃ gs, (singles net b).groups = b.groups ++ gs ∧
    gs.flatMap (·.2) = (net.filter (fun e => decide (e.1 ∉ b.names))).flatMap (·.2) ∧ (singles net b).names = b.names ∧
    (Numbered b.groups → Numbered (singles net b).groups) := by
  induction net with
  | nil => intro b; exact ⟨[], by simp [singles]⟩
  | cons e net ih =>
    intro b
    obtain ⟨n, ms⟩ := e
    simp only [singles]
    by_cases hn : n ∈ b.names
    · rw [if_pos hn]
      obtain ⟨gs, h1, h2, h3, h4⟩ := ih b
      exact ⟨gs, h1, by rw [h2]; simp [hn], h3, h4⟩
    · rw [if_neg hn]
      obtain ⟨gs, h1, h2, h3, h4⟩ := addSingles_spec ms b
      obtain ⟨gs', k1, k2, k3, k4⟩ := ih (addSingles ms b)
      refine ⟨gs ++ gs', by rw [k1, h1]; simp, ?_, by rw [k3, h3], fun h => k4 (h4 h)⟩
      rw [List.flatMap_append, h2, k2, h3]
      simp [hn]

theorem forall2_elem_flat {net : Net K} {ns : List K} {ms : List (Mut K)} (h : List.Forall₂ (Elem net) ns ms) :
    ms = ns.flatMap (fun n => (mutOf net n).toList) := by
  induction h with
  | nil => rfl
  | cons h _ ih => rw [List.flatMap_cons, h, ← ih]; rfl

theorem flat_net {net : Net K} (hs : Simple net) (l : Net K) (hl : ∀ e ∈ l, e ∈ net) :
    l.flatMap (·.2) = (l.map (·.1)).flatMap (fun n => (mutOf net n).toList) := by
  induction l with
  | nil => rfl
  | cons e l ih =>
    rw [List.flatMap_cons, List.map_cons, List.flatMap_cons, ih (fun e he => hl e (by simp [he]))]
    congr 1
    rw [mutOf_mem hs (hl e (by simp))]
    have := hs.2 e (hl e (by simp))
    match h : e.2, this with
    | [], _ => rfl
    | [m], _ => rfl
    | _ :: _ :: _, hl => simp at hl

/-- What a successful build consists of. -/
theorem build_ok {net : Net K} {custom : List (List K)} {gs : List ((String × Nat) × List (Mut K))}
    (h : build net custom = .ok gs) : ∃ b1 b2, customGroups net custom none ⟨[], [], []⟩ = .ok b1 ∧
      aliasGroups net (aliasNames net) b1 = .ok b2 ∧ (singles net b2).names.Nodup ∧ gs = (singles net b2).groups ∧
      (custom = [] ∨ checkValid net custom = .ok ()) := by
  have hr : buildRest net custom = .ok gs ∧ (custom = [] ∨ checkValid net custom = .ok ()) := by
    unfold build at h
    split at h
    · rename_i hc; exact ⟨h, Or.inl hc⟩
    · cases hv : checkValid net custom with
      | error e => simp only [hv] at h; cases h
      | ok u => simp only [hv] at h; exact ⟨h, Or.inr rfl⟩
  obtain ⟨hr, hv⟩ := hr
  unfold buildRest at hr
  cases h1 : customGroups net custom none ⟨[], [], []⟩ with
  | error e => simp only [h1] at hr; cases hr
  | ok b1 =>
    simp only [h1] at hr
    cases h2 : aliasGroups net (aliasNames net) b1 with
    | error e => simp only [h2] at hr; cases hr
    | ok b2 =>
      simp only [h2, finish] at hr
      split at hr
      · rename_i hn; simp only [Except.ok.injEq] at hr
        exact ⟨b1, b2, rfl, h2, hn, hr.symm, hv⟩
      · cases hr

theorem denoteNames_ne (net : Net K) (x : K) : denoteNames net x ≠ [] := by
  unfold denoteNames; split
  · simp
  · assumption

theorem flatMap_nodup {f : K → List K} (hf : ∀ x, f x ≠ []) (l : List K) (h : (l.flatMap f).Nodup) : l.Nodup := by
  induction l with
  | nil => simp
  | cons x l ih =>
    rw [List.flatMap_cons, List.nodup_append] at h
    rw [List.nodup_cons]
    refine ⟨?_, ih h.2.1⟩
    intro hx
    obtain ⟨y, hy⟩ := List.exists_mem_of_ne_nil _ (hf x)
    exact h.2.2 y hy y (List.mem_flatMap.2 ⟨x, hx, hy⟩) rfl

theorem customItems_total (net : Net K) (g : List K)
    (hg : ∀ x ∈ g, ∀ n ∈ denoteNames net x, ∃ m, mutOf net n = some m) : ∀ r, ∃ r', customItems net g r = .ok r' := by
  induction g with
  | nil => intro r; exact ⟨r, by simp [customItems]⟩
  | cons x g ih =>
    intro r
    obtain ⟨ms, names, als⟩ := r
    have ih' := ih (fun y hy => hg y (by simp [hy]))
    have hx := hg x (by simp)
    simp only [customItems]
    rw [get?_aliasNames]
    unfold denoteNames at hx
    by_cases hn : namesWith net x = []
    · rw [if_pos hn] at hx ⊢
      obtain ⟨m, hm⟩ := hx x (by simp)
      simp only [hm]
      exact ih' _
    · rw [if_neg hn] at hx ⊢
      obtain ⟨ms', hm⟩ := mutsOf_total net _ hx
      simp only [hm]
      exact ih' _

theorem customGroups_total (net : Net K) (custom : List (List K))
    (hg : ∀ g ∈ custom, ∀ x ∈ g, ∀ n ∈ denoteNames net x, ∃ m, mutOf net n = some m)
    (hl : ∀ g ∈ custom, ∃ x m, g.getLast? = some x ∧ mutOf net x = some m) :
    ∀ last b, ∃ b', customGroups net custom last b = .ok b' := by
  induction custom with
  | nil => intro last b; exact ⟨b, by simp [customGroups]⟩
  | cons g custom ih =>
    intro last b
    obtain ⟨⟨ms, names, als⟩, hr⟩ := customItems_total net g (hg g (by simp)) ([], b.names, b.aliases)
    obtain ⟨x, m, hx, hm⟩ := hl g (by simp)
    have hli : lastItem g last = some x := by simp [lastItem, hx]
    simp only [customGroups, hr, hli, hm]
    exact ih (fun g hg' => hg g (by simp [hg'])) (fun g hg' => hl g (by simp [hg'])) _ _

theorem aliasMembers_total (net : Net K) (ns : List K) (h : ∀ n ∈ ns, ∃ m, mutOf net n = some m) :
    ∀ r, ∃ r', aliasMembers net ns r = .ok r' := by
  induction ns with
  | nil => intro r; exact ⟨r, by simp [aliasMembers]⟩
  | cons n ns ih =>
    intro r
    obtain ⟨ms, names⟩ := r
    obtain ⟨m, hm⟩ := h n (by simp)
    simp only [aliasMembers, hm]
    split <;> exact ih (fun k hk => h k (by simp [hk])) _

theorem aliasGroups_total (net : Net K) (al : List (K × List K))
    (h : ∀ p ∈ al, p.2 ≠ [] ∧ ∀ n ∈ p.2, ∃ m, mutOf net n = some m) : ∀ b, ∃ b', aliasGroups net al b = .ok b' := by
  induction al with
  | nil => intro b; exact ⟨b, by simp [aliasGroups]⟩
  | cons p al ih =>
    intro b
    obtain ⟨a, ns⟩ := p
    have ih' := ih (fun q hq => h q (by simp [hq]))
    obtain ⟨hne, hns⟩ := h (a, ns) (by simp)
    simp only [aliasGroups]
    split
    · exact ih' b
    split
    · exact ih' b
    · obtain ⟨⟨ms, names⟩, hr⟩ := aliasMembers_total net ns hns ([], b.names)
      cases ns with
      | nil => exact absurd rfl hne
      | cons n ns =>
        obtain ⟨m, hm⟩ := hns n (by simp)
        simp only [List.head?_cons, Option.bind_some, hm, hr]
        exact ih' _

theorem namesWith_nodup {net : Net K} (hs : Simple net) (a : K) : (namesWith net a).Nodup := by
  have : (aliasPairs net).map (·.2) |>.Sublist (net.map (·.1)) := by
    have hl := hs.2
    clear hs
    unfold aliasPairs
    induction net with
    | nil => simp
    | cons e net ih =>
      rw [List.flatMap_cons, List.map_append, List.map_cons]
      have h1 := ih (fun e he => hl e (by simp [he]))
      have h2 := hl e (by simp)
      match h : e.2, h2 with
      | [], _ => simpa using h1.trans (List.sublist_cons_self _ _)
      | [m], _ =>
        cases hm : m.aka with
        | none => simpa [hm] using h1.trans (List.sublist_cons_self _ _)
        | some a => simpa [hm] using h1
      | _ :: _ :: _, hl => simp at hl
  exact ((List.filter_sublist.map _).trans this).nodup hs.1

end Verif.Groups
