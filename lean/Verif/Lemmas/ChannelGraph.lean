import Verif.Spec.ChannelGraph

/-! Helper lemmas for `Verif/Props/ChannelGraph.lean`. -/

namespace Verif.ChannelGraph
open Verif

theorem has_in {k : Kind} {n : Nat} {ps : List Pre} (h : Has k n ps) : inChannels k ps = n := by
  cases k with
  | module m => exact h
  | first => cases ps with
    | nil => simp [Has] at h
    | cons p ps => simpa [Has, inChannels] using h

theorem has_append {k : Kind} {n : Nat} {ps qs : List Pre} (h : Has k n ps) : Has k n (ps ++ qs) := by
  cases k with
  | module m => exact h
  | first => cases ps with
    | nil => simp [Has] at h
    | cons p ps => simpa [Has] using h

theorem has_remove {k : Kind} {n : Nat} {ps qs : List Pre} {p : Pre} (h : Has k n (ps ++ p :: qs))
    (hp : p.out ≠ n) : Has k n (ps ++ qs) := by
  cases k with
  | module m => exact h
  | first => cases ps with
    | nil => simp [Has, hp] at h
    | cons p ps => simpa [Has] using h

theorem body_ok {k : Kind} {n : Nat} {s : S} {p : Pre} (hH : Has k n s.prev) (hp : 0 < p.out) :
    body k s p = .ok (if Needs n p then
      ⟨(s.prev ++ [Pre.mk (.expand s.made.length) n]).erase p, s.made ++ [(p.name, n / p.out)]⟩ else s) := by
  unfold body
  rw [has_in hH]
  dsimp only
  by_cases h1 : p.out < n
  · rw [if_pos h1, if_neg (by omega)]
    by_cases h2 : n % p.out = 0
    · rw [if_pos h2, if_pos ⟨h1, Nat.dvd_of_mod_eq_zero h2⟩, Nat.mul_div_cancel' (Nat.dvd_of_mod_eq_zero h2)]
    · rw [if_neg h2, if_neg (fun h => h2 (Nat.mod_eq_zero_of_dvd h.2))]
  · rw [if_neg h1, if_neg (fun h => h1 h.1)]

theorem loop_news {k : Kind} {n : Nat} : ∀ fuel i (s : S), Has k n s.prev → (∀ j p, i ≤ j → s.prev[j]? = some p → p.out = n) →
    0 < n → loop k fuel i s = .ok s := by
  intro fuel
  induction fuel with
  | zero => intro i s _ _ _; rfl
  | succ fuel ih =>
    intro i s hH hn h0
    simp only [loop]
    cases hp : s.prev[i]? with
    | none => rfl
    | some p =>
      have hpn := hn i p (le_refl _) hp
      have hb := body_ok (p := p) hH (by omega)
      rw [if_neg (by intro h; have := h.1; omega)] at hb
      simp only [hb]
      exact ih (i + 1) s hH (fun j q hj hq => hn j q (by omega) hq) h0

theorem loop_spec {k : Kind} {n : Nat} (h0 : 0 < n) : ∀ (m : Nat) (rest done news : List Pre) (made : List (Name × Nat)) (fuel : Nat),
    rest.length ≤ m → rest.length ≤ fuel →
    Has k n (done ++ rest) → (∀ p ∈ done ++ rest, 0 < p.out) → (done ++ rest).Nodup → Apart n rest →
    (∀ p ∈ done, ¬ Needs n p) → (∀ p ∈ news, p.out = n) →
    ∃ xs : List Pre, loop k fuel done.length ⟨done ++ rest ++ news, made⟩ =
      .ok ⟨done ++ rest.filter (fun p => decide (¬ Needs n p)) ++ news ++ xs,
        made ++ (rest.filter (fun p => decide (Needs n p))).map (fun p => (p.name, n / p.out))⟩ ∧
      xs = ((rest.filter (fun p => decide (Needs n p))).zipIdx made.length).map (fun q => ⟨.expand q.2, n⟩) := by
  intro m
  induction m using Nat.strong_induction_on with
  | _ m ih =>
    intro rest done news made fuel hm hf hH hpos hnd hap hdone hnews
    cases rest with
    | nil =>
      refine ⟨[], ?_, rfl⟩
      simp only [List.filter_nil, List.map_nil, List.append_nil]
      refine loop_news _ _ _ (has_append (by simpa using hH)) ?_ h0
      intro j p hj hp
      simp only [List.append_nil] at hp
      rw [List.getElem?_append_right (by simpa using hj)] at hp
      exact hnews p (List.mem_of_getElem? hp)
    | cons p rest =>
      obtain ⟨fuel, rfl⟩ : ∃ f, fuel = f + 1 := ⟨fuel - 1, by simp at hf; omega⟩
      simp only [List.length_cons] at hm hf
      have hget : (done ++ p :: rest ++ news)[done.length]? = some p := by simp
      have hpp : 0 < p.out := hpos p (by simp)
      have hH' : Has k n (S.mk (done ++ p :: rest ++ news) made).prev := has_append hH
      have hb := body_ok (p := p) hH' hpp
      simp only [loop, hget, hb]
      by_cases hneed : Needs n p
      · rw [if_pos hneed]
        have hpd : p ∉ done := by
          intro h
          rw [List.nodup_append] at hnd
          exact hnd.2.2 p h p (by simp) rfl
        have her : (done ++ p :: rest ++ news ++ [Pre.mk (Name.expand made.length) n]).erase p
            = done ++ rest ++ (news ++ [Pre.mk (Name.expand made.length) n]) := by
          rw [List.append_assoc, List.append_assoc, List.erase_append_right _ hpd]
          simp
        simp only [her]
        have hHr : Has k n (done ++ rest) := has_remove hH (by have := hneed.1; omega)
        have hnews' : ∀ q ∈ news ++ [Pre.mk (Name.expand made.length) n], q.out = n := by
          intro q hq
          rcases List.mem_append.1 hq with h | h
          · exact hnews q h
          · simp at h; rw [h]
        cases rest with
        | nil =>
          refine ⟨[Pre.mk (Name.expand made.length) n], ?_, by simp [hneed]⟩
          rw [loop_news _ _ _ (has_append hHr) _ h0]
          · simp [hneed]
          · intro j q hj hq
            simp only [List.append_nil] at hq
            rw [List.getElem?_append_right (by omega)] at hq
            exact hnews' q (List.mem_of_getElem? hq)
        | cons q rest =>
          have hnq : ¬ Needs n q := by
            have := (List.isChain_cons_cons.1 hap).1
            intro h; exact this ⟨hneed, h⟩
          simp only [List.length_cons] at hm hf
          obtain ⟨xs, h1, h2⟩ := ih (m - 2) (by omega) rest (done ++ [q]) (news ++ [Pre.mk (Name.expand made.length) n])
            (made ++ [(p.name, n / p.out)]) fuel (by omega) (by omega) (by simpa using hHr)
            (fun r hr => hpos r (by simp at hr ⊢; tauto))
            (by have := hnd.sublist (List.Sublist.append_left (List.sublist_cons_self p (q :: rest)) done)
                simpa using this)
            (List.IsChain.tail (List.isChain_cons_cons.1 hap).2)
            (by intro r hr; rcases List.mem_append.1 hr with h | h
                · exact hdone r h
                · simp at h; rw [h]; exact hnq)
            hnews'
          refine ⟨Pre.mk (Name.expand made.length) n :: xs, ?_, ?_⟩
          · simp only [List.length_append, List.length_cons, List.length_nil] at h1
            have e : done ++ q :: rest ++ (news ++ [Pre.mk (Name.expand made.length) n])
              = done ++ [q] ++ rest ++ (news ++ [Pre.mk (Name.expand made.length) n]) := by simp
            rw [e]
            rw [Nat.zero_add] at h1
            rw [h1]
            simp [hneed, hnq]
          · rw [h2]; simp [hneed, hnq]
      · rw [if_neg hneed]
        obtain ⟨xs, h1, h2⟩ := ih (m - 1) (by omega) rest (done ++ [p]) news made fuel (by omega) (by omega)
          (by simpa using hH) (fun r hr => hpos r (by simp at hr ⊢; tauto)) (by simpa using hnd)
          (List.IsChain.tail hap)
          (by intro r hr; rcases List.mem_append.1 hr with h | h
              · exact hdone r h
              · simp at h; rw [h]; exact hneed) hnews
        refine ⟨xs, ?_, ?_⟩
        · have e : done ++ p :: rest ++ news = done ++ [p] ++ rest ++ news := by simp
          rw [e]
          simp only [List.length_append, List.length_cons, List.length_nil, Nat.zero_add] at h1
          rw [h1]
          simp [hneed]
        · rw [h2]; simp [hneed]

theorem mem_addNew {A : Type} [DecidableEq A] (l : List A) (x y : A) : y ∈ addNew l x ↔ y ∈ l ∨ y = x := by
  unfold addNew
  split
  · constructor
    · exact Or.inl
    · rintro (h | rfl) <;> assumption
  · simp

theorem nodup_addNew {A : Type} [DecidableEq A] {l : List A} (h : l.Nodup) (x : A) : (addNew l x).Nodup := by
  unfold addNew
  split
  · exact h
  · rename_i hx; rw [List.nodup_append]; simp [h]; intro a ha; rintro rfl; exact hx ha

theorem keys_addEntry {N H : Type} [DecidableEq N] [DecidableEq H] (o : Bool) (h : H) (c : Chan N) (d : List (H × Unit' N)) :
    ∀ x, x ∈ (addEntry o h c d).map (·.1) ↔ x ∈ d.map (·.1) ∨ x = h := by
  induction d with
  | nil => intro x; simp [addEntry]
  | cons p d ih =>
    obtain ⟨h', u⟩ := p
    intro x
    simp only [addEntry]
    split
    · rename_i hh; subst hh; simp; tauto
    · simp only [List.map_cons, List.mem_cons, ih]; tauto

theorem nodup_addEntry {N H : Type} [DecidableEq N] [DecidableEq H] (o : Bool) (h : H) (c : Chan N) (d : List (H × Unit' N))
    (hd : (d.map (·.1)).Nodup) : ((addEntry o h c d).map (·.1)).Nodup := by
  induction d with
  | nil => simp [addEntry]
  | cons p d ih =>
    obtain ⟨h', u⟩ := p
    simp only [List.map_cons, List.nodup_cons] at hd
    simp only [addEntry]
    split
    · simpa using hd
    · rename_i hne
      simp only [List.map_cons, List.nodup_cons, keys_addEntry]
      exact ⟨fun h => h.elim hd.1 hne, ih hd.2⟩

theorem listed_addEntry {N H : Type} [DecidableEq N] [DecidableEq H] (o : Bool) (h : H) (c : Chan N) (d : List (H × Unit' N))
    (hd : (d.map (·.1)).Nodup) (o' : Bool) (h' : H) (c' : Chan N) :
    Listed (addEntry o h c d) o' h' c' ↔ Listed d o' h' c' ∨ (o' = o ∧ h' = h ∧ c' = c) := by
  induction d with
  | nil =>
    simp only [Listed, addEntry, List.mem_singleton, Prod.mk.injEq, List.not_mem_nil, false_and, exists_false, false_or]
    constructor
    · rintro ⟨u, ⟨rfl, rfl⟩, hc⟩
      cases o <;> cases o' <;> simp [side] at hc ⊢ <;> exact hc
    · rintro ⟨rfl, rfl, rfl⟩
      exact ⟨_, ⟨rfl, rfl⟩, by cases o' <;> simp [side]⟩
  | cons p d ih =>
    obtain ⟨k, u⟩ := p
    simp only [List.map_cons, List.nodup_cons] at hd
    have hcons : ∀ (u : Unit' N) (e : List (H × Unit' N)), Listed ((k, u) :: e) o' h' c' ↔ (h' = k ∧ c' ∈ side o' u) ∨ Listed e o' h' c' := by
      intro u e
      constructor
      · rintro ⟨v, hv, hc⟩
        rcases List.mem_cons.1 hv with hv | hv
        · cases hv; exact Or.inl ⟨rfl, hc⟩
        · exact Or.inr ⟨v, hv, hc⟩
      · rintro (⟨rfl, hc⟩ | ⟨v, hv, hc⟩)
        · exact ⟨u, by simp, hc⟩
        · exact ⟨v, by simp [hv], hc⟩
    simp only [addEntry]
    split
    · rename_i hk; subst hk
      rw [hcons, hcons]
      cases o <;> cases o' <;> simp [side, mem_addNew] <;> tauto
    · rw [hcons, hcons, ih hd.2]; tauto

theorem process_spec {N H : Type} [DecidableEq N] [DecidableEq H] (name : N) (o : Bool) (rs : List ((Nat × Nat) × H)) :
    ∀ d : List (H × Unit' N), (d.map (·.1)).Nodup →
      ((processTensor name o rs d).map (·.1)).Nodup ∧
      ∀ o' h' c', Listed (processTensor name o rs d) o' h' c' ↔
        Listed d o' h' c' ∨ (o' = o ∧ ∃ r ∈ rs, r.2 = h' ∧ c' = ⟨name, r.1.1, r.1.2⟩) := by
  induction rs with
  | nil => intro d hd; exact ⟨hd, by simp [processTensor]⟩
  | cons r rs ih =>
    intro d hd
    obtain ⟨r, h⟩ := r
    obtain ⟨a, b⟩ := ih _ (nodup_addEntry o h ⟨name, r.1, r.2⟩ d hd)
    refine ⟨a, ?_⟩
    intro o' h' c'
    simp only [processTensor]
    rw [b, listed_addEntry _ _ _ _ hd]
    simp only [List.exists_mem_cons_iff]
    constructor
    · rintro ((h | ⟨rfl, rfl, rfl⟩) | h)
      · exact Or.inl h
      · exact Or.inr ⟨rfl, Or.inl ⟨rfl, rfl⟩⟩
      · exact Or.inr ⟨h.1, Or.inr h.2⟩
    · rintro (h | ⟨rfl, ⟨rfl, rfl⟩ | h⟩)
      · exact Or.inl (Or.inl h)
      · exact Or.inl (Or.inr ⟨rfl, rfl, rfl⟩)
      · exact Or.inr ⟨rfl, h⟩

theorem collect_spec {N H : Type} [DecidableEq N] [DecidableEq H] (ns : List (NodeRanges N H)) :
    ∀ d : List (H × Unit' N), (d.map (·.1)).Nodup →
      ((collect ns d).map (·.1)).Nodup ∧
      ∀ o h c, Listed (collect ns d) o h c ↔
        Listed d o h c ∨ ∃ n ∈ ns, ∃ r ∈ nodeSide o n, r.2 = h ∧ c = ⟨n.name, r.1.1, r.1.2⟩ := by
  induction ns with
  | nil => intro d hd; exact ⟨hd, by simp [collect]⟩
  | cons n ns ih =>
    intro d hd
    obtain ⟨a1, b1⟩ := process_spec n.name true n.out d hd
    obtain ⟨a2, b2⟩ := process_spec n.name false n.inp _ a1
    obtain ⟨a3, b3⟩ := ih _ a2
    refine ⟨a3, ?_⟩
    intro o h c
    simp only [collect]
    rw [b3, b2, b1]
    simp only [List.exists_mem_cons_iff]
    cases o <;> simp [nodeSide, or_assoc]

theorem minNum_le {N : Type} (cs : List (Chan N)) : ∀ m, (cs.foldl (fun m c => min m (c.stop - c.start)) m ≤ m ∧
    (∀ c ∈ cs, cs.foldl (fun m c => min m (c.stop - c.start)) m ≤ c.stop - c.start) ∧
    (cs.foldl (fun m c => min m (c.stop - c.start)) m = m ∨
      ∃ c ∈ cs, cs.foldl (fun m c => min m (c.stop - c.start)) m = c.stop - c.start)) := by
  induction cs with
  | nil => intro m; simp
  | cons c cs ih =>
    intro m
    obtain ⟨h1, h2, h3⟩ := ih (min m (c.stop - c.start))
    simp only [List.foldl_cons]
    refine ⟨le_trans h1 (Nat.min_le_left _ _), ?_, ?_⟩
    · intro x hx
      rcases List.mem_cons.1 hx with rfl | hx
      · exact le_trans h1 (Nat.min_le_right _ _)
      · exact h2 x hx
    · rcases h3 with h3 | ⟨x, hx, h3⟩
      · rcases Nat.le_total m (c.stop - c.start) with h | h
        · left; rw [h3, Nat.min_eq_left h]
        · right; exact ⟨c, by simp, by rw [h3, Nat.min_eq_right h]⟩
      · right; exact ⟨x, by simp [hx], h3⟩

end Verif.ChannelGraph
