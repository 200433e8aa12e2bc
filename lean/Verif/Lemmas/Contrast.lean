import Verif.Spec.Contrast

/-! Helper lemmas for `Verif/Props/Contrast.lean`. -/

namespace Verif.Contrast
open Verif

/-- The mass of outcome `j` while the rows of `u` wait for their alias. -/
def mass (n : ℕ) (t : Table) (u : Finset ℕ) (j : ℕ) : ℚ :=
  t.prob j + ∑ k ∈ Finset.range n \ u, (1 - t.prob k) * (if t.alias' k = j then 1 else 0)

/-- What the loops keep. -/
structure Inv (n : ℕ) (p : ℕ → ℚ) (t : Table) : Prop where
  nodup : (t.smaller ++ t.larger).Nodup
  lt : ∀ k ∈ t.smaller ++ t.larger, k < n
  small : ∀ k ∈ t.smaller, 0 ≤ t.prob k ∧ t.prob k < 1
  large : ∀ k ∈ t.larger, 1 ≤ t.prob k
  done : ∀ k < n, k ∉ t.smaller ++ t.larger → 0 ≤ t.prob k ∧ t.prob k ≤ 1 ∧ t.alias' k < n
  mass : ∀ j < n, mass n t (t.smaller ++ t.larger).toFinset j = n * p j
  total : ∑ k ∈ (t.smaller ++ t.larger).toFinset, t.prob k = (t.smaller ++ t.larger).length

theorem draw_true (t : Table) (k : ℕ) : draw t k true = k := by simp [draw]

theorem draw_false (t : Table) (k : ℕ) : draw t k false = t.alias' k := by simp [draw]

theorem inv_step {n : ℕ} {p : ℕ → ℚ} {t : Table} {s l : ℕ} {ss ls : List ℕ} (hs : t.smaller = s :: ss) (hl : t.larger = l :: ls)
    (h : Inv n p t) : Inv n p (pairOne t s l ss ls) := by
  obtain ⟨nd, lt, sm, la, dn, ms, tot⟩ := h
  rw [hs, hl] at nd lt dn ms tot
  rw [hs] at sm
  rw [hl] at la
  have hsl : s ≠ l := by
    intro e; rw [e] at nd; simp at nd
  have hs' := sm s (by simp)
  have hl' := la l (by simp)
  have nd' : (l :: (ss ++ ls)).Nodup ∧ s ∉ ss ++ ls := by
    have : (s :: (ss ++ l :: ls)).Nodup := nd
    rw [List.nodup_cons, List.perm_middle.nodup_iff] at this
    refine ⟨this.2, fun hm => this.1 ?_⟩
    rcases List.mem_append.1 hm with hm | hm <;> simp [hm]
  set q := (t.prob l - 1) + t.prob s with hq
  have hq0 : 0 ≤ q := by rw [hq]; linarith [hs'.1]
  -- the new lists hold `l` and the rest, in some order
  have perm : ((pairOne t s l ss ls).smaller ++ (pairOne t s l ss ls).larger).Perm (l :: (ss ++ ls)) := by
    unfold pairOne
    dsimp only
    split_ifs
    · exact List.Perm.refl _
    · exact List.perm_middle
  have ep : (pairOne t s l ss ls).prob = Function.update t.prob l q := by
    unfold pairOne; dsimp only; split_ifs <;> rfl
  have ea : (pairOne t s l ss ls).alias' = Function.update t.alias' s l := by
    unfold pairOne; dsimp only; split_ifs <;> rfl
  have mem : ∀ k, k ∈ (pairOne t s l ss ls).smaller ++ (pairOne t s l ss ls).larger ↔ k = l ∨ k ∈ ss ++ ls := by
    intro k; rw [perm.mem_iff]; simp
  have fs : ((pairOne t s l ss ls).smaller ++ (pairOne t s l ss ls).larger).toFinset = insert l (ss ++ ls).toFinset := by
    rw [List.toFinset_eq_of_perm _ _ perm]; simp
  have fo : (s :: ss ++ l :: ls).toFinset = insert s (insert l (ss ++ ls).toFinset) := by
    ext k; simp
  have lnot : l ∉ (ss ++ ls).toFinset := by
    have := (List.nodup_cons.1 nd'.1).1; simpa using this
  have snot : s ∉ insert l (ss ++ ls).toFinset := by
    have := nd'.2
    simp only [Finset.mem_insert, List.mem_toFinset]
    rintro (e | e)
    · exact hsl e
    · exact this e
  have hsn : s < n := lt s (by simp)
  have hln : l < n := lt l (by simp)
  have upd : ∀ k, k ≠ l → Function.update t.prob l q k = t.prob k := fun k hk => Function.update_of_ne hk _ _
  have updl : Function.update t.prob l q l = q := Function.update_self _ _ _
  refine ⟨?_, ?_, ?_, ?_, ?_, ?_, ?_⟩
  · exact perm.nodup_iff.2 nd'.1
  · intro k hk
    rcases (mem k).1 hk with rfl | hk
    · exact hln
    · exact lt k (by rcases List.mem_append.1 hk with hk | hk <;> simp [hk])
  · intro k hk
    rw [ep]
    by_cases e : k = l
    · subst e
      rw [updl]
      refine ⟨hq0, ?_⟩
      by_contra hn
      have : (pairOne t s k ss ls).smaller = ss := by
        unfold pairOne; dsimp only; rw [if_neg hn]
      rw [this] at hk
      exact lnot (by simp [hk])
    · rw [upd k e]
      have : k ∈ ss := by
        have e2 : (pairOne t s l ss ls).smaller = l :: ss ∨ (pairOne t s l ss ls).smaller = ss := by
          unfold pairOne; dsimp only; split_ifs
          · exact Or.inl rfl
          · exact Or.inr rfl
        rcases e2 with e2 | e2 <;> rw [e2] at hk
        · exact (List.mem_cons.1 hk).resolve_left e
        · exact hk
      exact sm k (by simp [this])
  · intro k hk
    rw [ep]
    by_cases e : k = l
    · subst e
      rw [updl]
      by_contra hn
      have : (pairOne t s k ss ls).larger = ls := by
        unfold pairOne; dsimp only; rw [if_pos (not_le.1 hn)]
      rw [this] at hk
      exact lnot (by simp [hk])
    · rw [upd k e]
      have : k ∈ ls := by
        have e2 : (pairOne t s l ss ls).larger = l :: ls ∨ (pairOne t s l ss ls).larger = ls := by
          unfold pairOne; dsimp only; split_ifs
          · exact Or.inr rfl
          · exact Or.inl rfl
        rcases e2 with e2 | e2 <;> rw [e2] at hk
        · exact (List.mem_cons.1 hk).resolve_left e
        · exact hk
      exact la k (by simp [this])
  · intro k hk hn
    rw [mem] at hn
    push Not at hn
    rw [ep, ea, upd k hn.1]
    by_cases e : k = s
    · subst e
      rw [Function.update_self]
      exact ⟨hs'.1, hs'.2.le, hln⟩
    · rw [Function.update_of_ne e]
      refine dn k hk fun hm => ?_
      have := hn.2
      simp at hm this
      tauto
  · intro j hj
    have := ms j hj
    rw [← this, fs, fo]
    unfold Contrast.mass
    rw [ep, ea]
    have e1 : Finset.range n \ insert l (ss ++ ls).toFinset = insert s (Finset.range n \ insert s (insert l (ss ++ ls).toFinset)) := by
      ext k
      simp only [Finset.mem_sdiff, Finset.mem_range, Finset.mem_insert, not_or]
      constructor
      · rintro ⟨a, b, c⟩
        by_cases e : k = s
        · exact Or.inl e
        · exact Or.inr ⟨a, e, b, c⟩
      · rintro (rfl | ⟨a, b, c, d⟩)
        · simp only [Finset.mem_insert, not_or] at snot
          exact ⟨hsn, snot.1, snot.2⟩
        · exact ⟨a, c, d⟩
    rw [e1, Finset.sum_insert (by simp)]
    rw [upd s hsl, Function.update_self]
    have e2 : ∑ k ∈ Finset.range n \ insert s (insert l (ss ++ ls).toFinset),
          (1 - Function.update t.prob l q k) * (if Function.update t.alias' s l k = j then (1 : ℚ) else 0)
        = ∑ k ∈ Finset.range n \ insert s (insert l (ss ++ ls).toFinset), (1 - t.prob k) * (if t.alias' k = j then 1 else 0) := by
      refine Finset.sum_congr rfl fun k hk => ?_
      simp only [Finset.mem_sdiff, Finset.mem_range, Finset.mem_insert, not_or] at hk
      rw [upd k hk.2.2.1, Function.update_of_ne hk.2.1]
    rw [e2]
    by_cases e : j = l
    · subst e
      rw [updl, if_pos rfl, hq]; ring
    · rw [upd j e, if_neg (fun h => e h.symm)]; ring
  · rw [fs, perm.length_eq, ep, Finset.sum_insert lnot, updl]
    rw [fo, Finset.sum_insert snot, Finset.sum_insert lnot] at tot
    have e2 : ∑ k ∈ (ss ++ ls).toFinset, Function.update t.prob l q k = ∑ k ∈ (ss ++ ls).toFinset, t.prob k :=
      Finset.sum_congr rfl fun k hk => upd k fun e => lnot (e ▸ hk)
    rw [e2, hq]
    simp only [List.cons_append, List.length_cons, List.length_append, Nat.cast_add, Nat.cast_one] at tot ⊢
    linarith

theorem inv_loop {n : ℕ} {p : ℕ → ℚ} (f : ℕ) (t : Table) (h : Inv n p t) (hf : t.smaller.length + t.larger.length ≤ f) :
    Inv n p (pairLoop f t) ∧ ((pairLoop f t).smaller = [] ∨ (pairLoop f t).larger = []) := by
  induction f generalizing t with
  | zero =>
    refine ⟨h, Or.inl ?_⟩
    exact List.eq_nil_of_length_eq_zero (by omega : t.smaller.length = 0)
  | succ f ih =>
    unfold pairLoop
    match hs : t.smaller, hl : t.larger with
    | s :: ss, l :: ls =>
      refine ih _ (inv_step hs hl h) ?_
      rw [hs, hl] at hf
      unfold pairOne; dsimp only
      split_ifs <;> simp at hf ⊢ <;> omega
    | [], _ => exact ⟨h, Or.inl hs⟩
    | _ :: _, [] => exact ⟨h, Or.inr hl⟩

theorem ones_prob (l : List ℕ) (f : ℕ → ℚ) (h : ∀ k ∈ l, f k = 1) : l.foldl (fun f k => Function.update f k 1) f = f := by
  induction l generalizing f with
  | nil => rfl
  | cons a l ih =>
    rw [List.foldl_cons]
    have : Function.update f a 1 = f := by
      funext k
      by_cases e : k = a
      · subst e; rw [Function.update_self, h k (by simp)]
      · rw [Function.update_of_ne e]
    rw [this]
    exact ih f fun k hk => h k (by simp [hk])

theorem rest_one {n : ℕ} {p : ℕ → ℚ} {t : Table} (h : Inv n p t) (he : t.smaller = [] ∨ t.larger = []) :
    ∀ k ∈ t.smaller ++ t.larger, t.prob k = 1 := by
  have tot := h.total
  have card : ((t.smaller ++ t.larger).length : ℚ) = ∑ _k ∈ (t.smaller ++ t.larger).toFinset, (1 : ℚ) := by
    rw [Finset.sum_const, List.toFinset_card_of_nodup h.nodup]; simp
  rw [card] at tot
  rcases he with he | he
  · rw [he, List.nil_append] at tot ⊢
    intro k hk
    have := (Finset.sum_eq_sum_iff_of_le (s := t.larger.toFinset) (f := fun _ => (1 : ℚ)) (g := t.prob)
      fun i hi => h.large i (by simpa using hi)).1 tot.symm
    exact (this k (by simpa using hk)).symm
  · rw [he, List.append_nil] at tot ⊢
    intro k hk
    exfalso
    have : ∑ k ∈ t.smaller.toFinset, t.prob k < ∑ _k ∈ t.smaller.toFinset, (1 : ℚ) :=
      Finset.sum_lt_sum_of_nonempty ⟨k, by simpa using hk⟩ fun i hi => (h.small i (by simpa using hi)).2
    linarith

theorem sort_spec (n : ℕ) (ps : List ℚ) (t : Table) (k : ℕ) :
    (sortFrom n t k ps).alias' = t.alias' ∧
    (∀ i, (sortFrom n t k ps).prob i = if h : k ≤ i ∧ i < k + ps.length then n * ps[i - k]'(by omega) else t.prob i) ∧
    (∀ i, i ∈ (sortFrom n t k ps).smaller ↔ i ∈ t.smaller ∨ ∃ h : k ≤ i ∧ i < k + ps.length, n * ps[i - k]'(by omega) < 1) ∧
    (∀ i, i ∈ (sortFrom n t k ps).larger ↔ i ∈ t.larger ∨ ∃ h : k ≤ i ∧ i < k + ps.length, ¬ n * ps[i - k]'(by omega) < 1) ∧
    ((∀ i ∈ t.smaller ++ t.larger, i < k) → (t.smaller ++ t.larger).Nodup → ((sortFrom n t k ps).smaller ++ (sortFrom n t k ps).larger).Nodup) := by
  induction ps generalizing t k with
  | nil =>
    refine ⟨rfl, fun i => ?_, fun i => ?_, fun i => ?_, fun _ h => h⟩
    · rw [dif_neg (by simp)]; rfl
    · simp [sortFrom]
    · simp [sortFrom]
  | cons p ps ih =>
    have e : sortFrom n t k (p :: ps) = sortFrom n (sortOne n t k p) (k + 1) ps := rfl
    obtain ⟨h1, h2, h3, h4, h5⟩ := ih (sortOne n t k p) (k + 1)
    rw [e]
    have oa : (sortOne n t k p).alias' = t.alias' := by unfold sortOne; dsimp only; split_ifs <;> rfl
    have op : (sortOne n t k p).prob = Function.update t.prob k (n * p) := by unfold sortOne; dsimp only; split_ifs <;> rfl
    have os : ∀ i, i ∈ (sortOne n t k p).smaller ↔ i ∈ t.smaller ∨ i = k ∧ n * p < 1 := by
      intro i; unfold sortOne; dsimp only; split_ifs with hp <;> simp [hp]; tauto
    have ol : ∀ i, i ∈ (sortOne n t k p).larger ↔ i ∈ t.larger ∨ i = k ∧ ¬ n * p < 1 := by
      intro i; unfold sortOne; dsimp only; split_ifs with hp
      · simp [hp]
      · simp only [List.mem_cons, hp, not_false_eq_true, and_true]; tauto
    have key : ∀ (i : ℕ) (P : ℚ → Prop), (∃ h : k ≤ i ∧ i < k + (p :: ps).length, P ((p :: ps)[i - k]'(by omega))) ↔
        (i = k ∧ P p) ∨ ∃ h : k + 1 ≤ i ∧ i < k + 1 + ps.length, P (ps[i - (k + 1)]'(by omega)) := by
      intro i P
      constructor
      · rintro ⟨h, hp⟩
        by_cases e : i = k
        · subst e; left; exact ⟨rfl, by simpa using hp⟩
        · right
          simp only [List.length_cons] at h
          refine ⟨⟨by omega, by omega⟩, ?_⟩
          have : i - k = (i - (k + 1)) + 1 := by omega
          simpa only [this, List.getElem_cons_succ] using hp
      · rintro (⟨rfl, hp⟩ | ⟨h, hp⟩)
        · exact ⟨by simp, by simpa using hp⟩
        · refine ⟨by simp only [List.length_cons]; omega, ?_⟩
          have : i - k = (i - (k + 1)) + 1 := by omega
          simpa only [this, List.getElem_cons_succ] using hp
    refine ⟨h1.trans oa, fun i => ?_, fun i => ?_, fun i => ?_, fun hlt hnd => ?_⟩
    · rw [h2, op]
      by_cases h : k + 1 ≤ i ∧ i < k + 1 + ps.length
      · rw [dif_pos h, dif_pos (by simp only [List.length_cons]; omega)]
        have : i - k = (i - (k + 1)) + 1 := by omega
        simp only [this, List.getElem_cons_succ]
      · rw [dif_neg h]
        by_cases e : i = k
        · subst e
          rw [Function.update_self, dif_pos (by simp)]
          simp
        · rw [Function.update_of_ne e, dif_neg (by simp only [List.length_cons]; omega)]
    · rw [h3, os, key i fun x => n * x < 1]; tauto
    · rw [h4, ol, key i fun x => ¬ n * x < 1]; tauto
    · refine h5 ?_ ?_
      · intro i hi
        rw [List.mem_append, os, ol] at hi
        have := hlt i
        rw [List.mem_append] at this
        by_cases e : i = k
        · omega
        · have := this (by tauto)
          omega
      · have kn : k ∉ t.smaller ++ t.larger := fun hk => absurd (hlt k hk) (lt_irrefl _)
        unfold sortOne; dsimp only
        split_ifs
        · exact List.nodup_cons.2 ⟨kn, hnd⟩
        · exact List.perm_middle.nodup_iff.2 (List.nodup_cons.2 ⟨kn, hnd⟩)

theorem normalise_sum {p : List ℚ} (h : 1 ≤ p.sum) : (normalise p).sum = 1 := by
  unfold normalise
  split_ifs with g
  · have e : ∀ (l : List ℚ) (c : ℚ), (l.map (· / c)).sum = l.sum / c := by
      intro l c
      induction l with
      | nil => simp
      | cons a l ih => simp [ih, add_div]
    rw [e, div_self (by linarith)]
  · linarith

theorem normalise_get {p : List ℚ} (h : 1 ≤ p.sum) (i : ℕ) (hi : i < (normalise p).length) (hi' : i < p.length) :
    (normalise p)[i] = p[i] / p.sum := by
  have : normalise p = p.map (· / p.sum) := by
    unfold normalise
    split_ifs with g
    · rfl
    · have : p.sum = 1 := by linarith
      rw [this]; simp
  simp [this]

theorem normalise_length (p : List ℚ) : (normalise p).length = p.length := by
  unfold normalise; split_ifs <;> simp

theorem inv_start {p : List ℚ} (h0 : ∀ x ∈ p, 0 ≤ x) (h1 : p.sum = 1) :
    Inv p.length (fun j => p.getD j 0) (sortFrom p.length ⟨fun _ => 0, fun _ => 0, [], []⟩ 0 p) := by
  obtain ⟨a, b, c, d, e⟩ := sort_spec p.length p ⟨fun _ => 0, fun _ => 0, [], []⟩ 0
  set t := sortFrom p.length ⟨fun _ => 0, fun _ => 0, [], []⟩ 0 p
  have nd : (t.smaller ++ t.larger).Nodup := e (by simp) (by simp)
  have mem : ∀ i, i ∈ t.smaller ++ t.larger ↔ i < p.length := by
    intro i
    rw [List.mem_append, c, d]
    constructor
    · rintro ((h | ⟨h, _⟩) | (h | ⟨h, _⟩))
      · simp at h
      · omega
      · simp at h
      · omega
    · intro h
      by_cases g : p.length * p[i] < 1
      · exact Or.inl (Or.inr ⟨by omega, by simpa using g⟩)
      · exact Or.inr (Or.inr ⟨by omega, by simpa using g⟩)
  have fin : (t.smaller ++ t.larger).toFinset = Finset.range p.length := by
    ext i; rw [List.mem_toFinset, mem, Finset.mem_range]
  have pr : ∀ i, (h : i < p.length) → t.prob i = p.length * p[i] := by
    intro i h; rw [b, dif_pos (by omega)]; simp
  have sumEq : ∀ l : List ℚ, ∑ k ∈ Finset.range l.length, l.getD k 0 = l.sum := by
    intro l
    induction l with
    | nil => simp
    | cons x l ih => rw [List.length_cons, Finset.sum_range_succ', List.sum_cons, ← ih]; simp [add_comm]
  refine ⟨nd, fun k hk => (mem k).1 hk, ?_, ?_, ?_, ?_, ?_⟩
  · intro k hk
    have hk' : k < p.length := (mem k).1 (by simp [hk])
    rw [c] at hk
    rcases hk with hk | ⟨hk, hlt⟩
    · simp at hk
    · rw [pr k hk']
      exact ⟨mul_nonneg (by positivity) (h0 _ (List.getElem_mem _)), by simpa using hlt⟩
  · intro k hk
    have hk' : k < p.length := (mem k).1 (by simp [hk])
    rw [d] at hk
    rcases hk with hk | ⟨hk, hlt⟩
    · simp at hk
    · rw [pr k hk']; exact not_lt.1 (by simpa using hlt)
  · intro k hk hn
    exact absurd ((mem k).2 hk) hn
  · intro j hj
    unfold Contrast.mass
    rw [fin, Finset.sdiff_self, Finset.sum_empty, add_zero, pr j hj]
    simp [hj]
  · rw [fin]
    have : (t.smaller ++ t.larger).length = p.length := by
      rw [← List.toFinset_card_of_nodup nd, fin, Finset.card_range]
    rw [this]
    have e2 : ∑ k ∈ Finset.range p.length, t.prob k = ∑ k ∈ Finset.range p.length, p.length * p.getD k 0 := by
      refine Finset.sum_congr rfl fun k hk => ?_
      rw [Finset.mem_range] at hk
      rw [pr k hk]; simp [hk]
    rw [e2, ← Finset.mul_sum, sumEq, h1, mul_one]

theorem build_spec {p : List ℚ} (h0 : ∀ x ∈ p, 0 ≤ x) (h1 : 1 ≤ p.sum) :
    (∀ k < p.length, 0 ≤ (build p).prob k ∧ (build p).prob k ≤ 1 ∧ ((build p).prob k < 1 → (build p).alias' k < p.length)) ∧
      ∀ j, (h : j < p.length) → chance (build p) p.length j = p[j] / p.sum := by
  have hn : ∀ x ∈ normalise p, 0 ≤ x := by
    intro x hx
    unfold normalise at hx
    split_ifs at hx with g
    · obtain ⟨y, hy, rfl⟩ := List.mem_map.1 hx
      exact div_nonneg (h0 y hy) (by linarith)
    · exact h0 x hx
  have len := normalise_length p
  have hpos : 0 < p.length := by
    rcases p with _ | ⟨a, p⟩
    · simp at h1; linarith
    · simp
  obtain ⟨inv, emp⟩ := inv_loop _ _ (inv_start hn (normalise_sum h1)) le_rfl
  set t := pairLoop _ _ with ht
  have one := rest_one inv emp
  have eb : build p = t := by
    unfold build
    dsimp only
    rw [← ht]
    unfold finish
    rw [ones_prob _ _ one]
  rw [len] at inv
  rw [eb]
  constructor
  · intro k hk
    by_cases hm : k ∈ t.smaller ++ t.larger
    · rw [one k hm]; exact ⟨by norm_num, le_rfl, fun h => absurd h (lt_irrefl _)⟩
    · obtain ⟨a, b, c⟩ := inv.done k hk hm
      exact ⟨a, b, fun _ => c⟩
  · intro j hj
    have m := inv.mass j hj
    unfold chance
    simp only [draw_true, draw_false]
    rw [Finset.sum_add_distrib]
    have e1 : ∑ k ∈ Finset.range p.length, t.prob k * (if k = j then (1 : ℚ) else 0) = t.prob j := by
      simp [hj]
    have e2 : ∑ k ∈ Finset.range p.length, (1 - t.prob k) * (if t.alias' k = j then (1 : ℚ) else 0)
        = ∑ k ∈ Finset.range p.length \ (t.smaller ++ t.larger).toFinset, (1 - t.prob k) * (if t.alias' k = j then 1 else 0) := by
      symm
      refine Finset.sum_subset Finset.sdiff_subset fun k hk hk' => ?_
      have : k ∈ t.smaller ++ t.larger := by
        by_contra hc
        exact hk' (Finset.mem_sdiff.2 ⟨hk, by rwa [List.mem_toFinset]⟩)
      rw [one k this]; ring
    unfold Contrast.mass at m
    rw [e1, e2, m]
    have : (p.length : ℚ) ≠ 0 := Nat.cast_ne_zero.2 hpos.ne'
    have g : (normalise p).getD j 0 = p[j] / p.sum := by
      have hj' : j < (normalise p).length := by omega
      rw [← normalise_get h1 j hj' hj]
      simp [hj']
    rw [mul_div_cancel_left₀ _ this, g]

theorem fold_untouched {n B : ℕ} {α : Type} (idx : Fin B → Fin n) (g : Fin B → α) (l : List (Fin B)) (v : Fin n → α) (i : Fin n)
    (h : ∀ b ∈ l, idx b ≠ i) : l.foldl (fun v' b => Function.update v' (idx b) (g b)) v i = v i := by
  induction l generalizing v with
  | nil => rfl
  | cons a l ih =>
    rw [List.foldl_cons, ih _ fun b hb => h b (by simp [hb]), Function.update_of_ne (h a (by simp)).symm]

theorem fold_last {n B : ℕ} {α : Type} (idx : Fin B → Fin n) (g : Fin B → α) (l : List (Fin B)) (v : Fin n → α) (i : Fin n) (b : Fin B)
    (hs : l.Pairwise (· < ·)) (hb : b ∈ l) (hi : idx b = i) (hl : ∀ b' ∈ l, b < b' → idx b' ≠ i) :
    l.foldl (fun v' b => Function.update v' (idx b) (g b)) v i = g b := by
  induction l generalizing v with
  | nil => simp at hb
  | cons a l ih =>
    rw [List.foldl_cons]
    rw [List.pairwise_cons] at hs
    by_cases hbl : b ∈ l
    · exact ih _ hs.2 hbl fun b' hb' => hl b' (by simp [hb'])
    · have : b = a := by simpa [hbl] using hb
      subst this
      rw [fold_untouched idx g l _ i fun b' hb' => hl b' (by simp [hb']) (hs.1 b' hb'), ← hi, Function.update_self]

theorem finRange_sorted (B : ℕ) : (List.finRange B).Pairwise (· < ·) := List.pairwise_lt_finRange B

theorem update_untouched {B n D : ℕ} (m : ℝ) (v : Fin n → Row D) (idx : Fin B → Fin n) (f : Fin B → Fin D → ℝ) (i : Fin n) (h : ∀ b, idx b ≠ i) :
    update m v idx f i = v i := fold_untouched idx _ _ v i fun b _ => h b

theorem update_last {B n D : ℕ} (m : ℝ) (v : Fin n → Row D) (idx : Fin B → Fin n) (f : Fin B → Fin D → ℝ) (b : Fin B) (h : ∀ b', b < b' → idx b' ≠ idx b) :
    update m v idx f (idx b) = moved m (v (idx b)) (f b) :=
  fold_last idx _ _ v (idx b) b (finRange_sorted B) (List.mem_finRange b) rfl fun b' _ => h b'

theorem exists_last {B n : ℕ} (idx : Fin B → Fin n) (i : Fin n) (h : ∃ b, idx b = i) : ∃ b, idx b = i ∧ ∀ b', b < b' → idx b' ≠ idx b := by
  classical
  obtain ⟨b0, hb0⟩ := h
  let s := Finset.univ.filter fun b => idx b = i
  have hs : s.Nonempty := ⟨b0, by simp [s, hb0]⟩
  refine ⟨s.max' hs, ?_, ?_⟩
  · have := s.max'_mem hs; simpa [s] using this
  · intro b' hb' e
    have h1 : idx (s.max' hs) = i := by have := s.max'_mem hs; simpa [s] using this
    have : b' ∈ s := by simp [s, e, h1]
    exact absurd (s.le_max' b' this) (not_le.2 hb')

theorem update_cases {B n D : ℕ} (m : ℝ) (v : Fin n → Row D) (idx : Fin B → Fin n) (f : Fin B → Fin D → ℝ) (i : Fin n) :
    ((∀ b, idx b ≠ i) ∧ update m v idx f i = v i) ∨ ∃ b, idx b = i ∧ update m v idx f i = moved m (v i) (f b) := by
  by_cases h : ∃ b, idx b = i
  · obtain ⟨b, hb, hl⟩ := exists_last idx i h
    right
    refine ⟨b, hb, ?_⟩
    rw [← hb, update_last m v idx f b hl]
  · push Not at h
    exact Or.inl ⟨h, update_untouched m v idx f i h⟩

theorem moved_some {D : ℕ} (m : ℝ) (v f : Fin D → ℝ) :
    moved m (some v) f = if ∀ d, m * v d + (1 - m) * f d = 0 then none else some (towards m v f) := by
  have e : ∀ d, v d * m + f d * (1 - m) = m * v d + (1 - m) * f d := fun d => by ring
  have key : Real.sqrt (∑ d, (m * v d + (1 - m) * f d) ^ 2) = 0 ↔ ∀ d, m * v d + (1 - m) * f d = 0 := by
    rw [Real.sqrt_eq_zero (Finset.sum_nonneg fun _ _ => sq_nonneg _), Finset.sum_eq_zero_iff_of_nonneg fun _ _ => sq_nonneg _]
    simp
  unfold moved
  simp only [e, key]
  rfl

theorem moved_unit {D : ℕ} (m : ℝ) (v : Row D) (f : Fin D → ℝ) : moved m v f = none ∨ ∃ u, moved m v f = some u ∧ ∑ d, u d ^ 2 = 1 := by
  cases v with
  | none => exact Or.inl rfl
  | some v =>
    rw [moved_some]
    by_cases h : ∀ d, m * v d + (1 - m) * f d = 0
    · exact Or.inl (if_pos h)
    · right
      refine ⟨_, if_neg h, ?_⟩
      unfold towards
      have h0 : 0 ≤ ∑ e, (m * v e + (1 - m) * f e) ^ 2 := Finset.sum_nonneg fun _ _ => sq_nonneg _
      have hne : ∑ e, (m * v e + (1 - m) * f e) ^ 2 ≠ 0 := by
        intro e
        rw [Finset.sum_eq_zero_iff_of_nonneg fun _ _ => sq_nonneg _] at e
        exact h fun d => by simpa using e d (Finset.mem_univ d)
      simp only [div_pow, Real.sq_sqrt h0]
      rw [← Finset.sum_div, div_self hne]

/-- The length of a row of the memory at the start is at most the root of three. -/
theorem move_ne {D : ℕ} {m : ℝ} (h0 : 0 ≤ m) (hm : m * Real.sqrt 3 < 1 - m) {v f : Fin D → ℝ} (hv : ∑ d, v d ^ 2 ≤ 3) (hf : ∑ d, f d ^ 2 = 1) :
    ∃ d, m * v d + (1 - m) * f d ≠ 0 := by
  by_contra hn
  push Not at hn
  have e : ∑ d, ((1 - m) * f d) ^ 2 = ∑ d, (m * v d) ^ 2 := Finset.sum_congr rfl fun d _ => by
    have : (1 - m) * f d = -(m * v d) := by linarith [hn d]
    rw [this]; ring
  simp only [mul_pow] at e
  rw [← Finset.mul_sum, ← Finset.mul_sum, hf, mul_one] at e
  have h3 : (m * Real.sqrt 3) ^ 2 < (1 - m) ^ 2 := pow_lt_pow_left₀ hm (by positivity) two_ne_zero
  rw [mul_pow, Real.sq_sqrt (by norm_num)] at h3
  nlinarith [sq_nonneg m]

theorem none_stays {n D : ℕ} (c : Cfg) (st : Memory n D) (l : List (Step n D)) (i : Fin n) :
    (st.v1 i = none → (run c st l).v1 i = none) ∧ (st.v2 i = none → (run c st l).v2 i = none) := by
  have one : ∀ {B : ℕ} (v : Fin n → Row D) (idx : Fin B → Fin n) (f : Fin B → Fin D → ℝ), v i = none → update c.momentum v idx f i = none := by
    intro B v idx f h
    rcases update_cases c.momentum v idx f i with ⟨_, e⟩ | ⟨b, _, e⟩ <;> rw [e, h]
    rfl
  induction l generalizing st with
  | nil => exact ⟨id, id⟩
  | cons s l ih =>
    obtain ⟨a, b⟩ := ih (memoryForward c st s.fs s.ft s.idx s.rows).1
    exact ⟨fun h => a (one _ _ _ h), fun h => b (one _ _ _ h)⟩

theorem complete_some {B K : ℕ} {x : Fin B → Fin K → Option ℝ} {y : Fin B → Fin K → ℝ} (h : ∀ b k, x b k = some (y b k)) : complete x = some y := by
  unfold complete
  rw [if_pos fun b k => by rw [h]; rfl]
  refine congrArg some ?_
  funext b k
  rw [h]; rfl

theorem constant_set {B K n : ℕ} {z : Option ℝ} {r : ℝ} (hz : z = some r) (h : 0 ≤ r) (x : Fin B → Fin K → Option ℝ) : constant n z x = some r := by
  subst hz
  unfold constant
  exact if_neg (not_lt.2 h)

theorem constant_first {B K n : ℕ} (x : Fin B → Fin K → Option ℝ) {y : Fin B → Fin K → ℝ} (h : ∀ b k, x b k = some (y b k)) :
    constant n (some (-1)) x = some ((∑ b, ∑ k, y b k) / (B * K) * n) := by
  unfold constant
  dsimp only
  rw [if_pos (by norm_num), complete_some h]; rfl

end Verif.Contrast
