import Verif.Spec.Heads
import Mathlib.Data.List.Infix
import Mathlib.Tactic.Linarith
import Mathlib.Tactic.Ring

/-! Helper lemmas for `Verif/Props/Heads.lean`. -/

namespace Verif.Heads
open Verif

/-- One step of `update`. -/
def upd1 (d : List (String × ℚ)) (p : String × ℚ) : List (String × ℚ) :=
  if d.any (fun q => q.1 == p.1) then d.map (fun q => if q.1 == p.1 then p else q) else d ++ [p]

/-- A dictionary that begins with the loss `v` under the name `k` and has no other losses. -/
def Begins (k : String) (v : ℚ) (d : List (String × ℚ)) : Prop :=
  ∃ r, d = (k, v) :: r ∧ ∀ q ∈ r, 'l' ∉ q.1.toList

/-- Two losses by name and nothing else that counts. -/
def Two (v a : ℚ) (d : List (String × ℚ)) : Prop :=
  ∃ r s, d = ("loss", v) :: r ++ ("aux_head.loss", a) :: s ∧ (∀ q ∈ r, 'l' ∉ q.1.toList) ∧ ∀ q ∈ s, 'l' ∉ q.1.toList

mutual
theorem sumOf_spec : (x : Out) →
    (¬ Part x .other ∧ sumOf x = .ok { value := ((tensorsOf x).map fun p => p.2.sum).sum, tensors := (tensorsOf x).map (·.1) }) ∨
      (Part x .other ∧ sumOf x = .error .notImplemented)
  | .tensor n e => by
    left
    refine ⟨?_, by simp [sumOf, tensorsOf]⟩
    intro h; cases h
  | .list l => by
    rcases sumList_spec l { value := 0, tensors := [] } with ⟨h1, h2⟩ | ⟨⟨t, ht, hp⟩, h2⟩
    · left
      refine ⟨?_, by simpa [sumOf, tensorsOf] using h2⟩
      intro h
      cases h with
      | list ht hp => exact h1 _ ht hp
    · exact Or.inr ⟨.list ht hp, by simpa [sumOf] using h2⟩
  | .tuple l => by
    rcases sumList_spec l { value := 0, tensors := [] } with ⟨h1, h2⟩ | ⟨⟨t, ht, hp⟩, h2⟩
    · left
      refine ⟨?_, by simpa [sumOf, tensorsOf] using h2⟩
      intro h
      cases h with
      | tuple ht hp => exact h1 _ ht hp
    · exact Or.inr ⟨.tuple ht hp, by simpa [sumOf] using h2⟩
  | .dict l => by
    rcases sumDict_spec l { value := 0, tensors := [] } with ⟨h1, h2⟩ | ⟨⟨k, t, ht, hp⟩, h2⟩
    · left
      refine ⟨?_, by simpa [sumOf, tensorsOf] using h2⟩
      intro h
      cases h with
      | dict ht hp => exact h1 _ _ ht hp
    · exact Or.inr ⟨.dict ht hp, by simpa [sumOf] using h2⟩
  | .other => Or.inr ⟨.self _, by simp [sumOf]⟩
theorem sumList_spec : (l : List Out) → (acc : Loss) →
    ((∀ t ∈ l, ¬ Part t .other) ∧ sumList acc l = .ok { value := acc.value + ((tensorsOfList l).map fun p => p.2.sum).sum, tensors := acc.tensors ++ (tensorsOfList l).map (·.1) }) ∨
      ((∃ t ∈ l, Part t .other) ∧ sumList acc l = .error .notImplemented)
  | [], acc => by left; simp [sumList, tensorsOfList]
  | t :: r, acc => by
    rcases sumOf_spec t with ⟨h1, h2⟩ | ⟨h1, h2⟩
    · rcases sumList_spec r (acc.add { value := ((tensorsOf t).map fun p => p.2.sum).sum, tensors := (tensorsOf t).map (·.1) }) with ⟨h3, h4⟩ | ⟨⟨u, hu, hp⟩, h4⟩
      · left
        refine ⟨?_, ?_⟩
        · intro u hu
          rcases List.mem_cons.1 hu with rfl | hu
          · exact h1
          · exact h3 u hu
        · rw [sumList, h2]; dsimp only; rw [h4]
          simp [Loss.add, tensorsOfList, add_assoc]
      · right
        refine ⟨⟨u, List.mem_cons_of_mem _ hu, hp⟩, ?_⟩
        rw [sumList, h2]; dsimp only; rw [h4]
    · right
      exact ⟨⟨t, List.mem_cons_self, h1⟩, by rw [sumList, h2]⟩
theorem sumDict_spec : (l : List (String × Out)) → (acc : Loss) →
    ((∀ k t, (k, t) ∈ l → ¬ Part t .other) ∧ sumDict acc l = .ok { value := acc.value + ((tensorsOfDict l).map fun p => p.2.sum).sum, tensors := acc.tensors ++ (tensorsOfDict l).map (·.1) }) ∨
      ((∃ k t, (k, t) ∈ l ∧ Part t .other) ∧ sumDict acc l = .error .notImplemented)
  | [], acc => by left; simp [sumDict, tensorsOfDict]
  | (k, t) :: r, acc => by
    rcases sumOf_spec t with ⟨h1, h2⟩ | ⟨h1, h2⟩
    · rcases sumDict_spec r (acc.add { value := ((tensorsOf t).map fun p => p.2.sum).sum, tensors := (tensorsOf t).map (·.1) }) with ⟨h3, h4⟩ | ⟨⟨k', u, hu, hp⟩, h4⟩
      · left
        refine ⟨?_, ?_⟩
        · intro k' u hu
          rcases List.mem_cons.1 hu with hu | hu
          · cases hu; exact h1
          · exact h3 k' u hu
        · rw [sumDict, h2]; dsimp only; rw [h4]
          simp [Loss.add, tensorsOfDict, add_assoc]
      · right
        refine ⟨⟨k', u, List.mem_cons_of_mem _ hu, hp⟩, ?_⟩
        rw [sumDict, h2]; dsimp only; rw [h4]
    · right
      exact ⟨⟨k, t, List.mem_cons_self, h1⟩, by rw [sumDict, h2]⟩
end

mutual
theorem mem_tensorsOf : (x : Out) → (n : Nat) → (e : List Int) → ((n, e) ∈ tensorsOf x ↔ Part x (.tensor n e))
  | .tensor m f, n, e => by
    simp only [tensorsOf, List.mem_singleton, Prod.mk.injEq]
    constructor
    · rintro ⟨rfl, rfl⟩; exact .self _
    · intro h; cases h; exact ⟨rfl, rfl⟩
  | .list l, n, e => by
    rw [tensorsOf, mem_tensorsOfList l n e]
    constructor
    · rintro ⟨t, ht, hp⟩; exact .list ht hp
    · intro h; cases h with
      | list ht hp => exact ⟨_, ht, hp⟩
  | .tuple l, n, e => by
    rw [tensorsOf, mem_tensorsOfList l n e]
    constructor
    · rintro ⟨t, ht, hp⟩; exact .tuple ht hp
    · intro h; cases h with
      | tuple ht hp => exact ⟨_, ht, hp⟩
  | .dict l, n, e => by
    rw [tensorsOf, mem_tensorsOfDict l n e]
    constructor
    · rintro ⟨k, t, ht, hp⟩; exact .dict ht hp
    · intro h; cases h with
      | dict ht hp => exact ⟨_, _, ht, hp⟩
  | .other, n, e => by
    simp only [tensorsOf, List.not_mem_nil, false_iff]
    intro h; cases h
theorem mem_tensorsOfList : (l : List Out) → (n : Nat) → (e : List Int) →
    ((n, e) ∈ tensorsOfList l ↔ ∃ t ∈ l, Part t (.tensor n e))
  | [], n, e => by simp [tensorsOfList]
  | t :: r, n, e => by
    rw [tensorsOfList, List.mem_append, mem_tensorsOf t n e, mem_tensorsOfList r n e]
    simp
theorem mem_tensorsOfDict : (l : List (String × Out)) → (n : Nat) → (e : List Int) →
    ((n, e) ∈ tensorsOfDict l ↔ ∃ k t, (k, t) ∈ l ∧ Part t (.tensor n e))
  | [], n, e => by simp [tensorsOfDict]
  | (k, t) :: r, n, e => by
    rw [tensorsOfDict, List.mem_append, mem_tensorsOf t n e, mem_tensorsOfDict r n e]
    constructor
    · rintro (h | ⟨k', u, hu, hp⟩)
      · exact ⟨k, t, List.mem_cons_self, h⟩
      · exact ⟨k', u, List.mem_cons_of_mem _ hu, hp⟩
    · rintro ⟨k', u, hu, hp⟩
      rcases List.mem_cons.1 hu with hu | hu
      · cases hu; exact Or.inl hp
      · exact Or.inr ⟨k', u, hu, hp⟩
end

theorem readAll_ok {A : Type} (f : Sample → Option A) : ∀ (l : List Sample) (r : List A),
    readAll f l = .ok r ↔ l.map f = r.map some
  | [], r => by
    constructor
    · intro h; cases h; rfl
    · intro h
      cases r with
      | nil => rfl
      | cons a b => cases h
  | s :: t, r => by
    rw [readAll]
    cases hs : f s with
    | none =>
      dsimp only
      constructor
      · intro h; cases h
      · intro h
        cases r with
        | nil => cases h
        | cons a b => rw [List.map_cons, List.map_cons, hs] at h; cases h
    | some a =>
      dsimp only
      cases ht : readAll f t with
      | error e =>
        dsimp only
        constructor
        · intro h; cases h
        · intro h
          cases r with
          | nil => cases h
          | cons b c =>
            rw [List.map_cons, List.map_cons, List.cons.injEq] at h
            rw [(readAll_ok f t c).2 h.2] at ht; cases ht
      | ok u =>
        dsimp only
        have hu := (readAll_ok f t u).1 ht
        constructor
        · intro h; cases h; rw [List.map_cons, List.map_cons, hs, hu]
        · intro h
          cases r with
          | nil => cases h
          | cons b c =>
            rw [List.map_cons, List.map_cons, List.cons.injEq, hs] at h
            cases h.1
            have := h.2
            rw [hu] at this
            rw [List.map_injective_iff.2 (Option.some_injective _) this]

theorem readAll_error {A : Type} (f : Sample → Option A) : ∀ (l : List Sample) (e : Err),
    readAll f l = .error e → e = .attribute
  | [], e => fun h => by cases h
  | s :: t, e => by
    rw [readAll]
    cases hs : f s with
    | none => intro h; cases h; rfl
    | some a =>
      dsimp only
      cases ht : readAll f t with
      | error e' => intro h; cases h; exact readAll_error f t _ ht
      | ok u => intro h; cases h

theorem hasLoss_of_not_mem (s : String) (h : 'l' ∉ s.toList) : hasLoss s = false := by
  rw [hasLoss, List.any_eq_false]
  intro t ht hp
  rw [List.mem_tails] at ht
  rw [List.isPrefixOf_iff_prefix] at hp
  apply h
  exact ht.subset (hp.subset (by decide))

theorem accName_no_l (k : Nat) : 'l' ∉ ("accuracy_top-" ++ toString k).toList := by
  rw [String.toList_append, List.mem_append]
  rintro (h | h)
  · revert h; decide
  · have := Nat.isDigit_of_mem_toDigits (b := 10) (n := k) (c := 'l') (by decide) (by decide) (by simpa [Nat.repr] using h)
    revert this; decide

theorem auxName_no_l (s : String) (h : 'l' ∉ s.toList) : 'l' ∉ ("aux_head." ++ s).toList := by
  rw [String.toList_append, List.mem_append]
  rintro (h' | h')
  · revert h'; decide
  · exact h h'

theorem update_nil (a : List (String × ℚ)) : update a [] = a := rfl

theorem update_cons (a b : List (String × ℚ)) (p : String × ℚ) : update a (p :: b) = update (upd1 a p) b := rfl

theorem upd1_begins (k : String) (hk : 'l' ∈ k.toList) (v : ℚ) (d : List (String × ℚ)) (hd : Begins k v d) (p : String × ℚ)
    (hp : 'l' ∉ p.1.toList) : Begins k v (upd1 d p) := by
  obtain ⟨r, rfl, hr⟩ := hd
  have hne : (k == p.1) = false := by
    rw [beq_eq_false_iff_ne]; intro h; rw [← h] at hp; exact hp hk
  unfold upd1
  split
  · refine ⟨r.map fun q => if q.1 == p.1 then p else q, ?_, ?_⟩
    · rw [List.map_cons]; dsimp only; rw [hne]; rfl
    · intro q hq
      rw [List.mem_map] at hq
      obtain ⟨q', hq', rfl⟩ := hq
      split
      · exact hp
      · exact hr q' hq'
  · refine ⟨r ++ [p], rfl, ?_⟩
    intro q hq
    rcases List.mem_append.1 hq with hq | hq
    · exact hr q hq
    · rw [List.mem_singleton] at hq; rw [hq]; exact hp

theorem update_begins (k : String) (hk : 'l' ∈ k.toList) (v : ℚ) : ∀ (b d : List (String × ℚ)), Begins k v d →
    (∀ p ∈ b, 'l' ∉ p.1.toList) → Begins k v (update d b)
  | [], _, hd, _ => hd
  | p :: b, d, hd, hb => by
    rw [update_cons]
    exact update_begins k hk v b _ (upd1_begins k hk v d hd p (hb p List.mem_cons_self))
      fun q hq => hb q (List.mem_cons_of_mem _ hq)

theorem begins_map (v : ℚ) (d : List (String × ℚ)) (h : Begins "loss" v d) :
    Begins "aux_head.loss" v (d.map fun p => ("aux_head." ++ p.1, p.2)) := by
  obtain ⟨r, rfl, hr⟩ := h
  refine ⟨r.map fun p => ("aux_head." ++ p.1, p.2), rfl, ?_⟩
  intro q hq
  rw [List.mem_map] at hq
  obtain ⟨q', hq', rfl⟩ := hq
  exact auxName_no_l _ (hr q' hq')

theorem minimised_cons (p : String × ℚ) (d : List (String × ℚ)) :
    minimised (p :: d) = (if hasLoss p.1 then p.2 else 0) + minimised d := by
  unfold minimised
  rw [List.filter_cons]
  cases hasLoss p.1 <;> simp

theorem minimised_none (d : List (String × ℚ)) (h : ∀ p ∈ d, 'l' ∉ p.1.toList) : minimised d = 0 := by
  unfold minimised
  rw [List.filter_eq_nil_iff.2]
  · rfl
  · intro p hp; rw [hasLoss_of_not_mem _ (h p hp)]; decide

theorem minimised_append (a b : List (String × ℚ)) : minimised (a ++ b) = minimised a + minimised b := by
  simp [minimised]

theorem upd1_two (v a : ℚ) (d : List (String × ℚ)) (hd : Two v a d) (p : String × ℚ) (hp : 'l' ∉ p.1.toList) :
    Two v a (upd1 d p) := by
  obtain ⟨r, s, rfl, hr, hs⟩ := hd
  have hn1 : ("loss" == p.1) = false := by
    rw [beq_eq_false_iff_ne]; intro h; rw [← h] at hp; exact hp (by decide)
  have hn2 : ("aux_head.loss" == p.1) = false := by
    rw [beq_eq_false_iff_ne]; intro h; rw [← h] at hp; exact hp (by decide)
  have hm : ∀ t : List (String × ℚ), (∀ q ∈ t, 'l' ∉ q.1.toList) →
      ∀ q ∈ t.map (fun q => if q.1 == p.1 then p else q), 'l' ∉ q.1.toList := by
    intro t ht q hq
    rw [List.mem_map] at hq
    obtain ⟨q', hq', rfl⟩ := hq
    split
    · exact hp
    · exact ht q' hq'
  unfold upd1
  split
  · refine ⟨_, _, ?_, hm r hr, hm s hs⟩
    rw [List.map_append, List.map_cons, List.map_cons]
    dsimp only
    rw [hn1, hn2]; rfl
  · refine ⟨r, s ++ [p], by simp, hr, ?_⟩
    intro q hq
    rcases List.mem_append.1 hq with hq | hq
    · exact hs q hq
    · rw [List.mem_singleton] at hq; rw [hq]; exact hp

theorem update_two (v a : ℚ) : ∀ (b d : List (String × ℚ)), Two v a d → (∀ p ∈ b, 'l' ∉ p.1.toList) → Two v a (update d b)
  | [], _, hd, _ => hd
  | p :: b, d, hd, hb => by
    rw [update_cons]
    exact update_two v a b _ (upd1_two v a d hd p (hb p List.mem_cons_self)) fun q hq => hb q (List.mem_cons_of_mem _ hq)

theorem update_both (v a : ℚ) (d e : List (String × ℚ)) (hd : Begins "loss" v d) (he : Begins "aux_head.loss" a e) :
    Two v a (update d e) := by
  obtain ⟨r, rfl, hr⟩ := hd
  obtain ⟨s, rfl, hs⟩ := he
  rw [update_cons]
  refine update_two v a s _ ?_ hs
  unfold upd1
  rw [if_neg]
  · exact ⟨r, [], rfl, hr, by simp⟩
  · intro h
    rw [List.any_eq_true] at h
    obtain ⟨q, hq, he⟩ := h
    rw [beq_iff_eq] at he
    rcases List.mem_cons.1 hq with rfl | hq
    · exact absurd (show "loss" = "aux_head.loss" from he) (by decide)
    · exact hr q hq (by rw [he]; show 'l' ∈ "aux_head.loss".toList; decide)

theorem minimised_two (v a : ℚ) (d : List (String × ℚ)) (h : Two v a d) : minimised d = v + a := by
  obtain ⟨r, s, rfl, hr, hs⟩ := h
  rw [minimised_append, minimised_cons, minimised_cons, minimised_none r hr, minimised_none s hs]
  have h1 : hasLoss "loss" = true := by decide
  have h2 : hasLoss "aux_head.loss" = true := by decide
  simp [h1, h2]

theorem lookup_two (v a : ℚ) (d : List (String × ℚ)) (h : Two v a d) :
    d.lookup "loss" = some v ∧ d.lookup "aux_head.loss" = some a := by
  obtain ⟨r, s, rfl, hr, hs⟩ := h
  refine ⟨rfl, ?_⟩
  rw [List.cons_append, List.lookup_cons, show ("aux_head.loss" == "loss") = false from by decide]
  dsimp only
  rw [List.lookup_append, List.lookup_eq_none_iff.2]
  · rfl
  · intro q hq
    rw [bne_iff_ne]
    intro he
    exact hr q hq (by rw [← he]; decide)

theorem getLoss_begins {F S : Type} (h : DartsHead F S) (m : S → Target → Nat → ℚ) (x : S) (samples : List Sample)
    (t : Target) (ht : targets samples = .ok t) (d : List (String × ℚ)) (hd : getLoss h m x samples = .ok d) :
    Begins "loss" (m x t (h.size x)) d := by
  unfold getLoss at hd
  rw [ht] at hd
  dsimp only at hd
  by_cases hc : h.calAcc = true
  · rw [if_pos hc] at hd
    cases t with
    | scores l => cases hd
    | labels l =>
      cases hd
      refine update_begins _ (by decide) _ _ _ ⟨[], rfl, by simp⟩ ?_
      intro p hp
      rw [List.mem_map] at hp
      obtain ⟨q, _, rfl⟩ := hp
      exact accName_no_l q.1
  · rw [if_neg hc] at hd
    cases hd
    exact ⟨[], rfl, by simp⟩

theorem getLoss_ok {F S : Type} (h : DartsHead F S) (m : S → Target → Nat → ℚ) (x : S) (samples : List Sample)
    (t : Target) (ht : targets samples = .ok t) :
    (∃ d, getLoss h m x samples = .ok d) ↔ (h.calAcc = true → ∃ l, t = .labels l) := by
  unfold getLoss
  rw [ht]
  dsimp only
  by_cases hc : h.calAcc = true
  · rw [if_pos hc]
    cases t with
    | scores l => simp [hc]
    | labels l => simp
  · rw [if_neg hc]; simp [hc]

theorem step_val {V : Type} (c : ConvModule V) (s : Heap V × Nat) (hs : s.2 < s.1.used) (l : Layer) :
    (c.step s l).2 < (c.step s l).1.used ∧ s.1.used ≤ (c.step s l).1.used ∧
    (c.step s l).1.val (c.step s l).2 = valueOf c [l] (s.1.val s.2) ∧
    (∀ i, i < s.1.used → i ≠ s.2 → (c.step s l).1.val i = s.1.val i) := by
  obtain ⟨m, x⟩ := s
  dsimp only at hs
  cases l with
  | conv =>
    cases hp : c.padding with
    | none =>
      simp only [ConvModule.step, hp, Heap.fresh, valueOf]
      refine ⟨by omega, by omega, by simp, ?_⟩
      intro i hi _; rw [if_neg (by omega)]
    | some p =>
      simp only [ConvModule.step, hp, Heap.fresh, valueOf]
      refine ⟨by omega, by omega, by simp, ?_⟩
      intro i hi _; rw [if_neg (by omega), if_neg (by omega)]
  | norm =>
    cases hp : c.norm with
    | none => simp [ConvModule.step, hp, valueOf, hs]
    | some f =>
      simp only [ConvModule.step, hp, Heap.fresh, valueOf]
      refine ⟨by omega, by omega, by simp, ?_⟩
      intro i hi _; rw [if_neg (by omega)]
  | act =>
    cases hp : c.act with
    | none => simp [ConvModule.step, hp, valueOf, hs]
    | some f =>
      by_cases hi : c.inplace = true
      · simp only [ConvModule.step, hp, hi, Heap.inPlace, valueOf, if_true]
        refine ⟨by omega, by omega, by simp, ?_⟩
        intro i _ hne; rw [if_neg hne]
      · simp only [ConvModule.step, hp, Heap.fresh, valueOf, if_neg hi]
        refine ⟨by omega, by omega, by simp, ?_⟩
        intro i hi _; rw [if_neg (by omega)]

theorem valueOf_append {V : Type} (c : ConvModule V) : ∀ (a b : List Layer) (x : V), valueOf c (a ++ b) x = valueOf c b (valueOf c a x)
  | [], b, x => rfl
  | .conv :: a, b, x => by rw [List.cons_append, valueOf, valueOf, valueOf_append c a b]
  | .norm :: a, b, x => by rw [List.cons_append, valueOf, valueOf, valueOf_append c a b]
  | .act :: a, b, x => by rw [List.cons_append, valueOf, valueOf, valueOf_append c a b]

/-- The tensor worked on is the input or a new one. -/
theorem fold_val {V : Type} (c : ConvModule V) (n : Nat) (v : Nat → V) (x : Nat) : ∀ (l : List Layer) (s : Heap V × Nat), s.2 < s.1.used → n ≤ s.1.used →
    (∀ i, i < n → i ≠ x → s.1.val i = v i) → (s.2 = x ∨ n ≤ s.2) →
    (l.foldl c.step s).1.val (l.foldl c.step s).2 = valueOf c l (s.1.val s.2) ∧
    (∀ i, i < n → i ≠ x → (l.foldl c.step s).1.val i = v i)
  | [], s, _, _, hv, _ => ⟨rfl, hv⟩
  | a :: l, s, hs, hn, hv, hx => by
    obtain ⟨h1, h2, h3, h4⟩ := step_val c s hs a
    have hx' : (c.step s a).2 = x ∨ n ≤ (c.step s a).2 := by
      obtain ⟨m, y⟩ := s
      dsimp only at hx hs hn
      cases a with
      | conv =>
        right
        cases hp : c.padding <;> simp only [ConvModule.step, hp, Heap.fresh] <;> omega
      | norm =>
        cases hp : c.norm
        · simpa only [ConvModule.step, hp] using hx
        · right; simpa only [ConvModule.step, hp, Heap.fresh] using hn
      | act =>
        cases hp : c.act
        · simpa only [ConvModule.step, hp] using hx
        · by_cases hi : c.inplace = true
          · simpa only [ConvModule.step, hp, hi, Heap.inPlace, if_true] using hx
          · right; simpa only [ConvModule.step, hp, Heap.fresh, if_neg hi] using hn
    have ih := fold_val c n v x l (c.step s a) h1 (le_trans hn h2) (by
      intro i hi hne
      by_cases he : i = s.2
      · rcases hx with hx | hx
        · exact absurd (he.trans hx) hne
        · omega
      · rw [h4 i (lt_of_lt_of_le hi hn) he]; exact hv i hi hne) hx'
    rw [List.foldl_cons]
    refine ⟨?_, ih.2⟩
    rw [ih.1, h3]
    exact (valueOf_append c [a] l _).symm

/-- After the tensor worked on is a new one, the input is left alone. -/
theorem fold_away {V : Type} (c : ConvModule V) (x : Nat) : ∀ (l : List Layer) (s : Heap V × Nat), s.2 < s.1.used → x < s.1.used → x ≠ s.2 →
    (l.foldl c.step s).1.val x = s.1.val x
  | [], _, _, _, _ => rfl
  | a :: l, s, hs, hx, hne => by
    obtain ⟨h1, h2, _, h4⟩ := step_val c s hs a
    rw [List.foldl_cons, fold_away c x l (c.step s a) h1 (lt_of_lt_of_le hx h2), h4 x hx hne]
    obtain ⟨m, y⟩ := s
    dsimp only at hx hs hne
    cases a with
    | conv => cases hp : c.padding <;> simp only [ConvModule.step, hp, Heap.fresh] <;> omega
    | norm => cases hp : c.norm <;> simp only [ConvModule.step, hp, Heap.fresh] <;> omega
    | act =>
      cases hp : c.act
      · simpa only [ConvModule.step, hp] using hne
      · by_cases hi : c.inplace = true
        · simpa only [ConvModule.step, hp, hi, Heap.inPlace, if_true] using hne
        · simp only [ConvModule.step, hp, Heap.fresh, if_neg hi]; omega

/-- Without an activation in place every tensor is left alone. -/
theorem fold_keep {V : Type} (c : ConvModule V) (x : Nat) : ∀ (l : List Layer), (.act ∈ l → c.inplace = false ∨ c.act = none) →
    ∀ (s : Heap V × Nat), s.2 < s.1.used → x < s.1.used → (l.foldl c.step s).1.val x = s.1.val x
  | [], _, _, _, _ => rfl
  | a :: l, h, s, hs, hx => by
    obtain ⟨h1, h2, _, h4⟩ := step_val c s hs a
    rw [List.foldl_cons, fold_keep c x l (fun hm => h (List.mem_cons_of_mem _ hm)) _ h1 (lt_of_lt_of_le hx h2)]
    by_cases hne : x = s.2
    · obtain ⟨m, y⟩ := s
      dsimp only at hx hs hne
      cases a with
      | conv =>
        cases hp : c.padding with
        | none => simp only [ConvModule.step, hp, Heap.fresh]; rw [if_neg (by omega)]
        | some p => simp only [ConvModule.step, hp, Heap.fresh]; rw [if_neg (by omega), if_neg (by omega)]
      | norm =>
        cases hp : c.norm with
        | none => simp only [ConvModule.step, hp]
        | some f => simp only [ConvModule.step, hp, Heap.fresh]; rw [if_neg (by omega)]
      | act =>
        cases hp : c.act with
        | none => simp only [ConvModule.step, hp]
        | some f =>
          have hi : c.inplace = false := by
            rcases h List.mem_cons_self with h | h
            · exact h
            · rw [hp] at h; cases h
          simp only [ConvModule.step, hp, hi, Heap.fresh, Bool.false_eq_true, if_false]
          rw [if_neg (by omega)]
    · exact h4 x hx hne

theorem seqShape_cons (l : FtLayer) (r : List FtLayer) (s : Shape) : seqShape (l :: r) s =
    match l.shape s with
    | .error e => .error e
    | .ok t => seqShape r t := rfl

theorem conv_keep (a b h w : Nat) (hh : 0 < h) (hw : 0 < w) : (FtLayer.conv a b 3 1 1).shape ⟨a, h, w⟩ = .ok ⟨b, h, w⟩ := by
  rw [FtLayer.shape, if_neg]
  · dsimp only
    rw [Nat.div_one, Nat.div_one, show h + 2 * 1 - 3 + 1 = h by omega, show w + 2 * 1 - 3 + 1 = w by omega]
  · dsimp only; omega

theorem convT_keep (a b h w : Nat) (hh : 0 < h) (hw : 0 < w) : (FtLayer.convT a b 3 1 1).shape ⟨a, h, w⟩ = .ok ⟨b, h, w⟩ := by
  rw [FtLayer.shape, if_neg]
  · dsimp only
    rw [show (h - 1) * 1 + 3 - 2 * 1 = h by omega, show (w - 1) * 1 + 3 - 2 * 1 = w by omega]
  · dsimp only; omega

theorem norm_keep (use : Bool) (c h w : Nat) : (norm? use c).shape ⟨c, h, w⟩ = .ok ⟨c, h, w⟩ := by
  cases use <;> simp [norm?, FtLayer.shape]

theorem leaky_keep (s : Shape) : FtLayer.leaky.shape s = .ok s := rfl

theorem encoder_shape (i o : Nat) (use : Bool) (s : Shape) : seqShape (encoder i o use) s =
    if s.channels = i ∧ 0 < s.height ∧ 0 < s.width then .ok { s with channels := o } else .error .runtime := by
  by_cases hc : s.channels = i ∧ 0 < s.height ∧ 0 < s.width
  · rw [if_pos hc]
    obtain ⟨c, h, w⟩ := s
    obtain ⟨h1, h2, h3⟩ := hc
    dsimp only at h1 h2 h3
    subst h1
    simp only [encoder, seqShape_cons, conv_keep _ _ _ _ h2 h3, norm_keep, leaky_keep]
    rfl
  · rw [if_neg hc]
    have : s.channels ≠ i ∨ s.height + 2 * 1 < 3 ∨ s.width + 2 * 1 < 3 := by
      by_contra h
      push Not at h
      exact hc ⟨h.1, by omega, by omega⟩
    rw [encoder, seqShape, FtLayer.shape, if_pos this]

theorem decoder_shape (i o : Nat) (use : Bool) (s : Shape) : seqShape (decoder i o use) s =
    if s.channels = o ∧ 0 < s.height ∧ 0 < s.width then .ok { s with channels := i } else seqShape (decoder i o use) s := by
  by_cases hc : s.channels = o ∧ 0 < s.height ∧ 0 < s.width
  · rw [if_pos hc]
    obtain ⟨c, h, w⟩ := s
    obtain ⟨h1, h2, h3⟩ := hc
    dsimp only at h1 h2 h3
    subst h1
    simp only [decoder, seqShape_cons, convT_keep _ _ _ _ h2 h3, norm_keep, leaky_keep]
    rfl
  · rw [if_neg hc]

end Verif.Heads
