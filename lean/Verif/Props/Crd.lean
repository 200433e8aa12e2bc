import Verif.Lemmas.Crd

namespace Verif.Crd
open Verif

/-- The indices of a training item: `1 + neg_num` of them; the first has the class of the item,
and is the item itself in exact mode; all others have another class. The others are distinct when
the table of negatives has enough of them. -/
theorem C44_item (c : Cfg) (r : Rand) (hr : Legal r) (n : Nat) (neg : Nat → List Nat) (hp : parse c r = .ok (n, neg)) (idx : Nat)
    (l : List Nat) (h : contrast c r neg idx = .ok l) :
    ∃ k pos negs, c.labels[idx]? = some k ∧ l = pos :: negs ∧ negs.length = c.negNum ∧
      c.labels[pos]? = some k ∧ (c.mode = "exact" → pos = idx) ∧
      (∀ i ∈ negs, ∃ k', c.labels[i]? = some k' ∧ k' ≠ k) ∧
      (c.negNum ≤ (neg k).length → negs.Nodup) := by
  obtain ⟨_, _, _, rfl⟩ := parse_ok hp
  unfold contrast at h
  cases hk : c.labels[idx]? with
  | none => rw [hk] at h; cases h
  | some k =>
    rw [hk] at h
    simp only at h
    obtain ⟨n1, n2⟩ := negative_facts c r hr n k
    have hpos : ∀ ps, drawPos c r k idx = .ok ps →
        ∃ pos, ps = [pos] ∧ c.labels[pos]? = some k ∧ (c.mode = "exact" → pos = idx) := by
      intro ps hps
      unfold drawPos at hps
      by_cases hm : c.mode = "exact"
      · rw [if_pos hm] at hps
        cases hps
        exact ⟨idx, rfl, hk, fun _ => rfl⟩
      · rw [if_neg hm] at hps
        unfold draw at hps
        split_ifs at hps with h0
        cases hps
        have hne : positive c k ≠ [] ∨ 1 = 0 := by left; intro he; exact h0 ⟨he, by norm_num⟩
        obtain ⟨l1, l2, _⟩ := hr.2 (positive c k) 1 true hne
        obtain ⟨pos, hpos⟩ := List.length_eq_one_iff.1 l1
        refine ⟨pos, hpos, ?_, fun h => absurd h hm⟩
        exact (mem_positive c k pos).1 (l2 pos (by rw [hpos]; simp))
    cases hps : drawPos c r k idx with
    | error e =>
      rw [hps] at h
      cases h
    | ok ps =>
      rw [hps] at h
      obtain ⟨pos, rfl, p1, p2⟩ := hpos ps hps
      simp only [bind, Except.bind] at h
      unfold draw at h
      split_ifs at h with h0
      cases h
      have hne : negative c r n k ≠ [] ∨ c.negNum = 0 := by
        by_cases he : negative c r n k = []
        · right; by_contra hc; exact h0 ⟨he, hc⟩
        · exact Or.inl he
      obtain ⟨l1, l2, l3⟩ := hr.2 (negative c r n k) c.negNum (decide ((negative c r n k).length < c.negNum)) hne
      refine ⟨k, pos, _, rfl, rfl, l1, p1, p2, ?_, ?_⟩
      · intro i hi
        obtain ⟨j, _, hj, hl⟩ := (mem_negativeAll c n k i).1 (n1 i (l2 i hi))
        exact ⟨j, hl, hj⟩
      · intro hle
        exact l3 (by simpa using hle) hle n2

/-- With the full table (`percent` not between 0 and 1) an item can be read exactly if there is an
item of another class (or no negatives are wanted); the others are then distinct whenever so many
items of other classes exist. -/
theorem C44_full (c : Cfg) (r : Rand) (n : Nat) (neg : Nat → List Nat) (hp : parse c r = .ok (n, neg))
    (hpc : ¬ (0 < c.percent ∧ c.percent < 1)) (idx k : Nat) (hk : c.labels[idx]? = some k) :
    ((∃ l, contrast c r neg idx = .ok l) ↔ c.negNum = 0 ∨ ∃ i k' : Nat, c.labels[i]? = some k' ∧ k' ≠ k) ∧
    (neg k).length = ((List.range c.labels.length).filter fun i => c.labels[i]? != some k).length := by
  obtain ⟨hmode, _, hlt, rfl⟩ := parse_ok hp
  have hneg : negative c r n k = negativeAll c n k := by rw [negative, if_neg hpc]
  have hmem : ∀ i, i ∈ negativeAll c n k ↔ ∃ k', c.labels[i]? = some k' ∧ k' ≠ k := by
    intro i
    rw [mem_negativeAll]
    constructor
    · rintro ⟨j, _, h1, h2⟩; exact ⟨j, h2, h1⟩
    · rintro ⟨j, h1, h2⟩; exact ⟨j, hlt j (List.mem_of_getElem? h1), h2, h1⟩
  refine ⟨?_, ?_⟩
  · have hpos : ∃ ps, drawPos c r k idx = .ok ps := by
      by_cases hm : c.mode = "exact"
      · exact ⟨[idx], by rw [drawPos, if_pos hm]⟩
      · refine ⟨r.choice (positive c k) 1 true, ?_⟩
        · rw [drawPos, if_neg hm, draw, if_neg]
          rintro ⟨he, _⟩
          have := (mem_positive c k idx).2 hk
          rw [he] at this
          simp at this
    obtain ⟨ps, hps⟩ := hpos
    unfold contrast
    rw [hk]
    simp only [hps, hneg, bind, Except.bind]
    unfold draw
    by_cases h0 : negativeAll c n k = [] ∧ c.negNum ≠ 0
    · rw [if_pos h0]
      constructor
      · rintro ⟨l, hl⟩; cases hl
      · rintro (h | ⟨i, k', h1, h2⟩)
        · exact absurd h h0.2
        · have := (hmem i).2 ⟨k', h1, h2⟩
          rw [h0.1] at this
          simp at this
    · rw [if_neg h0]
      constructor
      · intro _
        by_cases hz : c.negNum = 0
        · exact Or.inl hz
        · right
          have hne : negativeAll c n k ≠ [] := fun he => h0 ⟨he, hz⟩
          obtain ⟨i, hi⟩ := List.exists_mem_of_ne_nil _ hne
          obtain ⟨k', h1, h2⟩ := (hmem i).1 hi
          exact ⟨i, k', h1, h2⟩
      · intro _; exact ⟨_, rfl⟩
  · show (negative c r n k).length = _
    rw [hneg]
    apply List.Perm.length_eq
    rw [List.perm_ext_iff_of_nodup (negativeAll_nodup c n k) (List.nodup_range.filter _)]
    intro i
    rw [hmem, List.mem_filter, List.mem_range]
    constructor
    · rintro ⟨k', h1, h2⟩
      refine ⟨(List.getElem?_eq_some_iff.1 h1).1, ?_⟩
      rw [h1]
      simpa using h2
    · rintro ⟨h1, h2⟩
      rw [List.getElem?_eq_getElem h1] at h2 ⊢
      exact ⟨_, rfl, by simpa using h2⟩

/-- With a fraction the size of every class's table comes from the first class: nine items of
class 0 and one of class 1, half of the negatives — the one negative of class 0 halves to none, so
no item at all can be read. -/
theorem C44_percent_violated :
    let c : Cfg := ⟨[0, 0, 0, 0, 0, 0, 0, 0, 0, 1], none, 1, 1 / 2, "exact"⟩
    let r : Rand := ⟨fun _ l => l, fun l k _ => (List.replicate k l).flatten.take k⟩
    (negativeAll c 2 1).length = 9 ∧
    ∃ neg, parse c r = .ok (2, neg) ∧ ∀ idx < 10, contrast c r neg idx = .error .value := by
  refine ⟨by decide +kernel, _, rfl, ?_⟩
  decide +kernel

/-- A returned item is one that the pipeline keeps, with its own indices: those of the item that
is finally fetched. -/
theorem C44_refetch (c : Cfg) (r : Rand) (neg : Nat → List Nat) (prepare : Nat → Bool) (another : List Nat) :
    ∀ (idx j : Nat) (l : List Nat), getItem c r neg prepare another idx = .ok (j, l) →
      prepare j = true ∧ contrast c r neg j = .ok l ∧ (j = idx ∨ j ∈ another) ∧ (prepare idx = true → j = idx) := by
  induction another with
  | nil =>
    intro idx j l h
    rw [getItem] at h
    cases hc : contrast c r neg idx with
    | error e => rw [hc] at h; cases h
    | ok l' =>
      rw [hc] at h
      simp only [bind, Except.bind] at h
      split_ifs at h with hp
      · cases h; exact ⟨hp, hc, Or.inl rfl, fun _ => rfl⟩
  | cons a as ih =>
    intro idx j l h
    rw [getItem] at h
    cases hc : contrast c r neg idx with
    | error e => rw [hc] at h; cases h
    | ok l' =>
      rw [hc] at h
      simp only [bind, Except.bind] at h
      split_ifs at h with hp
      · cases h; exact ⟨hp, hc, Or.inl rfl, fun _ => rfl⟩
      · obtain ⟨h1, h2, h3, _⟩ := ih a j l h
        refine ⟨h1, h2, Or.inr ?_, fun h => absurd h hp⟩
        rcases h3 with rfl | h3
        · simp
        · simp [h3]

/-- Other modes are refused, and so are labels outside the given number of classes. -/
theorem C44_refused (c : Cfg) (r : Rand) :
    (¬ (c.mode = "exact" ∨ c.mode = "random") → parse c r = .error .assertion) ∧
    ((c.mode = "exact" ∨ c.mode = "random") → ∀ n k, c.numClasses = some n → k ∈ c.labels → n ≤ k → parse c r = .error .index) := by
  refine ⟨?_, ?_⟩
  · intro h
    rw [parse, if_pos h]
    rfl
  · intro h n k hn hk hle
    unfold parse classes
    rw [if_neg (not_not.2 h), hn]
    simp only [bind, Except.bind, pure, Except.pure]
    rw [if_pos (List.any_eq_true.2 ⟨k, hk, by simpa using hle⟩)]
    rfl

example :
    let c : Cfg := ⟨[0, 1, 2, 1], none, 2, 1, "exact"⟩
    let r : Rand := ⟨fun _ l => l, fun l k _ => (List.replicate k l).flatten.take k⟩
    ∃ neg, parse c r = .ok (3, neg) ∧ contrast c r neg 1 = .ok [1, 0, 2] := by
  refine ⟨_, rfl, ?_⟩
  decide +kernel

/-- A legal generator exists. -/
example : Legal ⟨fun _ l => l, fun l k rep => if rep then List.replicate k (l.headD 0) else l.take k ++ List.replicate (k - l.length) (l.headD 0)⟩ := by
  refine ⟨fun _ _ => List.Perm.refl _, ?_⟩
  intro l k rep h
  cases rep with
  | true =>
    refine ⟨by simp, ?_, fun h => by simp at h⟩
    intro x hx
    simp only [if_true, List.mem_replicate] at hx
    rcases h with h | h
    · obtain ⟨a, l', rfl⟩ := List.exists_cons_of_ne_nil h
      simp [hx.2]
    · exact absurd h hx.1
  | false =>
    refine ⟨by simp; omega, ?_, ?_⟩
    · intro x hx
      simp only [Bool.false_eq_true, if_false, List.mem_append, List.mem_replicate] at hx
      rcases hx with hx | hx
      · exact List.mem_of_mem_take hx
      · rcases h with h | h
        · obtain ⟨a, l', rfl⟩ := List.exists_cons_of_ne_nil h
          simp [hx.2]
        · omega
    · intro _ hk hn
      have : k - l.length = 0 := by omega
      simp only [Bool.false_eq_true, if_false, this, List.replicate_zero, List.append_nil]
      exact hn.sublist (List.take_sublist _ _)

/-- Which datasets are accepted: a known mode, and all classes below the number of classes, which is
the largest class plus one unless it is given; no classes at all are a problem only when the
negatives are to be shortened. -/
theorem C44_accepted (c : Cfg) (r : Rand) (n : Nat) :
    (∃ neg, parse c r = .ok (n, neg)) ↔
      (c.mode = "exact" ∨ c.mode = "random") ∧ (∀ k ∈ c.labels, k < n) ∧
      (c.numClasses = some n ∨ c.numClasses = none ∧ ∃ k ∈ c.labels, n = k + 1) ∧
      (n = 0 → ¬ (0 < c.percent ∧ c.percent < 1)) := by
  have hmax : ∀ (l : List Nat) (a : Nat), a ≤ l.foldl max a ∧ (∀ k ∈ l, k ≤ l.foldl max a) ∧ (l.foldl max a = a ∨ l.foldl max a ∈ l) := by
    intro l
    induction l with
    | nil => intro a; simp
    | cons x l ih =>
      intro a
      obtain ⟨h1, h2, h3⟩ := ih (max a x)
      refine ⟨le_trans (le_max_left _ _) h1, ?_, ?_⟩
      · intro k hk
        rcases List.mem_cons.1 hk with rfl | hk
        · exact le_trans (le_max_right _ _) h1
        · exact h2 k hk
      · rw [List.foldl_cons]
        rcases h3 with h3 | h3
        · rw [h3]
          rcases max_choice a x with e | e <;> simp [e]
        · right; simp [h3]
  constructor
  · rintro ⟨neg, h⟩
    obtain ⟨h1, h2, h3, _⟩ := parse_ok h
    refine ⟨h1, h3, ?_, ?_⟩
    · unfold classes at h2
      cases hn : c.numClasses with
      | some m => rw [hn] at h2; left; rw [← Except.ok.inj h2]
      | none =>
        rw [hn] at h2
        dsimp only at h2
        right
        refine ⟨rfl, ?_⟩
        by_cases hl : c.labels = []
        · rw [if_pos hl] at h2; cases h2
        · rw [if_neg hl] at h2
          obtain ⟨m1, m2, m3⟩ := hmax c.labels 0
          refine ⟨c.labels.foldl max 0, ?_, (Except.ok.inj h2).symm⟩
          rcases m3 with m3 | m3
          · obtain ⟨x, hx⟩ := List.exists_mem_of_ne_nil _ hl
            have := m2 x hx
            rw [m3] at this ⊢
            obtain rfl : x = 0 := by omega
            exact hx
          · exact m3
    · rintro rfl hp
      unfold parse at h
      rw [if_neg (not_not.2 h1), h2] at h
      simp only [bind, Except.bind, pure, Except.pure] at h
      split_ifs at h with a1 a2
      exact a2 ⟨trivial, hp⟩
  · rintro ⟨h1, h2, h3, h4⟩
    have hc : classes c = .ok n := by
      unfold classes
      rcases h3 with h3 | ⟨h3, k, hk, rfl⟩
      · rw [h3]
      · rw [h3]
        dsimp only
        have hl : c.labels ≠ [] := List.ne_nil_of_mem hk
        rw [if_neg hl]
        obtain ⟨m1, m2, m3⟩ := hmax c.labels 0
        have a1 := m2 k hk
        have a2 : c.labels.foldl max 0 ≤ k := by
          rcases m3 with m3 | m3
          · omega
          · have := h2 _ m3; omega
        rw [le_antisymm a2 a1]
    unfold parse
    rw [if_neg (not_not.2 h1), hc]
    simp only [bind, Except.bind, pure, Except.pure]
    have h5 : ¬ (c.labels.any (n ≤ ·) = true) := by
      rw [List.any_eq_true]
      rintro ⟨x, hx, hx'⟩
      have := h2 x hx
      simp at hx'
      omega
    rw [if_neg h5, if_neg (fun h => h4 h.1 h.2)]
    exact ⟨_, rfl⟩

/-- A dataset without items and without a given number of classes is refused with a ValueError, whatever the rest of the
configuration is. -/
theorem C44_empty (c : Cfg) (r : Rand) (hm : c.mode = "exact" ∨ c.mode = "random") (hn : c.numClasses = none) (hl : c.labels = []) :
    parse c r = .error .value := by
  unfold parse classes
  rw [if_neg (not_not.2 hm), hn, if_pos hl]
  rfl

example : parse ⟨[], none, 2, 1, "exact"⟩ ⟨fun _ l => l, fun l _ _ => l⟩ = .error .value := by rfl

end Verif.Crd
