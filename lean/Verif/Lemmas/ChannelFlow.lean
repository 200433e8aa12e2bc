import Verif.Spec.ChannelFlow

/-! Helper lemmas for `Verif/Props/ChannelFlow.lean`. -/

namespace Verif.ChannelFlow
open Verif

theorem rootOf_unique {st : St} {x r s : Nat} (h : RootOf st x r) (h' : RootOf st x s) : r = s := by
  induction h with
  | here x hx => cases h' with
    | here _ _ => rfl
    | up _ p _ hp _ => rw [hx] at hp; cases hp
  | up x p r hp _ ih => cases h' with
    | here _ hx => rw [hx] at hp; cases hp
    | up _ p' _ hp' h2 => rw [hp] at hp'; cases hp'; exact ih h2

theorem rootOf_none {st : St} {x r : Nat} (h : RootOf st x r) : st.parent r = none := by
  induction h with
  | here x hx => exact hx
  | up _ _ _ _ _ ih => exact ih

theorem rootOf_exists {st : St} {d : Nat → Nat} {B} (h : Inv st d B) : ∀ n x, d x ≤ n → ∃ r, RootOf st x r := by
  intro n
  induction n with
  | zero =>
    intro x hx
    cases hp : st.parent x with
    | none => exact ⟨x, .here x hp⟩
    | some p => have := h.lt x p hp; omega
  | succ n ih =>
    intro x hx
    cases hp : st.parent x with
    | none => exact ⟨x, .here x hp⟩
    | some p =>
      have := h.lt x p hp
      obtain ⟨r, hr⟩ := ih p (by omega)
      exact ⟨r, .up x p r hp hr⟩

/-- Redirecting a non-root element to its own root changes no root. -/
theorem rootOf_redirect {st st' : St} {x r : Nat} (hx : RootOf st x r) (hne : x ≠ r)
    (hp : ∀ y, st'.parent y = if y = x then some r else st.parent y) (y s : Nat) :
    RootOf st' y s ↔ RootOf st y s := by
  have hr := rootOf_none hx
  have hr' : st'.parent r = none := by rw [hp, if_neg (Ne.symm hne), hr]
  constructor
  · intro h
    induction h with
    | here y hy =>
      rw [hp] at hy
      by_cases hyx : y = x
      · simp [hyx] at hy
      · rw [if_neg hyx] at hy; exact .here y hy
    | up y p s hy _ ih =>
      rw [hp] at hy
      by_cases hyx : y = x
      · rw [if_pos hyx] at hy
        cases hy
        have := rootOf_unique ih (.here r hr)
        subst this; subst hyx; exact hx
      · rw [if_neg hyx] at hy; exact .up y p s hy ih
  · intro h
    induction h with
    | here y hy =>
      refine .here y ?_
      rw [hp]
      by_cases hyx : y = x
      · subst hyx
        exact absurd (rootOf_unique (.here y hy) hx) hne
      · rw [if_neg hyx]; exact hy
    | up y p s hy hps ih =>
      by_cases hyx : y = x
      · subst hyx
        have := rootOf_unique hx (.up y p s hy hps)
        subst this
        exact .up y r r (by rw [hp, if_pos rfl]) (.here r hr')
      · exact .up y p s (by rw [hp, if_neg hyx]; exact hy) ih

theorem root_ok {d : Nat → Nat} {B : Nat} : ∀ limit (st : St) (x : Nat), Inv st d B → d x < limit →
    ∃ r st', root limit st x = .ok (r, st') ∧ RootOf st x r ∧ Inv st' d B ∧
      (∀ y s, RootOf st' y s ↔ RootOf st y s) := by
  intro limit
  induction limit with
  | zero => intro st x _ h; omega
  | succ limit ih =>
    intro st x hI hd
    cases hp : st.parent x with
    | none =>
      refine ⟨x, st, ?_, .here x hp, hI, fun _ _ => Iff.rfl⟩
      simp only [root, hp]
    | some p =>
      have hlt := hI.lt x p hp
      obtain ⟨r, st1, h1, hr, hI1, hs1⟩ := ih st p hI (by omega)
      have hxr : RootOf st1 x r := (hs1 x r).2 (.up x p r hp hr)
      have hrn : st1.parent r = none := rootOf_none hxr
      have hdr : d r = 0 := hI1.zero r hrn
      have hne : x ≠ r := by rintro rfl; omega
      -- the parent of x after the recursive call
      cases hp1 : st1.parent x with
      | none => have := hI1.zero x hp1; omega
      | some q =>
        have hmem : x ∈ st1.subs q := (hI1.mem q x).2 hp1
        obtain ⟨lim', rfl⟩ : ∃ l, limit = l + 1 := ⟨limit - 1, by omega⟩
        set st2 : St := ⟨upd st1.parent x none, upd st1.subs q ((st1.subs q).filter (fun y => decide (y ≠ x)))⟩ with hst2
        have hu : unsetParent st1 x = .ok st2 := by
          simp only [unsetParent, hp1]; rw [if_pos hmem]
        have h2n : st2.parent x = none := by simp [hst2, upd]
        have h2r : st2.parent r = none := by simp [hst2, upd, Ne.symm hne, hrn]
        have hroot2 : root (lim' + 1) st2 r = .ok (r, st2) := by
          simp only [root, h2r]
        refine ⟨r, attach st2 x r, ?_, .up x p r hp hr, ?_, ?_⟩
        · rw [root]
          simp only [hp, h1, hu, h2n, hroot2]
          rw [if_neg (by simp), if_neg (Ne.symm hne)]
        · have hpar : ∀ y, (attach st2 x r).parent y = if y = x then some r else st1.parent y := by
            intro y; simp only [attach, hst2, upd]; split <;> rfl
          refine ⟨?_, ?_, ?_, hI1.le⟩
          · intro y hy
            rw [hpar] at hy
            by_cases hyx : y = x
            · simp [hyx] at hy
            · rw [if_neg hyx] at hy; exact hI1.zero y hy
          · intro y p' hy
            rw [hpar] at hy
            by_cases hyx : y = x
            · rw [if_pos hyx] at hy; cases hy; subst hyx; omega
            · rw [if_neg hyx] at hy; exact hI1.lt y p' hy
          · intro z y
            rw [hpar]
            simp only [attach, hst2, upd]
            have key := hI1.mem z y
            by_cases hyx : y = x
            · subst hyx
              rw [if_pos rfl]
              by_cases hzr : z = r
              · simp [hzr]
              · rw [if_neg hzr]
                constructor
                · intro h
                  by_cases hzq : z = q
                  · rw [if_pos hzq] at h; simp at h
                  · rw [if_neg hzq] at h
                    have := key.1 h
                    rw [hp1] at this; cases this; exact absurd rfl hzq
                · intro h; cases h; exact absurd rfl hzr
            · rw [if_neg hyx]
              by_cases hzr : z = r
              · rw [if_pos hzr, List.mem_cons]
                subst hzr
                by_cases hrq : z = q
                · subst hrq; rw [if_pos rfl]; simp [hyx, key]
                · rw [if_neg hrq]; simp [hyx, key]
              · rw [if_neg hzr]
                by_cases hzq : z = q
                · subst hzq; rw [if_pos rfl]; simp [hyx, key]
                · rw [if_neg hzq]; exact key
        · intro y s
          rw [← hs1 y s]
          refine rootOf_redirect hxr hne ?_ y s
          intro y; simp only [attach, hst2, upd]; split <;> rfl

/-- Hanging the tree of `r2` below `r1`. -/
theorem rootOf_attach {st : St} {r1 r2 : Nat} (h1 : st.parent r1 = none) (h2 : st.parent r2 = none)
    (hne : r1 ≠ r2) (y s : Nat) :
    RootOf (attach st r2 r1) y s ↔ (RootOf st y s ∧ s ≠ r2) ∨ (RootOf st y r2 ∧ s = r1) := by
  have hp : ∀ y, (attach st r2 r1).parent y = if y = r2 then some r1 else st.parent y := fun y => rfl
  constructor
  · intro h
    induction h with
    | here y hy =>
      rw [hp] at hy
      by_cases hyx : y = r2
      · simp [hyx] at hy
      · rw [if_neg hyx] at hy; exact Or.inl ⟨.here y hy, hyx⟩
    | up y p s hy _ ih =>
      rw [hp] at hy
      by_cases hyx : y = r2
      · rw [if_pos hyx] at hy
        cases hy
        subst hyx
        right
        refine ⟨.here y h2, ?_⟩
        rcases ih with ⟨h, _⟩ | ⟨_, h⟩
        · exact (rootOf_unique (.here r1 h1) h).symm
        · exact h
      · rw [if_neg hyx] at hy
        rcases ih with ⟨h, hs⟩ | ⟨h, hs⟩
        · exact Or.inl ⟨.up y p s hy h, hs⟩
        · exact Or.inr ⟨.up y p r2 hy h, hs⟩
  · have hr1 : RootOf (attach st r2 r1) r1 r1 := .here r1 (by rw [hp, if_neg hne, h1])
    have hr2 : RootOf (attach st r2 r1) r2 r1 := .up r2 r1 r1 (by rw [hp, if_pos rfl]) hr1
    have aux : ∀ y t, RootOf st y t → RootOf (attach st r2 r1) y (if t = r2 then r1 else t) := by
      intro y t h
      induction h with
      | here y hy =>
        by_cases hyx : y = r2
        · rw [if_pos hyx, hyx]; exact hr2
        · rw [if_neg hyx]; exact .here y (by rw [hp, if_neg hyx, hy])
      | up y p t hy _ ih =>
        have hyx : y ≠ r2 := by rintro rfl; rw [h2] at hy; cases hy
        exact .up y p _ (by rw [hp, if_neg hyx, hy]) ih
    rintro (⟨h, hs⟩ | ⟨h, rfl⟩)
    · have := aux y s h; rwa [if_neg hs] at this
    · have := aux y r2 h; rwa [if_pos rfl] at this

open Classical in
theorem inv_attach {st : St} {d : Nat → Nat} {B r1 r2 : Nat} (hI : Inv st d B)
    (h1 : st.parent r1 = none) (h2 : st.parent r2 = none) (hne : r1 ≠ r2) :
    Inv (attach st r2 r1) (fun y => if RootOf st y r2 then d y + 1 else d y) (B + 1) := by
  have hp : ∀ y, (attach st r2 r1).parent y = if y = r2 then some r1 else st.parent y := fun y => rfl
  have n1 : ¬ RootOf st r1 r2 := fun h => hne (rootOf_unique (.here r1 h1) h)
  refine ⟨?_, ?_, ?_, ?_⟩
  · intro x hx
    rw [hp] at hx
    by_cases hyx : x = r2
    · simp [hyx] at hx
    · rw [if_neg hyx] at hx
      have : ¬ RootOf st x r2 := fun h => hyx (rootOf_unique (.here x hx) h)
      simp only [if_neg this]; exact hI.zero x hx
  · intro x p hx
    rw [hp] at hx
    by_cases hyx : x = r2
    · rw [if_pos hyx] at hx; cases hx
      subst hyx
      simp only [if_neg n1, if_pos (RootOf.here x h2)]
      have := hI.zero _ h1; omega
    · rw [if_neg hyx] at hx
      have hlt := hI.lt x p hx
      by_cases hpr : RootOf st p r2
      · simp only [if_pos hpr, if_pos (RootOf.up x p r2 hx hpr)]; omega
      · simp only [if_neg hpr]; split <;> omega
  · intro x y
    rw [hp]
    simp only [attach, upd]
    have key := hI.mem x y
    by_cases hyx : y = r2
    · subst hyx
      rw [if_pos rfl]
      by_cases hx : x = r1
      · simp [hx]
      · rw [if_neg hx]
        rw [key, h2]; constructor
        · intro h; cases h
        · intro h; cases h; exact absurd rfl hx
    · rw [if_neg hyx]
      by_cases hx : x = r1
      · subst hx; simp [hyx, key]
      · rw [if_neg hx]; exact key
  · intro x
    have := hI.le x
    by_cases h : RootOf st x r2 <;> simp [h] <;> omega

theorem same_equiv {st : St} {d B} (hI : Inv st d B) : Equivalence (Same st) := by
  refine ⟨?_, ?_, ?_⟩
  · intro x; obtain ⟨r, hr⟩ := rootOf_exists hI (d x) x (le_refl _); exact ⟨r, hr, hr⟩
  · rintro x y ⟨r, h1, h2⟩; exact ⟨r, h2, h1⟩
  · rintro x y z ⟨r, h1, h2⟩ ⟨s, h3, h4⟩
    have := rootOf_unique h2 h3; subst this; exact ⟨r, h1, h4⟩

theorem union_ok {st : St} {d : Nat → Nat} {B limit : Nat} (hI : Inv st d B) (hB : B < limit) (a b : Nat) :
    ∃ st' d', union limit st a b = .ok st' ∧ Inv st' d' (B + 1) ∧
      ∀ x y, Same st' x y ↔ Same st x y ∨ (Same st x a ∧ Same st b y) ∨ (Same st x b ∧ Same st a y) := by
  have hE := same_equiv hI
  obtain ⟨r1, st1, e1, hr1, hI1, hs1⟩ := root_ok limit st a hI (lt_of_le_of_lt (hI.le a) hB)
  obtain ⟨r2, st2, e2, hr2, hI2, hs2⟩ := root_ok limit st1 b hI1 (lt_of_le_of_lt (hI.le b) hB)
  have hs : ∀ y s, RootOf st2 y s ↔ RootOf st y s := fun y s => (hs2 y s).trans (hs1 y s)
  have hrb : RootOf st b r2 := (hs1 b r2).1 hr2
  have hsame : ∀ x y, Same st2 x y ↔ Same st x y := by
    intro x y; constructor
    · rintro ⟨r, h, h'⟩; exact ⟨r, (hs _ _).1 h, (hs _ _).1 h'⟩
    · rintro ⟨r, h, h'⟩; exact ⟨r, (hs _ _).2 h, (hs _ _).2 h'⟩
  by_cases heq : r1 = r2
  · refine ⟨st2, d, ?_, ⟨hI2.zero, hI2.lt, hI2.mem, fun x => Nat.le_succ_of_le (hI2.le x)⟩, ?_⟩
    · simp only [union, e1, e2]; rw [if_pos heq]
    · intro x y
      rw [hsame]
      have hab : Same st a b := ⟨r1, hr1, heq ▸ hrb⟩
      constructor
      · exact Or.inl
      · rintro (h | ⟨h, h'⟩ | ⟨h, h'⟩)
        · exact h
        · exact hE.trans h (hE.trans hab h')
        · exact hE.trans h (hE.trans (hE.symm hab) h')
  · have hn1 : st2.parent r1 = none := rootOf_none ((hs a r1).2 hr1)
    have hn2 : st2.parent r2 = none := rootOf_none ((hs b r2).2 hrb)
    obtain ⟨l, rfl⟩ : ∃ l, limit = l + 1 := ⟨limit - 1, by omega⟩
    refine ⟨attach st2 r2 r1, _, ?_, inv_attach hI2 hn1 hn2 heq, ?_⟩
    · simp only [union, e1, e2]
      rw [if_neg heq, setParent, if_neg (by simp [hn2])]
      simp only [root, hn1]
      rw [if_neg heq]
    · intro x y
      have hR : ∀ y s, RootOf (attach st2 r2 r1) y s ↔ (RootOf st y s ∧ s ≠ r2) ∨ (RootOf st y r2 ∧ s = r1) := by
        intro y s; rw [rootOf_attach hn1 hn2 heq, hs, hs]
      constructor
      · rintro ⟨r, hx, hy⟩
        rcases (hR x r).1 hx with ⟨hx1, hn⟩ | ⟨hx1, hn⟩ <;> rcases (hR y r).1 hy with ⟨hy1, hn'⟩ | ⟨hy1, hn'⟩
        · exact Or.inl ⟨r, hx1, hy1⟩
        · exact Or.inr (Or.inl ⟨⟨r1, hn' ▸ hx1, hr1⟩, ⟨r2, hrb, hy1⟩⟩)
        · exact Or.inr (Or.inr ⟨⟨r2, hx1, hrb⟩, ⟨r1, hr1, hn ▸ hy1⟩⟩)
        · exact Or.inl ⟨r2, hx1, hy1⟩
      · rintro (⟨r, hx, hy⟩ | ⟨⟨r, hx, ha⟩, ⟨s, hb, hy⟩⟩ | ⟨⟨r, hx, hb⟩, ⟨s, ha, hy⟩⟩)
        · by_cases hr : r = r2
          · subst hr; exact ⟨r1, (hR _ _).2 (Or.inr ⟨hx, rfl⟩), (hR _ _).2 (Or.inr ⟨hy, rfl⟩)⟩
          · exact ⟨r, (hR _ _).2 (Or.inl ⟨hx, hr⟩), (hR _ _).2 (Or.inl ⟨hy, hr⟩)⟩
        · have := rootOf_unique ha hr1; subst this
          have := rootOf_unique hb hrb; subst this
          exact ⟨r, (hR _ _).2 (Or.inl ⟨hx, heq⟩), (hR _ _).2 (Or.inr ⟨hy, rfl⟩)⟩
        · have := rootOf_unique ha hr1; subst this
          have := rootOf_unique hb hrb; subst this
          exact ⟨s, (hR _ _).2 (Or.inr ⟨hx, rfl⟩), (hR _ _).2 (Or.inl ⟨hy, heq⟩)⟩

theorem eqvGen_add {S : Nat → Nat → Prop} {R : Nat → Nat → Prop} (a b : Nat)
    (hS : ∀ x y, S x y ↔ Relation.EqvGen R x y) (x y : Nat) :
    (S x y ∨ (S x a ∧ S b y) ∨ (S x b ∧ S a y)) ↔
      Relation.EqvGen (fun u v => R u v ∨ (u = a ∧ v = b)) x y := by
  have mono : ∀ u v, S u v → Relation.EqvGen (fun u v => R u v ∨ (u = a ∧ v = b)) u v := by
    intro u v h
    exact Relation.EqvGen.mono (fun _ _ h => Or.inl h) _ _ ((hS u v).1 h)
  have hab : Relation.EqvGen (fun u v => R u v ∨ (u = a ∧ v = b)) a b := .rel _ _ (Or.inr ⟨rfl, rfl⟩)
  have sr : ∀ x, S x x := fun x => (hS x x).2 (.refl x)
  have ss : ∀ {x y}, S x y → S y x := fun h => (hS _ _).2 (.symm _ _ ((hS _ _).1 h))
  have st : ∀ {x y z}, S x y → S y z → S x z := fun h h' => (hS _ _).2 (.trans _ _ _ ((hS _ _).1 h) ((hS _ _).1 h'))
  constructor
  · rintro (h | ⟨h, h'⟩ | ⟨h, h'⟩)
    · exact mono _ _ h
    · exact .trans _ _ _ (mono _ _ h) (.trans _ _ _ hab (mono _ _ h'))
    · exact .trans _ _ _ (mono _ _ h) (.trans _ _ _ (.symm _ _ hab) (mono _ _ h'))
  · intro h
    induction h with
    | rel u v h =>
      rcases h with h | ⟨rfl, rfl⟩
      · exact Or.inl ((hS _ _).2 (.rel _ _ h))
      · exact Or.inr (Or.inl ⟨sr _, sr _⟩)
    | refl u => exact Or.inl (sr u)
    | symm u v _ ih =>
      rcases ih with h | ⟨h, h'⟩ | ⟨h, h'⟩
      · exact Or.inl (ss h)
      · exact Or.inr (Or.inr ⟨ss h', ss h⟩)
      · exact Or.inr (Or.inl ⟨ss h', ss h⟩)
    | trans u v w _ _ ih1 ih2 =>
      rcases ih1 with h1 | ⟨h1, h1'⟩ | ⟨h1, h1'⟩ <;> rcases ih2 with h2 | ⟨h2, h2'⟩ | ⟨h2, h2'⟩
      · exact Or.inl (st h1 h2)
      · exact Or.inr (Or.inl ⟨st h1 h2, h2'⟩)
      · exact Or.inr (Or.inr ⟨st h1 h2, h2'⟩)
      · exact Or.inr (Or.inl ⟨h1, st h1' h2⟩)
      · exact Or.inr (Or.inl ⟨h1, h2'⟩)
      · exact Or.inl (st h1 h2')
      · exact Or.inr (Or.inr ⟨h1, st h1' h2⟩)
      · exact Or.inl (st h1 h2')
      · exact Or.inr (Or.inr ⟨h1, h2'⟩)

theorem unionAll_ok {limit : Nat} (ps : List (Nat × Nat)) : ∀ (st : St) (d : Nat → Nat) (B : Nat) (R : Nat → Nat → Prop),
    Inv st d B → Groups st R → B + ps.length < limit →
    ∃ st' d', unionAll limit ps st = .ok st' ∧ Inv st' d' (B + ps.length) ∧
      Groups st' (fun u v => R u v ∨ (u, v) ∈ ps) := by
  induction ps with
  | nil =>
    intro st d B R hI hG _
    refine ⟨st, d, rfl, hI, ?_⟩
    simpa [Groups] using hG
  | cons p ps ih =>
    intro st d B R hI hG hB
    obtain ⟨a, b⟩ := p
    simp only [List.length_cons] at hB
    obtain ⟨st1, d1, e1, hI1, hs⟩ := union_ok hI (by omega : B < limit) a b
    have hG1 : Groups st1 (fun u v => R u v ∨ (u = a ∧ v = b)) := by
      intro x y; rw [hs]; exact eqvGen_add a b hG x y
    obtain ⟨st2, d2, e2, hI2, hG2⟩ := ih st1 d1 (B + 1) _ hI1 hG1 (by omega)
    refine ⟨st2, d2, ?_, ?_, ?_⟩
    · simp only [unionAll, e1]; exact e2
    · rw [List.length_cons, Nat.add_comm ps.length 1, ← Nat.add_assoc]; exact hI2
    · have : (fun u v => R u v ∨ (u, v) ∈ (a, b) :: ps) = fun u v => (R u v ∨ u = a ∧ v = b) ∨ (u, v) ∈ ps := by
        funext u v; simp [or_assoc]
      rw [this]; exact hG2

theorem mem_zip_iff (t1 t2 : List Nat) (a b : Nat) :
    (a, b) ∈ t1.zip t2 ↔ ∃ i : Nat, t1[i]? = some a ∧ t2[i]? = some b := by
  rw [List.mem_iff_getElem?]
  simp [List.getElem?_zip_eq_some]

theorem mem_expandPairs (t : List Nat) (ratio fresh a b : Nat) :
    (a, b) ∈ expandPairs t ratio fresh ↔ ∃ i j : Nat, t[i]? = some a ∧ j < ratio ∧ b = fresh + (i * ratio + j) := by
  simp only [expandPairs, List.mem_flatMap, List.mem_map, List.mem_range, Prod.mk.injEq]
  constructor
  · rintro ⟨⟨x, i⟩, hm, j, hj, rfl, rfl⟩
    exact ⟨i, j, List.mk_mem_zipIdx_iff_getElem?.1 hm, hj, rfl⟩
  · rintro ⟨i, j, h, hj, rfl⟩
    exact ⟨(a, i), List.mk_mem_zipIdx_iff_getElem?.2 h, j, hj, rfl, rfl⟩

theorem length_expandPairs (t : List Nat) (ratio fresh : Nat) :
    (expandPairs t ratio fresh).length = t.length * ratio := by
  simp [expandPairs, List.length_flatMap]

theorem step_ok {limit : Nat} (o : Op) {st : St} {d : Nat → Nat} {B : Nat} {R : Nat → Nat → Prop}
    (hI : Inv st d B) (hG : Groups st R) (hF : Fits o) (hB : B + pairs o < limit) :
    ∃ st' d', step limit st o = .ok st' ∧ Inv st' d' (B + pairs o) ∧
      Groups st' (fun u v => R u v ∨ Tied o u v) := by
  cases o with
  | tie t1 t2 =>
    have hl : (t1.zip t2).length = t1.length := by simp [Fits] at hF; simp [hF]
    obtain ⟨st', d', e, hI', hG'⟩ := unionAll_ok (t1.zip t2) st d B R hI hG (by rw [hl]; exact hB)
    refine ⟨st', d', ?_, by rw [hl] at hI'; exact hI', ?_⟩
    · simp only [step]; rw [if_pos (show t1.length = t2.length from hF)]; exact e
    · simp only [mem_zip_iff] at hG'; exact hG'
  | expand t ratio fresh =>
    have hl := length_expandPairs t ratio fresh
    obtain ⟨st', d', e, hI', hG'⟩ := unionAll_ok (expandPairs t ratio fresh) st d B R hI hG (by rw [hl]; exact hB)
    refine ⟨st', d', ?_, by rw [hl] at hI'; exact hI', ?_⟩
    · simp only [step]; exact e
    · simp only [mem_expandPairs] at hG'; exact hG'
  | find x =>
    obtain ⟨r, st', e, _, hI', hs⟩ := root_ok limit st x hI (lt_of_le_of_lt (hI.le x) (by simpa [pairs] using hB))
    refine ⟨st', d, ?_, hI', ?_⟩
    · simp only [step, e]
    · intro u v
      have : (fun u v => R u v ∨ Tied (Op.find x) u v) = R := by funext u v; simp [Tied]
      rw [this, ← hG u v]
      constructor
      · rintro ⟨r, h, h'⟩; exact ⟨r, (hs _ _).1 h, (hs _ _).1 h'⟩
      · rintro ⟨r, h, h'⟩; exact ⟨r, (hs _ _).2 h, (hs _ _).2 h'⟩

theorem run_ok {limit : Nat} (ops : List Op) : ∀ (st : St) (d : Nat → Nat) (B : Nat) (R : Nat → Nat → Prop),
    Inv st d B → Groups st R → (∀ o ∈ ops, Fits o) → B + (ops.map pairs).sum < limit →
    ∃ st' d', run limit ops st = .ok st' ∧ Inv st' d' (B + (ops.map pairs).sum) ∧
      Groups st' (fun u v => R u v ∨ TiedIn ops u v) := by
  induction ops with
  | nil =>
    intro st d B R hI hG _ _
    refine ⟨st, d, rfl, by simpa using hI, ?_⟩
    simpa [Groups, TiedIn] using hG
  | cons o ops ih =>
    intro st d B R hI hG hF hB
    simp only [List.map_cons, List.sum_cons] at hB
    obtain ⟨st1, d1, e1, hI1, hG1⟩ := step_ok o hI hG (hF o (by simp)) (by omega : B + pairs o < limit)
    obtain ⟨st2, d2, e2, hI2, hG2⟩ := ih st1 d1 _ _ hI1 hG1 (fun o ho => hF o (by simp [ho])) (by omega)
    refine ⟨st2, d2, ?_, ?_, ?_⟩
    · simp only [run, e1]; exact e2
    · simp only [List.map_cons, List.sum_cons]; rw [← Nat.add_assoc]; exact hI2
    · have : (fun u v => R u v ∨ TiedIn (o :: ops) u v) = fun u v => (R u v ∨ Tied o u v) ∨ TiedIn ops u v := by
        funext u v; simp [TiedIn, or_assoc]
      rw [this]; exact hG2

theorem init_inv : Inv St.init (fun _ => 0) 0 := by
  refine ⟨fun _ _ => rfl, ?_, ?_, fun _ => le_refl _⟩
  · intro x p h; cases h
  · intro x y; simp [St.init]

theorem init_groups : Groups St.init (fun _ _ => False) := by
  intro x y
  constructor
  · rintro ⟨r, h1, h2⟩
    have e1 := rootOf_unique h1 (.here x rfl)
    have e2 := rootOf_unique h2 (.here y rfl)
    rw [← e1, ← e2]; exact .refl _
  · intro h
    have : x = y := by
      induction h with
      | rel _ _ h => exact h.elim
      | refl _ => rfl
      | symm _ _ _ ih => exact ih.symm
      | trans _ _ _ _ _ ih1 ih2 => exact ih1.trans ih2
    subst this
    exact ⟨x, .here x rfl, .here x rfl⟩

theorem subsOf_ok {st : St} {d : Nat → Nat} {B : Nat} (hI : Inv st d B) : ∀ limit x, B - d x < limit →
    ∃ l, subsOf limit st x = .ok l ∧
      ∀ y, y ∈ l ↔ Relation.ReflTransGen (fun a b => st.parent a = some b) y x := by
  intro limit
  induction limit with
  | zero => intro x h; omega
  | succ limit ih =>
    intro x hx
    have hch : ∀ y ∈ st.subs x, ∃ l, subsOf limit st y = .ok l ∧
        ∀ z, z ∈ l ↔ Relation.ReflTransGen (fun a b => st.parent a = some b) z y := by
      intro y hy
      have hlt := hI.lt y x ((hI.mem x y).1 hy)
      have := hI.le y
      exact ih y (by omega)
    have hm : ∀ ys : List Nat, (∀ y ∈ ys, ∃ l, subsOf limit st y = .ok l ∧
        ∀ z, z ∈ l ↔ Relation.ReflTransGen (fun a b => st.parent a = some b) z y) →
        ∃ ls, ys.mapM (subsOf limit st) = .ok ls ∧
          ∀ z, z ∈ ls.flatten ↔ ∃ y ∈ ys, Relation.ReflTransGen (fun a b => st.parent a = some b) z y := by
      intro ys
      induction ys with
      | nil => intro _; exact ⟨[], rfl, by simp⟩
      | cons y ys ihy =>
        intro h
        obtain ⟨l, e, hl⟩ := h y (by simp)
        obtain ⟨ls, e', hls⟩ := ihy (fun y hy => h y (by simp [hy]))
        refine ⟨l :: ls, ?_, ?_⟩
        · rw [List.mapM_cons]; simp [e, e', bind, Except.bind, pure, Except.pure]
        · intro z; simp only [List.flatten_cons, List.mem_append, hl, hls, List.exists_mem_cons_iff]
    obtain ⟨ls, e, hls⟩ := hm _ hch
    refine ⟨x :: st.subs x ++ ls.flatten, ?_, ?_⟩
    · simp only [subsOf, e]
    · intro y
      simp only [List.cons_append, List.mem_cons, List.mem_append, hls]
      constructor
      · rintro (rfl | h | ⟨z, hz, h⟩)
        · exact .refl
        · exact .single ((hI.mem x y).1 h)
        · exact h.tail ((hI.mem x z).1 hz)
      · intro h
        rcases Relation.ReflTransGen.cases_tail h with h | ⟨z, h, hz⟩
        · exact Or.inl h.symm
        · exact Or.inr (Or.inr ⟨z, (hI.mem x z).2 hz, h⟩)

theorem rootOf_iff_reach {st : St} {r : Nat} (hr : st.parent r = none) (y : Nat) :
    Relation.ReflTransGen (fun a b => st.parent a = some b) y r ↔ RootOf st y r := by
  constructor
  · intro h
    induction h using Relation.ReflTransGen.head_induction_on with
    | refl => exact .here r hr
    | head h _ ih => exact .up _ _ _ h ih
  · intro h
    induction h with
    | here _ _ => exact .refl
    | up x p r hp _ ih => exact .head hp (ih hr)

theorem rangeLoop_spec {H : Type} [DecidableEq H] (hs : List (H × Nat)) :
    ∀ (rest : List (H × Nat)) (start e : Nat) (h : H) (prev : H × Nat),
    start < e → e + rest.length = hs.length → hs.drop e = rest → hs[e - 1]? = some prev →
    (∀ i, start ≤ i → i < e → ∃ x, hs[i]? = some (h, x)) →
    (∀ i x y, start ≤ i → i + 1 < e → hs[i]? = some x → hs[i + 1]? = some y → x.2 ≤ y.2) →
    (start = 0 ∨ ∃ x y, hs[start - 1]? = some x ∧ hs[start]? = some y ∧ (y.1 ≠ x.1 ∨ y.2 < x.2)) →
    Tiles start hs.length (rangeLoop start h prev e rest) ∧
    ∀ r ∈ rangeLoop start h prev e rest,
      (∀ i, r.1.1 ≤ i → i < r.1.2 → ∃ x, hs[i]? = some (r.2, x)) ∧
      (∀ i x y, r.1.1 ≤ i → i + 1 < r.1.2 → hs[i]? = some x → hs[i + 1]? = some y → x.2 ≤ y.2) ∧
      (r.1.1 = 0 ∨ ∃ x y, hs[r.1.1 - 1]? = some x ∧ hs[r.1.1]? = some y ∧ (y.1 ≠ x.1 ∨ y.2 < x.2)) := by
  intro rest
  induction rest with
  | nil =>
    intro start e h prev hlt hlen _ _ h1 h2 h3
    simp at hlen
    simp only [rangeLoop]
    refine ⟨?_, ?_⟩
    · rw [← hlen]; exact .last _ _ _ hlt
    · intro r hr
      simp only [List.mem_singleton] at hr
      subst hr
      exact ⟨h1, h2, h3⟩
  | cons x rest ih =>
    intro start e h prev hlt hlen hdrop hprev h1 h2 h3
    have hx : hs[e]? = some x := by
      have := congrArg (fun l => l[0]?) hdrop
      simpa using this
    have hdrop' : hs.drop (e + 1) = rest := by
      have := congrArg (List.drop 1) hdrop
      simpa [List.drop_drop, Nat.add_comm] using this
    simp only [List.length_cons] at hlen
    have hph : prev.1 = h := by
      obtain ⟨x', hx'⟩ := h1 (e - 1) (by omega) (by omega)
      rw [hprev] at hx'
      have := Option.some.inj hx'
      rw [this]
    simp only [rangeLoop]
    by_cases hc : x.1 ≠ prev.1 ∨ x.2 < prev.2
    · rw [if_pos hc]
      obtain ⟨a, b⟩ := ih e (e + 1) x.1 x (by omega) (by omega) hdrop' (by simpa using hx)
        (by intro i hi hi'
            have : i = e := by omega
            subst this; exact ⟨x.2, hx⟩)
        (by intro i _ _ hi hi'; omega)
        (Or.inr ⟨prev, x, hprev, hx, hc⟩)
      refine ⟨.cons _ _ _ _ _ hlt a, ?_⟩
      intro r hr
      rcases List.mem_cons.1 hr with rfl | hr
      · exact ⟨h1, h2, h3⟩
      · exact b r hr
    · rw [if_neg hc]
      push Not at hc
      refine ih start (e + 1) h x (by omega) (by omega) hdrop' (by simpa using hx) ?_ ?_ h3
      · intro i hi hi'
        by_cases hie : i = e
        · subst hie; exact ⟨x.2, by rw [hx, ← hph, ← hc.1]⟩
        · exact h1 i hi (by omega)
      · intro i u v hi hi' hu hv
        by_cases hie : i + 1 = e
        · subst hie
          rw [hx] at hv; cases hv
          rw [Nat.add_sub_cancel, hu] at hprev; cases hprev
          exact hc.2
        · exact h2 i u v hi (by omega) hu hv

end Verif.ChannelFlow
