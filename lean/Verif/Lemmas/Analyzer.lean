import Verif.Spec.Analyzer

/-! Helper lemmas for `Verif/Props/Analyzer.lean`. -/

namespace Verif.Analyzer
open Verif

mutual
theorem shape_total : ∀ o : Out, (Supported o → ∃ s, getShape o = .ok s) ∧ (¬ Supported o → getShape o = .error .notImplemented)
  | .tensor d => ⟨fun _ => ⟨_, by rw [getShape]⟩, fun h => absurd trivial (by simpa [Supported] using h)⟩
  | .seq l => by
    obtain ⟨h1, h2⟩ := shapes_total l
    constructor
    · intro h
      obtain ⟨s, hs⟩ := h1 (by simpa [Supported] using h)
      exact ⟨.seq s, by rw [getShape, hs]⟩
    · intro h
      rw [getShape, h2 (by simpa [Supported] using h)]
  | .dict l => by
    obtain ⟨h1, h2⟩ := shapeD_total l
    constructor
    · intro h
      obtain ⟨s, hs⟩ := h1 (by simpa [Supported] using h)
      exact ⟨.dict s, by rw [getShape, hs]⟩
    · intro h
      rw [getShape, h2 (by simpa [Supported] using h)]
  | .other => ⟨fun h => absurd h (by simp [Supported]), fun _ => by rw [getShape]⟩
theorem shapes_total : ∀ l : List Out,
    (SupportedL l → ∃ s, getShapes l = .ok s) ∧ (¬ SupportedL l → getShapes l = .error .notImplemented)
  | [] => ⟨fun _ => ⟨[], by rw [getShapes]⟩, fun h => absurd (by simp [SupportedL]) h⟩
  | o :: l => by
    obtain ⟨h1, h2⟩ := shape_total o
    obtain ⟨h3, h4⟩ := shapes_total l
    constructor
    · intro h
      rw [SupportedL] at h
      obtain ⟨s, hs⟩ := h1 h.1
      obtain ⟨t, ht⟩ := h3 h.2
      exact ⟨s :: t, by rw [getShapes, hs]; dsimp only; rw [ht]⟩
    · intro h
      rw [SupportedL] at h
      by_cases ho : Supported o
      · obtain ⟨s, hs⟩ := h1 ho
        rw [getShapes, hs]; dsimp only; rw [h4 (fun hl => h ⟨ho, hl⟩)]
      · rw [getShapes, h2 ho]
theorem shapeD_total : ∀ l : List (String × Out),
    (SupportedD l → ∃ s, getShapeDict l = .ok s) ∧ (¬ SupportedD l → getShapeDict l = .error .notImplemented)
  | [] => ⟨fun _ => ⟨[], by rw [getShapeDict]⟩, fun h => absurd (by simp [SupportedD]) h⟩
  | (k, o) :: l => by
    obtain ⟨h1, h2⟩ := shape_total o
    obtain ⟨h3, h4⟩ := shapeD_total l
    constructor
    · intro h
      rw [SupportedD] at h
      obtain ⟨s, hs⟩ := h1 h.1
      obtain ⟨t, ht⟩ := h3 h.2
      exact ⟨(k, s) :: t, by rw [getShapeDict, hs]; dsimp only; rw [ht]⟩
    · intro h
      rw [SupportedD] at h
      by_cases ho : Supported o
      · obtain ⟨s, hs⟩ := h1 ho
        rw [getShapeDict, hs]; dsimp only; rw [h4 (fun hl => h ⟨ho, hl⟩)]
      · rw [getShapeDict, h2 ho]
end

/-- The parts of a successful `getShape`. -/
theorem getShape_seq {l : List Out} {s : Form} (h : getShape (.seq l) = .ok s) : ∃ t, getShapes l = .ok t ∧ s = .seq t := by
  rw [getShape] at h
  cases hq : getShapes l with
  | error e => rw [hq] at h; cases h
  | ok t => rw [hq] at h; cases h; exact ⟨t, rfl, rfl⟩

theorem getShape_dict {l : List (String × Out)} {s : Form} (h : getShape (.dict l) = .ok s) :
    ∃ t, getShapeDict l = .ok t ∧ s = .dict t := by
  rw [getShape] at h
  cases hq : getShapeDict l with
  | error e => rw [hq] at h; cases h
  | ok t => rw [hq] at h; cases h; exact ⟨t, rfl, rfl⟩

theorem getShapes_cons {o : Out} {l : List Out} {s : List Form} (h : getShapes (o :: l) = .ok s) :
    ∃ a t, getShape o = .ok a ∧ getShapes l = .ok t ∧ s = a :: t := by
  rw [getShapes] at h
  cases hq : getShape o with
  | error e => rw [hq] at h; cases h
  | ok a =>
    rw [hq] at h; dsimp only at h
    cases hr : getShapes l with
    | error e => rw [hr] at h; cases h
    | ok t => rw [hr] at h; cases h; exact ⟨a, t, rfl, rfl, rfl⟩

theorem getShapeDict_cons {k : String} {o : Out} {l : List (String × Out)} {s : List (String × Form)}
    (h : getShapeDict ((k, o) :: l) = .ok s) : ∃ a t, getShape o = .ok a ∧ getShapeDict l = .ok t ∧ s = (k, a) :: t := by
  rw [getShapeDict] at h
  cases hq : getShape o with
  | error e => rw [hq] at h; cases h
  | ok a =>
    rw [hq] at h; dsimp only at h
    cases hr : getShapeDict l with
    | error e => rw [hr] at h; cases h
    | ok t => rw [hr] at h; cases h; exact ⟨a, t, rfl, rfl, rfl⟩

mutual
theorem same_iff : ∀ (a b : Out) (s t : Form), getShape a = .ok s → getShape b = .ok t → (s.same t = true ↔ SameForm a b)
  | .tensor d, .tensor e, s, t, hs, ht => by
    rw [getShape] at hs ht; cases hs; cases ht; simp [Form.same, SameForm]
  | .tensor d, .seq l, s, t, hs, ht => by
    rw [getShape] at hs; obtain ⟨u, _, rfl⟩ := getShape_seq ht; cases hs; simp [Form.same, SameForm]
  | .tensor d, .dict l, s, t, hs, ht => by
    rw [getShape] at hs; obtain ⟨u, _, rfl⟩ := getShape_dict ht; cases hs; simp [Form.same, SameForm]
  | .other, _, s, t, hs, _ => by rw [getShape] at hs; cases hs
  | .tensor _, .other, s, t, _, ht => by rw [getShape] at ht; cases ht
  | .seq _, .other, s, t, _, ht => by rw [getShape] at ht; cases ht
  | .dict _, .other, s, t, _, ht => by rw [getShape] at ht; cases ht
  | .seq l, .seq r, s, t, hs, ht => by
    obtain ⟨u, hu, rfl⟩ := getShape_seq hs
    obtain ⟨v, hv, rfl⟩ := getShape_seq ht
    rw [Form.same, SameForm]; exact sameL_iff l r u v hu hv
  | .dict l, .dict r, s, t, hs, ht => by
    obtain ⟨u, hu, rfl⟩ := getShape_dict hs
    obtain ⟨v, hv, rfl⟩ := getShape_dict ht
    rw [Form.same, SameForm]; exact sameD_iff l r u v hu hv
  | .seq l, .tensor d, s, t, hs, ht => by
    rw [getShape] at ht; obtain ⟨u, _, rfl⟩ := getShape_seq hs; cases ht; simp [Form.same, SameForm]
  | .dict l, .tensor d, s, t, hs, ht => by
    rw [getShape] at ht; obtain ⟨u, _, rfl⟩ := getShape_dict hs; cases ht; simp [Form.same, SameForm]
  | .seq l, .dict r, s, t, hs, ht => by
    obtain ⟨u, hu, rfl⟩ := getShape_seq hs
    obtain ⟨v, hv, rfl⟩ := getShape_dict ht
    simp [Form.same, SameForm]
  | .dict l, .seq r, s, t, hs, ht => by
    obtain ⟨u, hu, rfl⟩ := getShape_dict hs
    obtain ⟨v, hv, rfl⟩ := getShape_seq ht
    simp [Form.same, SameForm]
theorem sameL_iff : ∀ (a b : List Out) (s t : List Form), getShapes a = .ok s → getShapes b = .ok t →
    (sameList s t = true ↔ SameFormL a b)
  | [], [], s, t, hs, ht => by rw [getShapes] at hs ht; cases hs; cases ht; simp [sameList, SameFormL]
  | [], b :: r, s, t, hs, ht => by
    rw [getShapes] at hs; obtain ⟨x, y, _, _, rfl⟩ := getShapes_cons ht; cases hs; simp [sameList, SameFormL]
  | a :: l, [], s, t, hs, ht => by
    rw [getShapes] at ht; obtain ⟨x, y, _, _, rfl⟩ := getShapes_cons hs; cases ht; simp [sameList, SameFormL]
  | a :: l, b :: r, s, t, hs, ht => by
    obtain ⟨x, y, hx, hy, rfl⟩ := getShapes_cons hs
    obtain ⟨u, v, hu, hv, rfl⟩ := getShapes_cons ht
    rw [sameList, SameFormL, Bool.and_eq_true, same_iff a b x u hx hu, sameL_iff l r y v hy hv]
theorem sameD_iff : ∀ (a b : List (String × Out)) (s t : List (String × Form)), getShapeDict a = .ok s → getShapeDict b = .ok t →
    (sameDict s t = true ↔ SameFormD a b)
  | [], [], s, t, hs, ht => by rw [getShapeDict] at hs ht; cases hs; cases ht; simp [sameDict, SameFormD]
  | [], (j, b) :: r, s, t, hs, ht => by
    rw [getShapeDict] at hs; obtain ⟨x, y, _, _, rfl⟩ := getShapeDict_cons ht; cases hs; simp [sameDict, SameFormD]
  | (k, a) :: l, [], s, t, hs, ht => by
    rw [getShapeDict] at ht; obtain ⟨x, y, _, _, rfl⟩ := getShapeDict_cons hs; cases ht; simp [sameDict, SameFormD]
  | (k, a) :: l, (j, b) :: r, s, t, hs, ht => by
    obtain ⟨x, y, hx, hy, rfl⟩ := getShapeDict_cons hs
    obtain ⟨u, v, hu, hv, rfl⟩ := getShapeDict_cons ht
    rw [sameDict, SameFormD, Bool.and_eq_true, Bool.and_eq_true, same_iff a b x u hx hu, sameD_iff l r y v hy hv, beq_iff_eq, and_assoc]
end

/-- The check of two outputs. -/
theorem sameShape_iff (a b : Out) : sameShape a b = .ok () ↔ Supported a ∧ Supported b ∧ SameForm a b := by
  unfold sameShape
  by_cases ha : Supported a
  · obtain ⟨s, hs⟩ := (shape_total a).1 ha
    by_cases hb : Supported b
    · obtain ⟨t, ht⟩ := (shape_total b).1 hb
      rw [hs]; dsimp only; rw [ht]; dsimp only
      by_cases h : s.same t = true
      · rw [if_pos h]; exact ⟨fun _ => ⟨ha, hb, (same_iff a b s t hs ht).1 h⟩, fun _ => rfl⟩
      · rw [if_neg h]
        exact ⟨fun h' => by simp at h', fun h' => absurd ((same_iff a b s t hs ht).2 h'.2.2) h⟩
    · rw [hs]; dsimp only; rw [(shape_total b).2 hb]
      exact ⟨fun h' => by simp at h', fun h' => absurd h'.2.1 hb⟩
  · rw [(shape_total a).2 ha]
    exact ⟨fun h' => by simp at h', fun h' => absurd h'.1 ha⟩

theorem passes_iff {U : Type} (run : List U → Except Err Out) (t : Out) (l : List U) : passes run t l = true ↔ Works run t l := by
  unfold passes forwardUnits Works
  cases hr : run l with
  | error e => simp
  | ok o =>
    dsimp only
    rw [show (∃ o_1, (Except.ok o : Except Err Out) = .ok o_1 ∧ Supported t ∧ Supported o_1 ∧ SameForm t o_1) ↔
      (Supported t ∧ Supported o ∧ SameForm t o) from ⟨fun ⟨_, h, h2⟩ => by cases h; exact h2, fun h => ⟨o, rfl, h⟩⟩, ← sameShape_iff]
    cases hs : sameShape t o with
    | ok u => simp
    | error e => simp

theorem find_nil {U : Type} (pass : List U → Bool) : findMutable pass [] = [] := by
  rw [findMutable]; simp

theorem find_pass {U : Type} (pass : List U → Bool) (l : List U) (h : pass l = true) : findMutable pass l = l := by
  rw [findMutable]
  by_cases hl : l.length = 0
  · rw [if_pos hl]; exact (List.length_eq_zero_iff.1 hl).symm
  · rw [if_neg hl, if_pos h]

theorem find_one {U : Type} (pass : List U → Bool) (u : U) (h : pass [u] = false) : findMutable pass [u] = [] := by
  rw [findMutable]; simp [h]

theorem find_split {U : Type} (pass : List U → Bool) (l : List U) (h : pass l = false) (h2 : 2 ≤ l.length) :
    findMutable pass l = findMutable pass (l.take (l.length / 2)) ++ findMutable pass (l.drop (l.length / 2)) := by
  rw [findMutable, if_neg (by omega), if_neg (by simp [h]), if_neg (by omega)]

/-- Induction over the halving. -/
theorem find_ind {U : Type} (pass : List U → Bool) (Q : List U → List U → Prop) (h0 : Q [] [])
    (h1 : ∀ l, l ≠ [] → pass l = true → Q l l) (h2 : ∀ u, pass [u] = false → Q [u] [])
    (h3 : ∀ a b ra rb, a ≠ [] → b ≠ [] → pass (a ++ b) = false → Q a ra → Q b rb → Q (a ++ b) (ra ++ rb)) :
    ∀ n (l : List U), l.length = n → Q l (findMutable pass l) := by
  intro n
  induction n using Nat.strong_induction_on with
  | _ n ih =>
    intro l hl
    match l, hl with
    | [], _ => rw [find_nil]; exact h0
    | [u], _ =>
      cases hp : pass [u] with
      | true => rw [find_pass _ _ hp]; exact h1 _ (by simp) hp
      | false => rw [find_one _ _ hp]; exact h2 u hp
    | u :: v :: r, hl =>
      cases hp : pass (u :: v :: r) with
      | true => rw [find_pass _ _ hp]; exact h1 _ (by simp) hp
      | false =>
        rw [find_split _ _ hp (by simp)]
        generalize hw : u :: v :: r = w at *
        have hlen : 2 ≤ w.length := by rw [← hw]; simp
        have e : w.take (w.length / 2) ++ w.drop (w.length / 2) = w := List.take_append_drop _ _
        have ha : (w.take (w.length / 2)).length = w.length / 2 := by rw [List.length_take]; omega
        have hb : (w.drop (w.length / 2)).length = w.length - w.length / 2 := List.length_drop
        have := h3 (w.take (w.length / 2)) (w.drop (w.length / 2)) _ _
          (by intro h; rw [h] at ha; simp at ha; omega) (by intro h; rw [h] at hb; simp at hb; omega) (by rw [e]; exact hp)
          (ih _ (by omega) _ ha) (ih _ (by omega) _ hb)
        rwa [e] at this

theorem traverse_all : ∀ (l : List Chan) (d : Bool), (traverse l d).2 = true ↔ ∀ c ∈ l, c.mutable = true
  | [], d => by simp [traverse]
  | c :: l, d => by
    unfold traverse
    by_cases h : c.mutable = false
    · rw [if_pos h]; simp [h]
    · rw [if_neg h, traverse_all l]; simp at h; simp [h]

theorem traverse_dyn : ∀ (l : List Chan) (d : Bool), (∀ c ∈ l, c.mutable = true) →
    ((traverse l d).1 = true ↔ d = true ∨ ∃ c ∈ l, c.dynamic = true)
  | [], d, _ => by simp [traverse]
  | c :: l, d, h => by
    unfold traverse
    have hc := h c (by simp)
    rw [if_neg (by rw [hc]; simp), traverse_dyn l _ (fun x hx => h x (by simp [hx]))]
    simp [or_assoc]

theorem registerOne_same {unit n : Nat} {k k' : Store} {c : Chan} (h : registerOne unit n k c = .ok k') :
    (∃ e, k' = k ++ e) ∧ (c.dynamic = true → n ≤ c.stop - c.start ∧ ∃ r, k'.lookup c.key = some r ∧ r.unit = unit) := by
  unfold registerOne at h
  by_cases hd : c.dynamic = true
  · rw [if_pos hd] at h
    by_cases hm : c.stop - c.start < n
    · rw [if_pos hm] at h; cases h
    · rw [if_neg hm] at h
      by_cases hz : c.stop - c.start ≠ n ∧ n = 0
      · rw [if_pos hz] at h; cases h
      · rw [if_neg hz] at h
        cases hl : k.lookup c.key with
        | some r =>
          rw [hl] at h; dsimp only at h
          by_cases hu : r.unit = unit
          · rw [if_pos hu] at h; cases h
            exact ⟨⟨[], by simp⟩, fun _ => ⟨by omega, r, hl, hu⟩⟩
          · rw [if_neg hu] at h; cases h
        | none =>
          rw [hl] at h; cases h
          refine ⟨⟨_, rfl⟩, fun _ => ⟨by omega, ?_⟩⟩
          generalize hv : (if c.stop - c.start = n then (⟨unit, 1, 1⟩ : Reg)
            else if (c.stop - c.start) % n = 0 then ⟨unit, (c.stop - c.start) / n, 1⟩ else ⟨unit, c.stop - c.start, n⟩) = v
          refine ⟨v, ?_, ?_⟩
          · rw [List.lookup_append, hl]; simp
          · rw [← hv]; split_ifs <;> rfl
  · rw [if_neg hd] at h; cases h
    exact ⟨⟨[], by simp⟩, fun h2 => absurd h2 hd⟩

theorem lookup_prefix {k e : Store} {key : String × Bool × Nat × Nat} {r : Reg} (h : k.lookup key = some r) :
    (k ++ e).lookup key = some r := by
  rw [List.lookup_append, h]; rfl

theorem registerAll_spec (unit n : Nat) : ∀ (l : List Chan) (k k' : Store), registerAll unit n l k = .ok k' →
    (∃ e, k' = k ++ e) ∧ ∀ c ∈ l, c.dynamic = true → n ≤ c.stop - c.start ∧ ∃ r, k'.lookup c.key = some r ∧ r.unit = unit
  | [], k, k', h => by cases h; exact ⟨⟨[], by simp⟩, by simp⟩
  | c :: l, k, k', h => by
    rw [registerAll] at h
    cases hq : registerOne unit n k c with
    | error e => rw [hq] at h; cases h
    | ok k1 =>
      rw [hq] at h; dsimp only at h
      obtain ⟨⟨e1, h1⟩, h2⟩ := registerOne_same hq
      obtain ⟨⟨e2, h3⟩, h4⟩ := registerAll_spec unit n l k1 k' h
      refine ⟨⟨e1 ++ e2, by rw [h3, h1, List.append_assoc]⟩, ?_⟩
      intro c' hc' hd
      rcases List.mem_cons.1 hc' with rfl | hc'
      · obtain ⟨hn, r, hr, hu⟩ := h2 hd
        exact ⟨hn, r, by rw [h3]; exact lookup_prefix hr, hu⟩
      · exact h4 c' hc' hd

theorem registerAll_again (unit n : Nat) (k : Store) : ∀ (l : List Chan),
    (∀ c ∈ l, c.dynamic = true → n ≤ c.stop - c.start ∧ ¬ (c.stop - c.start ≠ n ∧ n = 0) ∧ ∃ r, k.lookup c.key = some r ∧ r.unit = unit) →
    registerAll unit n l k = .ok k
  | [], _ => rfl
  | c :: l, h => by
    have h1 : registerOne unit n k c = .ok k := by
      unfold registerOne
      by_cases hd : c.dynamic = true
      · obtain ⟨hn, hz, r, hr, hu⟩ := h c (by simp) hd
        rw [if_pos hd]; dsimp only; rw [if_neg (by omega), if_neg hz, hr]; dsimp only; rw [if_pos hu]
      · rw [if_neg hd]
    rw [registerAll, h1]; dsimp only
    exact registerAll_again unit n k l (fun c' hc' => h c' (by simp [hc']))

end Verif.Analyzer
