import Verif.Lemmas.Predictor

namespace Verif.Predictor
open Verif

variable {α : Type} [DecidableEq α]

/-- Encoding an architecture (given in the order of the search groups) and decoding it returns the
architecture, in both encodings, unless the vector has a single entry. Missing: vectors of one entry, see `C45_single_violated`,
and other orders, see `C45_order_violated`. -/
theorem C45_roundtrip_partial (gs : List (Group α)) (hn : (gs.map Group.key).Nodup) (m : List (String × Entry α)) (hm : Fits gs m)
    (enc : Enc) (hlen : ∀ v, encode gs m = .ok v → (v.pick enc).length ≠ 1) :
    ∃ v, encode gs m = .ok v ∧ decode enc gs (v.pick enc) = .ok (chosen m) := by
  have he := encode_fits gs hn m hm
  refine ⟨_, he, ?_⟩
  obtain ⟨h1, h2⟩ := decodeLoop_fits gs m hm
  rw [decode, if_neg (by rintro ⟨h, _⟩; exact hlen _ he h)]
  cases enc with
  | normal => exact h1
  | onehot => exact h2

/-- A search space with a single group cannot be decoded in the normal encoding. -/
theorem C45_single_violated (g : Group α) (e : String × Entry α) (hm : Fits [g] [e]) :
    ∃ v, encode [g] [e] = .ok v ∧ decode .normal [g] (v.pick .normal) = .error .index := by
  refine ⟨_, encode_fits [g] (by simp) _ hm, ?_⟩
  rw [decode, if_pos ⟨by simp [Vecs.pick, normalOf], by simp⟩]

/-- The order of the entries matters: the same architecture listed in another order decodes to a
different one. -/
theorem C45_order_violated :
    let gs : List (Group String) := [⟨"a", ["x", "y"]⟩, ⟨"b", ["x", "y"]⟩]
    let m : List (String × Entry String) := [("b", .plain "y"), ("a", .plain "x")]
    ∃ v, encode gs m = .ok v ∧ decode .onehot gs (v.pick .onehot) = .ok [("a", "y"), ("b", "x")] ∧
      decode .normal gs (v.pick .normal) = .ok [("a", "y"), ("b", "x")] := by
  refine ⟨⟨[1, 0], [0, 1, 1, 0]⟩, by decide +kernel, by decide +kernel, by decide +kernel⟩

/-- The one-hot vector is one block per searchable element, as long as its list of choices, with
exactly one 1, at the place of the choice, and 0 elsewhere; the normal vector holds these places. -/
theorem C45_onehot (gs : List (Group α)) (hn : (gs.map Group.key).Nodup) (m : List (String × Entry α)) (hm : Fits gs m) :
    ∃ v blocks, encode gs m = .ok v ∧ v.onehot = blocks.flatten ∧ v.normal.length = gs.length ∧
      List.Forall₂ (fun (g : Group α) (b : List Nat) => b.length = g.choices.length ∧ b.count 1 = 1 ∧ ∀ x ∈ b, x = 0 ∨ x = 1) gs blocks ∧
      List.Forall₂ (fun (ge : Group α × (String × Entry α)) (p : List Nat × Nat) => p.1[p.2]? = some 1 ∧ ge.1.choices[p.2]? = some ge.2.2.chosen)
        (gs.zip m) (blocks.zip v.normal) := by
  refine ⟨_, (gs.zip m).map (fun p => block p.1.choices.length (p.1.choices.idxOf p.2.2.chosen)), encode_fits gs hn m hm, ?_, ?_, ?_, ?_⟩
  · simp [onehotOf, List.flatMap]
  · simp only [normalOf, List.length_map, List.length_zip]
    rw [← List.Forall₂.length_eq hm]
    simp
  · induction hm with
    | nil => simp
    | @cons g e gs m he _ ih =>
      rw [List.map_cons, List.nodup_cons] at hn
      have hlt := (index_ok he.2.1).2.1
      simp only [List.zip_cons_cons, List.map_cons]
      refine List.Forall₂.cons ⟨block_length _ _, (block_count _ _ hlt).2.1, (block_count _ _ hlt).2.2⟩ (ih hn.2)
  · induction hm with
    | nil => simp [normalOf]
    | @cons g e gs m he _ ih =>
      rw [List.map_cons, List.nodup_cons] at hn
      have hlt := (index_ok he.2.1).2.1
      simp only [normalOf, List.zip_cons_cons, List.map_cons]
      refine List.Forall₂.cons ⟨?_, (index_ok he.2.1).2.2⟩ (ih hn.2)
      simp [block, hlt]

/-- Distinct architectures (in the order of the groups) have distinct encodings. -/
theorem C45_injective (gs : List (Group α)) (hn : (gs.map Group.key).Nodup) (m m' : List (String × Entry α)) (hm : Fits gs m) (hm' : Fits gs m')
    (enc : Enc) (v v' : Vecs) (hv : encode gs m = .ok v) (hv' : encode gs m' = .ok v') (h : v.pick enc = v'.pick enc) : chosen m = chosen m' := by
  rw [encode_fits gs hn m hm] at hv
  rw [encode_fits gs hn m' hm'] at hv'
  cases hv
  cases hv'
  obtain ⟨a1, a2⟩ := decodeLoop_fits gs m hm
  obtain ⟨b1, b2⟩ := decodeLoop_fits gs m' hm'
  cases enc with
  | normal =>
    have h' : normalOf gs m = normalOf gs m' := h
    rw [h', b1] at a1
    exact (Except.ok.inj a1).symm
  | onehot =>
    have h' : onehotOf gs m = onehotOf gs m' := h
    rw [h', b2] at a2
    exact (Except.ok.inj a2).symm

/-- Without the order, two different architectures can have the same encoding. -/
theorem C45_injective_violated :
    let gs : List (Group String) := [⟨"a", ["x", "y"]⟩, ⟨"b", ["x", "y"]⟩]
    encode gs [("a", .plain "y"), ("b", .plain "x")] = encode gs [("b", .plain "y"), ("a", .plain "x")] := by
  decide +kernel

/-- The refusals: a wrong number of entries, a dumped entry without its choices, an unknown key,
and a choice that is not one of the choices. -/
theorem C45_refused (gs : List (Group α)) (m : List (String × Entry α)) (k : String) (c : α) :
    (m.length ≠ gs.length → encode gs m = .error .assertion) ∧
    (encodeLoop gs ((k, .dump none c) :: m) = .error .assertion) ∧
    ((∀ g ∈ gs, g.key ≠ k) → encodeLoop gs ((k, .plain c) :: m) = .error .key) ∧
    (∀ l, c ∉ l → encodeLoop gs ((k, .dump (some l) c) :: m) = .error .value) := by
  refine ⟨fun h => by rw [encode, if_pos h], rfl, ?_, ?_⟩
  · intro h
    have : gs.find? (·.key == k) = none := by
      rw [List.find?_eq_none]
      intro g hg
      simpa using h g hg
    simp only [encodeLoop, choicesOf, this, bind, Except.bind]
  · intro l hl
    simp [encodeLoop, choicesOf, Entry.chosen, index, hl, bind, Except.bind]

example :
    let gs : List (Group String) := [⟨"a", ["x", "y", "z"]⟩, ⟨"b", ["p", "q"]⟩]
    let m : List (String × Entry String) := [("a", .plain "z"), ("b", .dump (some ["p", "q"]) "p")]
    Fits gs m ∧ encode gs m = .ok ⟨[2, 0], [0, 0, 1, 1, 0]⟩ := by
  refine ⟨?_, by decide +kernel⟩
  refine List.Forall₂.cons ⟨rfl, by decide +kernel, ?_⟩ (List.Forall₂.cons ⟨rfl, by decide +kernel, ?_⟩ List.Forall₂.nil)
  · rintro all ⟨c, h⟩; cases h
  · rintro all ⟨c, h⟩; cases h; rfl

/-- A number that is no place in the list of choices of its (several) choices is refused,
wherever it stands; with one choice any number stands for it. -/
theorem C45_decode_refused (g : Group α) (gs : List (Group α)) (i : Nat) (v : List Nat) :
    (1 < g.choices.length → g.choices.length ≤ i → decodeLoop .normal (g :: gs) (i :: v) = .error .index) ∧
    (g.choices = [] → decodeLoop .normal (g :: gs) (i :: v) = .error .index) ∧
    (∀ c, g.choices = [c] → decodeLoop .normal (g :: gs) (i :: v) = (decodeLoop .normal gs v).map ((g.key, c) :: ·)) ∧
    decodeLoop .normal (g :: gs) [] = .error .index := by
  refine ⟨fun h1 h2 => ?_, fun h => ?_, fun c h => ?_, rfl⟩
  · simp [decodeLoop, pickChoice, h1, h2, bind, Except.bind]
  · simp [decodeLoop, pickChoice, h, bind, Except.bind]
  · simp only [decodeLoop, pickChoice, h, bind, Except.bind, pure, Except.pure]
    cases decodeLoop .normal gs v <;> rfl

example : decodeLoop .normal [⟨"a", [10, 20]⟩, ⟨"b", [1]⟩] [2, 0] = .error .index :=
  (C45_decode_refused ⟨"a", [10, 20]⟩ _ 2 [0]).1 (by decide) (by decide)

end Verif.Predictor
