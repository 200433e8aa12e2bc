import Verif.Spec.Predefined

/-! Helper lemmas for `Verif/Props/Predefined.lean`. -/

namespace Verif.Predefined
open Verif

/-- The units and choices after some registered ranges. -/
def step (st : St) (ev : Nat × Bool × Chan) : St :=
  let st := if st.1.any (fun u => u.ch == ev.1) then st
    else (st.1 ++ [(unitOf ev.1 (st.2 ev.1)).1], put st.2 ev.1 (unitOf ev.1 (st.2 ev.1)).2)
  (st.1.map (fun u => if u.ch = ev.1 then join ev.2.1 ev.2.2 u else u), st.2)

/-- The registered ranges of a layer, with the choices `ms`. -/
def evsOf (l : Layer) (ins outs : List Entry) (mi mo : List Nat) : List (Nat × Bool × Chan) :=
  ((ins.zip mi).map fun p => (p.2, false, (⟨l.name, p.1.start, p.1.stop⟩ : Chan))) ++
    (outs.zip mo).map fun p => (p.2, true, (⟨l.name, p.1.start, p.1.stop⟩ : Chan))

/-- What the list of registered ranges of a model has to satisfy. -/
structure Evs (ls : List Layer) (evs : List (Nat × Bool × Chan)) : Prop where
  mem : ∀ m out c, (m, out, c) ∈ evs ↔ Registered ls out c m
  ord : List.Forall₂ Depends (uses ls) (evs.map (·.1))
  both : ∀ l ∈ ls, ∃ ins outs, l.ins = some ins ∧ l.outs = some outs ∧ ∀ e ∈ ins ++ outs, ∃ m, Depends e.use m

/-- The channels of a side of a unit. -/
def sideOf (u : CUnit) : Bool → List Chan
  | true => u.outs
  | false => u.ins

/-- What holds after the registered ranges `evs`, starting from no units and the choices `s`. -/
structure Inv (s : Store) (evs : List (Nat × Bool × Chan)) (st : St) : Prop where
  chs : st.1.map (·.ch) = firsts (evs.map (·.1))
  mem : ∀ u ∈ st.1, ∀ o c, c ∈ sideOf u o ↔ (u.ch, o, c) ∈ evs
  unit : ∀ u ∈ st.1, u.num = (s u.ch).num ∧ u.cands = ascending (offered (s u.ch)) ∧ st.2 u.ch = { s u.ch with cands := u.cands }
  rest : ∀ m, m ∉ evs.map (·.1) → st.2 m = s m

/-- What the setting of units needs of the choices. -/
def Ready (us : List CUnit) (s : Store) : Prop :=
  ∀ u ∈ us, (∀ x ∈ u.cands, 1 ≤ x) ∧ (s u.ch).cands = u.cands ∧ (s u.ch).num = u.num

theorem source_ok (u : Use) (m : Nat) : source u = .ok m ↔ Depends u m := by
  cases u with
  | direct m' => simp [source, Depends]
  | derived chans r =>
    unfold source Depends
    dsimp only
    have key : ∀ x, x ∈ chans.dedup ↔ x ∈ chans := fun x => List.mem_dedup
    have nd : chans.dedup.Nodup := List.nodup_dedup chans
    generalize chans.dedup = q at key nd
    match q, key, nd with
    | [], key, _ =>
      constructor
      · intro h; cases h
      · rintro ⟨h1, _⟩
        exact absurd (List.eq_nil_iff_forall_not_mem.2 fun x hx => by simpa using (key x).2 hx) h1
    | [x], key, _ =>
      constructor
      · intro h
        have hx : x = m := by simpa using h
        subst hx
        constructor
        · rintro rfl
          simpa using (key x).1 (by simp)
        · intro y hy
          simpa using (key y).2 hy
      · rintro ⟨_, h2⟩
        dsimp only
        rw [h2 x ((key x).1 (by simp))]
    | x :: y :: t, key, nd =>
      constructor
      · intro h; cases h
      · rintro ⟨_, h2⟩
        have hx := h2 x ((key x).1 (by simp))
        have hy := h2 y ((key y).1 (by simp))
        subst hx; subst hy
        simp at nd

theorem source_error (u : Use) {err : Err} (h : source u = .error err) : err = .assertion ∧ ∀ m, ¬ Depends u m := by
  constructor
  · cases u with
    | direct m => cases h
    | derived chans r =>
      unfold source at h
      dsimp only at h
      generalize chans.dedup = q at h
      match q, h with
      | [], h => cases h; rfl
      | _ :: _ :: _, h => cases h; rfl
  · intro m hm
    rw [(source_ok u m).2 hm] at h
    cases h

theorem firsts_mem (l : List Nat) (x : Nat) : x ∈ firsts l ↔ x ∈ l := by
  induction l with
  | nil => simp [firsts]
  | cons y ys ih =>
    simp only [firsts, List.mem_cons, List.mem_filter, decide_eq_true_eq, ih]
    by_cases h : x = y <;> simp [h]

theorem firsts_snoc (l : List Nat) (x : Nat) : firsts (l ++ [x]) = if x ∈ l then firsts l else firsts l ++ [x] := by
  induction l with
  | nil => simp [firsts]
  | cons y ys ih =>
    simp only [List.cons_append, firsts, ih, List.mem_cons]
    by_cases h1 : x ∈ ys
    · simp [h1]
    · by_cases h2 : x = y
      · subst h2
        simp [h1, List.filter_append]
      · simp [h1, h2, List.filter_append]

theorem firsts_nodup (l : List Nat) : (firsts l).Nodup := by
  induction l with
  | nil => simp [firsts]
  | cons y ys ih =>
    simp only [firsts, List.nodup_cons]
    exact ⟨by simp, ih.filter _⟩

theorem addEntry_eq (layer : String) (out : Bool) (e : Entry) (st : St) {m : Nat} (h : source e.use = .ok m) :
    addEntry layer out e st = .ok (step st (m, out, ⟨layer, e.start, e.stop⟩)) := by
  unfold addEntry step
  rw [h]

theorem addEntries_run (layer : String) (out : Bool) : ∀ (es : List Entry) (st st' : St), addEntries layer out es st = .ok st' →
    ∃ ms : List Nat, List.Forall₂ (fun e m => Depends e.use m) es ms ∧
      st' = ((es.zip ms).map fun p => (p.2, out, (⟨layer, p.1.start, p.1.stop⟩ : Chan))).foldl step st
  | [], st, st', h => by
    simp only [addEntries, Except.ok.injEq] at h
    exact ⟨[], by simp, by simp [h]⟩
  | e :: es, st, st', h => by
    rw [addEntries] at h
    cases hs : source e.use with
    | error err => rw [addEntry, hs] at h; cases h
    | ok m =>
      rw [addEntry_eq layer out e st hs] at h
      obtain ⟨ms, h1, h2⟩ := addEntries_run layer out es _ st' h
      exact ⟨m :: ms, .cons ((source_ok _ _).1 hs) h1, by simpa using h2⟩

theorem mem_zip_forall {es : List Entry} {ms : List Nat} (h : List.Forall₂ (fun e m => Depends e.use m) es ms) :
    (∀ p ∈ es.zip ms, p.1 ∈ es ∧ Depends p.1.use p.2) ∧ ∀ e ∈ es, ∀ m, Depends e.use m → (e, m) ∈ es.zip ms := by
  induction h with
  | nil => simp
  | @cons e m es ms h1 _ ih =>
    constructor
    · intro p hp
      simp only [List.zip_cons_cons, List.mem_cons] at hp
      rcases hp with rfl | hp
      · exact ⟨by simp, h1⟩
      · exact ⟨List.mem_cons_of_mem _ (ih.1 p hp).1, (ih.1 p hp).2⟩
    · intro e' he m' hm
      simp only [List.mem_cons] at he
      rcases he with rfl | he
      · have : m' = m := by
          have a := (source_ok _ _).2 hm
          rw [(source_ok _ _).2 h1] at a
          cases a; rfl
        simp [this]
      · simp [ih.2 e' he m' hm]

theorem forall_map {es : List Entry} {ms : List Nat} (h : List.Forall₂ (fun e m => Depends e.use m) es ms) (out : Bool) (n : String) :
    List.Forall₂ Depends (es.map (·.use)) (((es.zip ms).map fun p => (p.2, out, (⟨n, p.1.start, p.1.stop⟩ : Chan))).map (·.1)) := by
  induction h with
  | nil => simp
  | cons h1 _ ih =>
    simp only [List.map_cons, List.zip_cons_cons]
    exact .cons h1 ih

theorem forall_exists {es : List Entry} {ms : List Nat} (h : List.Forall₂ (fun e m => Depends e.use m) es ms) :
    ∀ e ∈ es, ∃ m, Depends e.use m := by
  induction h with
  | nil => simp
  | cons h1 _ ih =>
    intro e he
    simp only [List.mem_cons] at he
    rcases he with rfl | he
    · exact ⟨_, h1⟩
    · exact ih e he

theorem addLayer_run (l : Layer) (st st' : St) (h : addLayer l st = .ok st') :
    ∃ ins outs mi mo, l.ins = some ins ∧ l.outs = some outs ∧ List.Forall₂ (fun e m => Depends e.use m) ins mi ∧
      List.Forall₂ (fun e m => Depends e.use m) outs mo ∧ st' = (evsOf l ins outs mi mo).foldl step st := by
  unfold addLayer at h
  cases hi : l.ins with
  | none => rw [hi] at h; cases h
  | some ins =>
    rw [hi, addSide] at h
    generalize hq : addEntries l.name false ins st = q at h
    cases q with
    | error e => cases h
    | ok st1 =>
      dsimp only at h
      cases ho : l.outs with
      | none => rw [ho] at h; cases h
      | some outs =>
        rw [ho, addSide] at h
        obtain ⟨mi, h1, h2⟩ := addEntries_run _ _ _ _ _ hq
        obtain ⟨mo, h3, h4⟩ := addEntries_run _ _ _ _ _ h
        exact ⟨ins, outs, mi, mo, rfl, rfl, h1, h3, by rw [evsOf, List.foldl_append, ← h2, ← h4]⟩

theorem evsOf_mem (l : Layer) {ins outs : List Entry} {mi mo : List Nat} (hi : l.ins = some ins) (ho : l.outs = some outs)
    (h1 : List.Forall₂ (fun e m => Depends e.use m) ins mi) (h2 : List.Forall₂ (fun e m => Depends e.use m) outs mo)
    (m : Nat) (out : Bool) (c : Chan) : (m, out, c) ∈ evsOf l ins outs mi mo ↔ Registered [l] out c m := by
  unfold evsOf Registered
  simp only [List.mem_append, List.mem_map, List.mem_singleton, exists_eq_left, Prod.mk.injEq]
  cases out with
  | false =>
    simp only [side, hi, Option.some.injEq, exists_eq_left', Bool.false_eq_true, Bool.true_eq_false, false_and, and_false, exists_false, or_false]
    constructor
    · rintro ⟨p, hp, rfl, _, rfl⟩
      exact ⟨p.1, ((mem_zip_forall h1).1 p hp).1, rfl, ((mem_zip_forall h1).1 p hp).2⟩
    · rintro ⟨e, he, rfl, hd⟩
      exact ⟨(e, m), (mem_zip_forall h1).2 e he m hd, rfl, trivial, rfl⟩
  | true =>
    simp only [side, ho, Option.some.injEq, exists_eq_left', Bool.false_eq_true, Bool.true_eq_false, false_and, and_false, exists_false, false_or]
    constructor
    · rintro ⟨p, hp, rfl, _, rfl⟩
      exact ⟨p.1, ((mem_zip_forall h2).1 p hp).1, rfl, ((mem_zip_forall h2).1 p hp).2⟩
    · rintro ⟨e, he, rfl, hd⟩
      exact ⟨(e, m), (mem_zip_forall h2).2 e he m hd, rfl, trivial, rfl⟩

theorem forall_append {α β : Type} {R : α → β → Prop} {a b : List α} {c d : List β} (h1 : List.Forall₂ R a c) (h2 : List.Forall₂ R b d) :
    List.Forall₂ R (a ++ b) (c ++ d) := by
  induction h1 with
  | nil => simpa using h2
  | cons h _ ih => exact .cons h ih

theorem addLayers_run : ∀ (ls : List Layer) (st st' : St), addLayers ls st = .ok st' →
    ∃ evs, Evs ls evs ∧ st' = evs.foldl step st
  | [], st, st', h => by
    simp only [addLayers, Except.ok.injEq] at h
    refine ⟨[], ⟨?_, ?_, ?_⟩, by simp [h]⟩
    · intro m out c; simp [Registered]
    · simp [uses]
    · simp
  | l :: ls, st, st', h => by
    rw [addLayers] at h
    generalize hq : addLayer l st = q at h
    cases q with
    | error e => cases h
    | ok st1 =>
      obtain ⟨ins, outs, mi, mo, hi, ho, h1, h2, rfl⟩ := addLayer_run l st st1 hq
      obtain ⟨evs, hE, rfl⟩ := addLayers_run ls _ st' h
      refine ⟨evsOf l ins outs mi mo ++ evs, ⟨?_, ?_, ?_⟩, by rw [List.foldl_append]⟩
      · intro m out c
        rw [List.mem_append, evsOf_mem l hi ho h1 h2, hE.mem]
        unfold Registered
        simp only [List.mem_cons, exists_eq_or_imp]
        simp
      · have hu : uses (l :: ls) = (ins.map (·.use) ++ outs.map (·.use)) ++ uses ls := by simp [uses, hi, ho]
        rw [hu, List.map_append]
        refine forall_append ?_ hE.ord
        unfold evsOf
        rw [List.map_append]
        exact forall_append (forall_map h1 _ _) (forall_map h2 _ _)
      · intro l' hl
        simp only [List.mem_cons] at hl
        rcases hl with rfl | hl
        · refine ⟨ins, outs, hi, ho, ?_⟩
          intro e he
          rcases List.mem_append.1 he with he | he
          · exact forall_exists h1 e he
          · exact forall_exists h2 e he
        · exact hE.both l' hl

theorem join_ch (out : Bool) (c : Chan) (u : CUnit) : (join out c u).ch = u.ch ∧ (join out c u).num = u.num ∧ (join out c u).cands = u.cands := by
  unfold join; cases out <;> simp

theorem mem_addTo (l : List Chan) (c x : Chan) : x ∈ addTo l c ↔ x ∈ l ∨ x = c := by
  unfold addTo
  by_cases h : c ∈ l
  · rw [if_pos h]
    constructor
    · exact Or.inl
    · rintro (h2 | rfl)
      · exact h2
      · exact h
  · rw [if_neg h]; simp

theorem mem_join (out o : Bool) (c x : Chan) (u : CUnit) : x ∈ sideOf (join out c u) o ↔ x ∈ sideOf u o ∨ (o = out ∧ x = c) := by
  unfold join
  cases out <;> cases o <;> simp [sideOf, mem_addTo]

theorem any_ch (us : List CUnit) (m : Nat) : us.any (fun u => u.ch == m) = true ↔ m ∈ us.map (·.ch) := by
  rw [List.any_eq_true, List.mem_map]
  constructor
  · rintro ⟨u, hu, h⟩; exact ⟨u, hu, by simpa using h⟩
  · rintro ⟨u, hu, h⟩; exact ⟨u, hu, by simpa using h⟩

theorem unitOf_eq (m : Nat) (c : Choice) :
    (unitOf m c).1 = ⟨m, c.num, ascending (offered c), [], []⟩ ∧ (unitOf m c).2 = { c with cands := ascending (offered c) } := by
  unfold unitOf offered prepared; simp

theorem step_inv (s : Store) (evs : List (Nat × Bool × Chan)) (st : St) (ev : Nat × Bool × Chan) (h : Inv s evs st) :
    Inv s (evs ++ [ev]) (step st ev) := by
  obtain ⟨m, out, c⟩ := ev
  -- the state with the unit
  have key : ∀ st1 : St, st1.1.map (·.ch) = firsts ((evs ++ [(m, out, c)]).map (·.1)) →
      (∀ u ∈ st1.1, ∀ o x, x ∈ sideOf u o ↔ (u.ch, o, x) ∈ evs) →
      (∀ u ∈ st1.1, u.num = (s u.ch).num ∧ u.cands = ascending (offered (s u.ch)) ∧ st1.2 u.ch = { s u.ch with cands := u.cands }) →
      (∀ m', m' ∉ (evs ++ [(m, out, c)]).map (·.1) → st1.2 m' = s m') →
      Inv s (evs ++ [(m, out, c)]) (st1.1.map (fun u => if u.ch = m then join out c u else u), st1.2) := by
    intro st1 h1 h2 h3 h4
    have hch : ∀ u : CUnit, (if u.ch = m then join out c u else u).ch = u.ch ∧ (if u.ch = m then join out c u else u).num = u.num ∧
        (if u.ch = m then join out c u else u).cands = u.cands := by
      intro u
      by_cases hm : u.ch = m
      · rw [if_pos hm]; exact join_ch out c u
      · rw [if_neg hm]; exact ⟨rfl, rfl, rfl⟩
    refine ⟨?_, ?_, ?_, h4⟩
    · rw [← h1, List.map_map]
      apply List.map_congr_left
      intro u _
      exact (hch u).1
    · intro u' hu' o x
      obtain ⟨u, hu, rfl⟩ := List.mem_map.1 hu'
      rw [(hch u).1, List.mem_append, ← h2 u hu o x]
      by_cases hm : u.ch = m
      · rw [if_pos hm, mem_join]
        simp [hm]
      · rw [if_neg hm]
        simp [hm]
    · intro u' hu'
      obtain ⟨u, hu, rfl⟩ := List.mem_map.1 hu'
      rw [(hch u).1, (hch u).2.1, (hch u).2.2]
      exact h3 u hu
  unfold step
  dsimp only
  by_cases ha : st.1.any (fun u => u.ch == m) = true
  · rw [if_pos ha]
    have hm : m ∈ evs.map (·.1) := by
      rw [any_ch, h.chs, firsts_mem] at ha
      exact ha
    apply key
    · rw [h.chs, List.map_append, List.map_singleton, firsts_snoc, if_pos hm]
    · exact h.mem
    · exact h.unit
    · intro m' hm'
      exact h.rest m' fun h2 => hm' (by rw [List.map_append]; exact List.mem_append_left _ h2)
  · rw [if_neg ha]
    have hm : m ∉ evs.map (·.1) := by
      rw [any_ch, h.chs, firsts_mem] at ha
      exact ha
    have hs := h.rest m hm
    have hu0 := unitOf_eq m (st.2 m)
    rw [hs] at hu0
    rw [hs, hu0.1, hu0.2]
    have hne : ∀ u ∈ st.1, u.ch ≠ m := by
      intro u hu e
      apply ha
      rw [any_ch]
      exact List.mem_map.2 ⟨u, hu, e⟩
    apply key
    · dsimp only
      rw [List.map_append, h.chs, List.map_append, List.map_singleton, List.map_singleton, firsts_snoc, if_neg hm]
    · intro u hu o x
      rcases List.mem_append.1 hu with hu | hu
      · exact h.mem u hu o x
      · simp only [List.mem_singleton] at hu
        subst hu
        constructor
        · intro h2; cases o <;> simp [sideOf] at h2
        · intro h2
          exact absurd (List.mem_map.2 ⟨_, h2, rfl⟩) hm
    · intro u hu
      rcases List.mem_append.1 hu with hu | hu
      · obtain ⟨a, b, d⟩ := h.unit u hu
        refine ⟨a, b, ?_⟩
        dsimp only
        rw [put, if_neg (hne u hu), d]
      · simp only [List.mem_singleton] at hu
        subst hu
        exact ⟨rfl, rfl, by simp [put]⟩
    · intro m' hm'
      rw [List.map_append, List.mem_append, not_or] at hm'
      have : m' ≠ m := by simpa using hm'.2
      dsimp only
      rw [put, if_neg this, h.rest m' hm'.1]

theorem run_inv (s : Store) : ∀ evs : List (Nat × Bool × Chan), ∀ pre st, Inv s pre st → Inv s (pre ++ evs) (evs.foldl step st)
  | [], pre, st, h => by simpa using h
  | ev :: evs, pre, st, h => by
    have := run_inv s evs (pre ++ [ev]) (step st ev) (step_inv s pre st ev h)
    simpa using this

theorem units_inv {ls : List Layer} {s : Store} {st : St} (h : units ls s = .ok st) :
    ∃ evs, Evs ls evs ∧ Inv s evs st := by
  obtain ⟨evs, h1, rfl⟩ := addLayers_run ls _ _ h
  refine ⟨evs, h1, ?_⟩
  have := run_inv s evs [] ([], s) ⟨by simp [firsts], by simp, by simp, by simp⟩
  simpa using this

theorem addEntries_ok (layer : String) (out : Bool) : ∀ (es : List Entry) (st : St), (∀ e ∈ es, ∃ m, Depends e.use m) →
    ∃ st', addEntries layer out es st = .ok st'
  | [], st, _ => ⟨st, rfl⟩
  | e :: es, st, h => by
    obtain ⟨m, hm⟩ := h e (by simp)
    rw [addEntries, addEntry_eq layer out e st ((source_ok _ _).2 hm)]
    exact addEntries_ok layer out es _ fun e' he => h e' (List.mem_cons_of_mem _ he)

theorem addLayers_ok : ∀ (ls : List Layer) (st : St),
    (∀ l ∈ ls, ∃ ins outs, l.ins = some ins ∧ l.outs = some outs ∧ ∀ e ∈ ins ++ outs, ∃ m, Depends e.use m) → ∃ st', addLayers ls st = .ok st'
  | [], st, _ => ⟨st, rfl⟩
  | l :: ls, st, h => by
    obtain ⟨ins, outs, hi, ho, he⟩ := h l (by simp)
    obtain ⟨st1, h1⟩ := addEntries_ok l.name false ins st fun e h2 => he e (List.mem_append_left _ h2)
    obtain ⟨st2, h2⟩ := addEntries_ok l.name true outs st1 fun e h2 => he e (List.mem_append_right _ h2)
    rw [addLayers, addLayer, hi, ho, addSide, h1]
    dsimp only
    rw [addSide, h2]
    exact addLayers_ok ls st2 fun l' hl => h l' (List.mem_cons_of_mem _ hl)

theorem addEntries_error (layer : String) (out : Bool) : ∀ (es : List Entry) (st : St) {err : Err}, addEntries layer out es st = .error err →
    err = .assertion ∧ ∃ e ∈ es, ∀ m, ¬ Depends e.use m
  | [], st, _, h => by cases h
  | e :: es, st, err, h => by
    rw [addEntries] at h
    cases hs : source e.use with
    | error e' =>
      rw [addEntry, hs] at h
      cases h
      exact ⟨(source_error _ hs).1, e, by simp, (source_error _ hs).2⟩
    | ok m =>
      rw [addEntry_eq layer out e st hs] at h
      obtain ⟨h1, e', h2, h3⟩ := addEntries_error layer out es _ h
      exact ⟨h1, e', List.mem_cons_of_mem _ h2, h3⟩

theorem addLayers_error : ∀ (ls : List Layer) (st : St) {err : Err}, addLayers ls st = .error err →
    (err = .attribute ∧ ∃ l ∈ ls, l.ins = none ∨ l.outs = none) ∨
      (err = .assertion ∧ ∃ l ∈ ls, ∃ out es, side l out = some es ∧ ∃ e ∈ es, ∀ m, ¬ Depends e.use m)
  | [], st, _, h => by cases h
  | l :: ls, st, err, h => by
    rw [addLayers] at h
    generalize hq : addLayer l st = q at h
    cases q with
    | ok st1 =>
      rcases addLayers_error ls st1 h with ⟨h1, l', h2, h3⟩ | ⟨h1, l', h2, h3⟩
      · exact Or.inl ⟨h1, l', List.mem_cons_of_mem _ h2, h3⟩
      · exact Or.inr ⟨h1, l', List.mem_cons_of_mem _ h2, h3⟩
    | error e =>
      cases h
      unfold addLayer at hq
      cases hi : l.ins with
      | none =>
        rw [hi, addSide] at hq
        cases hq
        exact Or.inl ⟨rfl, l, by simp, Or.inl hi⟩
      | some ins =>
        rw [hi, addSide] at hq
        generalize hq2 : addEntries l.name false ins st = q2 at hq
        cases q2 with
        | error e2 =>
          cases hq
          obtain ⟨h1, h2⟩ := addEntries_error _ _ _ _ hq2
          exact Or.inr ⟨h1, l, by simp, false, ins, hi, h2⟩
        | ok st2 =>
          dsimp only at hq
          cases ho : l.outs with
          | none =>
            rw [ho, addSide] at hq
            cases hq
            exact Or.inl ⟨rfl, l, by simp, Or.inr ho⟩
          | some outs =>
            rw [ho, addSide] at hq
            obtain ⟨h1, h2⟩ := addEntries_error _ _ _ _ hq
            exact Or.inr ⟨h1, l, by simp, true, outs, ho, h2⟩

theorem ascending_sorted (l : List Nat) : (ascending l).Pairwise (· ≤ ·) := by
  have := sortBy_sorted (le := fun a b : Nat => decide (a ≤ b)) (fun a b c h1 h2 => by simp at *; omega) (fun a b => by simp; omega) l
  simpa [ascending] using this

theorem ascending_perm (l : List Nat) : (ascending l).Perm l := sortBy_perm l

theorem offered_pos (c : Choice) : ∀ x ∈ offered c, 1 ≤ x := by
  intro x hx
  unfold offered at hx
  obtain ⟨y, _, rfl⟩ := List.mem_map.1 hx
  omega

theorem offered_ne (c : Choice) : offered c ≠ [] := by
  unfold offered
  by_cases h : c.cands = []
  · rw [if_pos h]; simp
  · rw [if_neg h]; simpa using h

theorem getLastD_sorted : ∀ (l : List Nat) (d : Nat), l.Pairwise (· ≤ ·) → l ≠ [] → l.getLastD d ∈ l ∧ ∀ x ∈ l, x ≤ l.getLastD d
  | [], _, _, h => absurd rfl h
  | [a], d, _, _ => by simp
  | a :: b :: t, d, h, _ => by
    rw [List.pairwise_cons] at h
    obtain ⟨h1, h2⟩ := getLastD_sorted (b :: t) a h.2 (by simp)
    have he : (a :: b :: t).getLastD d = (b :: t).getLastD a := by simp [List.getLastD]
    rw [he]
    refine ⟨List.mem_cons_of_mem _ h1, ?_⟩
    intro x hx
    rcases List.mem_cons.1 hx with rfl | hx
    · exact le_trans (h.1 b (by simp)) (h2 b (by simp))
    · exact h2 x hx

theorem setUnit_ready {us : List CUnit} {s : Store} (h : Ready us s) {u : CUnit} (hu : u ∈ us) (c : Nat) :
    setUnit u c s = if c ∈ u.cands then .ok (put s u.ch { s u.ch with cur := min c u.num }) else .error .assertion := by
  unfold setUnit
  obtain ⟨h1, h2, h3⟩ := h u hu
  by_cases hc : c ∈ u.cands
  · have hm : max 1 c = c := by have := h1 c hc; omega
    rw [if_pos hc, if_pos hc, hm, h2, if_pos hc, h3]
  · rw [if_neg hc, if_neg hc]

theorem ready_put {us : List CUnit} {s : Store} (h : Ready us s) (m k : Nat) : Ready us (put s m { s m with cur := k }) := by
  intro u hu
  obtain ⟨h1, h2, h3⟩ := h u hu
  by_cases hm : u.ch = m
  · refine ⟨h1, ?_, ?_⟩
    · rw [put, if_pos hm, ← h2, hm]
    · rw [put, if_pos hm, ← h3, hm]
  · exact ⟨h1, by rw [put, if_neg hm, h2], by rw [put, if_neg hm, h3]⟩

theorem inv_ready {s : Store} {evs : List (Nat × Bool × Chan)} {st : St} (h : Inv s evs st) : Ready st.1 st.2 := by
  intro u hu
  obtain ⟨a, b, c⟩ := h.unit u hu
  refine ⟨?_, by rw [c], by rw [c, a]⟩
  intro x hx
  rw [b] at hx
  exact offered_pos _ x ((ascending_perm _).mem_iff.1 hx)

theorem setMany_ready {us : List CUnit} : ∀ (h : List (CUnit × Nat)) (s : Store), Ready us s → (∀ p ∈ h, p.1 ∈ us ∧ p.2 ∈ p.1.cands) →
    ∃ s', setMany h s = .ok s' ∧ Ready us s' ∧
      ∀ m, (s' m).num = (s m).num ∧ (s' m).cands = (s m).cands ∧ (s' m).cur = match lastSet m h with
        | none => (s m).cur
        | some c => min c (s m).num
  | [], s, hr, _ => ⟨s, rfl, hr, fun m => ⟨rfl, rfl, rfl⟩⟩
  | (u, c) :: rest, s, hr, hh => by
    obtain ⟨hu, hc⟩ := hh (u, c) (by simp)
    have hr1 := ready_put hr u.ch (min c u.num)
    obtain ⟨s', h1, h2, h3⟩ := setMany_ready rest _ hr1 fun p hp => hh p (List.mem_cons_of_mem _ hp)
    refine ⟨s', by rw [setMany, setUnit_ready hr hu, if_pos hc]; exact h1, h2, ?_⟩
    intro m
    obtain ⟨a, b, d⟩ := h3 m
    have hnum := (hr u hu).2.2
    by_cases hm : u.ch = m
    · subst hm
      rw [a, b, d]
      refine ⟨by simp [put], by simp [put], ?_⟩
      unfold lastSet
      rw [List.filter_cons, if_pos (by simp)]
      rw [List.getLast?_cons]
      cases hl : (List.filter (fun p => decide (p.1.ch = u.ch)) rest).getLast? with
      | none => simp [put, hnum]
      | some q => simp [put]
    · rw [a, b, d]
      refine ⟨by rw [put, if_neg (Ne.symm hm)], by rw [put, if_neg (Ne.symm hm)], ?_⟩
      unfold lastSet
      rw [List.filter_cons, if_neg (by simpa using hm)]
      rw [put, if_neg (Ne.symm hm)]

theorem setTops_many : ∀ (us : List CUnit) (s : Store), setTops us s = setMany (us.map fun u => (u, top u)) s
  | [], s => rfl
  | u :: us, s => by
    rw [setTops, List.map_cons, setMany]
    cases setUnit u (top u) s with
    | error e => rfl
    | ok s => exact setTops_many us s

theorem width_eq (s : Store) (u : Use) (m : Nat) (h : Depends u m) : width s u = (s m).cur * times u := by
  cases u with
  | direct m' =>
    simp only [Depends] at h
    simp [width, times, h]
  | derived chans r =>
    obtain ⟨h1, h2⟩ := h
    cases chans with
    | nil => exact absurd rfl h1
    | cons x xs => simp [width, times, h2 x (by simp)]

theorem top_mem {s : Store} {evs : List (Nat × Bool × Chan)} {st : St} (h : Inv s evs st) {u : CUnit} (hu : u ∈ st.1) :
    top u ∈ u.cands ∧ ∀ x ∈ u.cands, x ≤ top u := by
  obtain ⟨_, b, _⟩ := h.unit u hu
  have hne : u.cands ≠ [] := by
    rw [b]
    intro h2
    have := (ascending_perm (offered (s u.ch))).length_eq
    rw [h2] at this
    exact offered_ne _ (List.length_eq_zero_iff.1 this.symm)
  exact getLastD_sorted u.cands 0 (by rw [b]; exact ascending_sorted _) hne

theorem possible' (ls : List Layer) (s : Store) :
    (∃ st, units ls s = .ok st) ↔
      ∀ l ∈ ls, ∃ ins outs, l.ins = some ins ∧ l.outs = some outs ∧ ∀ e ∈ ins ++ outs, ∃ m, Depends e.use m := by
  constructor
  · rintro ⟨st, h⟩
    obtain ⟨evs, h1, _⟩ := units_inv h
    exact h1.both
  · exact addLayers_ok ls _

theorem forall_mem {us : List Use} {ms : List Nat} (h : List.Forall₂ Depends us ms) : ∀ u ∈ us, ∃ m ∈ ms, Depends u m := by
  induction h with
  | nil => simp
  | cons h1 _ ih =>
    intro u hu
    rcases List.mem_cons.1 hu with rfl | hu
    · exact ⟨_, by simp, h1⟩
    · obtain ⟨m, h2, h3⟩ := ih u hu
      exact ⟨m, List.mem_cons_of_mem _ h2, h3⟩

theorem lastSet_tops (us : List CUnit) (u : CUnit) (hu : u ∈ us) (hn : (us.map (·.ch)).Nodup) :
    lastSet u.ch (us.map fun u => (u, top u)) = some (top u) := by
  have hf : (us.map fun u => (u, top u)).filter (fun p => decide (p.1.ch = u.ch)) = [(u, top u)] := by
    induction us with
    | nil => cases hu
    | cons x xs ih =>
      rw [List.map_cons, List.nodup_cons] at hn
      rcases List.mem_cons.1 hu with rfl | hu
      · rw [List.map_cons, List.filter_cons, if_pos (by simp)]
        congr 1
        rw [List.filter_eq_nil_iff]
        intro p hp
        obtain ⟨y, hy, rfl⟩ := List.mem_map.1 hp
        simp only [decide_eq_true_eq]
        intro e
        exact hn.1 (List.mem_map.2 ⟨y, hy, e⟩)
      · rw [List.map_cons, List.filter_cons, if_neg]
        · exact ih hu hn.2
        · simp only [decide_eq_true_eq]
          intro e
          exact hn.1 (List.mem_map.2 ⟨u, hu, e.symm⟩)
  unfold lastSet
  rw [hf]
  rfl

theorem construct_spec (d : List Nat) (n : Nat) (arg : Option (List Nat)) (k : Nat) (hd : d = [k] ∨ d = [] ∧ k = n) :
    (construct d n arg).1.num = n ∧ (construct d n arg).1.cur = n ∧
      (∀ cs, arg = some cs → cs ≠ [] → (construct d n arg).1.cands.Perm cs ∧ (construct d n arg).1.cands.Pairwise (· ≤ ·)) ∧
      (arg = some [] → (construct d n arg).1.cands = [n]) ∧ (arg = none → (construct d n arg).1.cands = [k]) := by
  cases arg with
  | none =>
    refine ⟨rfl, rfl, by simp, by simp, ?_⟩
    intro _
    rcases hd with rfl | ⟨rfl, rfl⟩ <;> rfl
  | some cs =>
    refine ⟨rfl, rfl, ?_, ?_, by simp⟩
    · intro cs' h1 h2
      cases h1
      have hne : ascending cs ≠ [] := by
        intro h3
        have := (ascending_perm cs).length_eq
        rw [h3] at this
        exact h2 (List.length_eq_zero_iff.1 this.symm)
      simp only [construct]
      rw [if_neg hne]
      exact ⟨ascending_perm cs, ascending_sorted cs⟩
    · intro h1
      cases h1
      rfl

theorem constructAll_full (k : Nat) : ∀ (h : List (Nat × Option (List Nat))) (i : Nat) (hi : i < h.length),
    ∃ c, (constructAll [k] h)[i]? = some c ∧ c.num = (h[i]).1 ∧ c.cur = (h[i]).1 ∧
      (∀ cs, (h[i]).2 = some cs → cs ≠ [] → c.cands.Perm cs ∧ c.cands.Pairwise (· ≤ ·)) ∧
      ((h[i]).2 = some [] → c.cands = [(h[i]).1]) ∧ ((h[i]).2 = none → c.cands = [k])
  | (n, arg) :: rest, 0, _ => by
    refine ⟨(construct [k] n arg).1, rfl, ?_⟩
    exact construct_spec [k] n arg k (Or.inl rfl)
  | (n, arg) :: rest, i + 1, hi => by
    have hd : (construct [k] n arg).2 = [k] := by
      cases arg <;> simp [construct, ascending, sortBy, insertBy]
    obtain ⟨c, h1⟩ := constructAll_full k rest i (by simpa using hi)
    refine ⟨c, ?_⟩
    rw [constructAll, hd]
    simpa using h1

theorem constructAll_spec' : ∀ (h : List (Nat × Option (List Nat))) (i : Nat) (hi : i < h.length),
    ∃ c, (constructAll [] h)[i]? = some c ∧ c.num = (h[i]).1 ∧ c.cur = (h[i]).1 ∧
      (∀ cs, (h[i]).2 = some cs → cs ≠ [] → c.cands.Perm cs ∧ c.cands.Pairwise (· ≤ ·)) ∧
      ((h[i]).2 = some [] → c.cands = [(h[i]).1]) ∧ ((h[i]).2 = none → c.cands = [((h.filter fun p => p.2.isNone).map (·.1)).headD 0])
  | (n, none) :: rest, 0, _ => by
    refine ⟨(construct [] n none).1, rfl, ?_⟩
    have := construct_spec [] n none n (Or.inr ⟨rfl, rfl⟩)
    simpa using this
  | (n, some cs) :: rest, 0, _ => by
    refine ⟨(construct [] n (some cs)).1, rfl, ?_⟩
    have := construct_spec [] n (some cs) n (Or.inr ⟨rfl, rfl⟩)
    simpa using this
  | (n, none) :: rest, i + 1, hi => by
    obtain ⟨c, h1⟩ := constructAll_full n rest i (by simpa using hi)
    refine ⟨c, ?_⟩
    have hd : (construct [] n none).2 = [n] := rfl
    rw [constructAll, hd]
    simpa using h1
  | (n, some cs) :: rest, i + 1, hi => by
    obtain ⟨c, h1⟩ := constructAll_spec' rest i (by simpa using hi)
    refine ⟨c, ?_⟩
    have hd : (construct [] n (some cs)).2 = [] := rfl
    rw [constructAll, hd]
    simpa using h1

theorem constructAll_length : ∀ (d : List Nat) (h : List (Nat × Option (List Nat))), (constructAll d h).length = h.length
  | _, [] => rfl
  | d, (n, arg) :: rest => by
    rw [constructAll, List.length_cons, constructAll_length, List.length_cons]

theorem related' (ls : List Layer) (s : Store) (us : List CUnit) (s' : Store) (h : units ls s = .ok (us, s')) :
    ∀ u ∈ us, (∀ c, c ∈ u.outs ↔ Registered ls true c u.ch) ∧ ∀ c, c ∈ u.ins ↔ Registered ls false c u.ch := by
  obtain ⟨evs, h1, h2⟩ := units_inv h
  intro u hu
  exact ⟨fun c => (h2.mem u hu true c).trans (h1.mem _ _ _), fun c => (h2.mem u hu false c).trans (h1.mem _ _ _)⟩

theorem set' (ls : List Layer) (s : Store) (us : List CUnit) (s' : Store) (h : units ls s = .ok (us, s'))
    (hist : List (CUnit × Nat)) (hh : ∀ p ∈ hist, p.1 ∈ us ∧ p.2 ∈ p.1.cands) :
    ∃ s'', setMany hist s' = .ok s'' ∧ ∀ use ∈ uses ls, ∀ m, Depends use m →
      width s'' use = match lastSet m hist with
        | none => width s use
        | some c => min c (s m).num * times use := by
  obtain ⟨evs, h1, h2⟩ := units_inv h
  obtain ⟨s'', a, _, c⟩ := setMany_ready hist s' (inv_ready h2) hh
  refine ⟨s'', a, ?_⟩
  intro use hu m hm
  obtain ⟨_, _, c3⟩ := c m
  have hs : (s' m).num = (s m).num ∧ (s' m).cur = (s m).cur := by
    by_cases h3 : m ∈ evs.map (·.1)
    · have h4 : m ∈ us.map (·.ch) := by
        have := h2.chs
        dsimp only at this
        rw [this, firsts_mem]; exact h3
      obtain ⟨u, hu, rfl⟩ := List.mem_map.1 h4
      have := (h2.unit u hu).2.2
      dsimp only at this
      rw [this]; exact ⟨rfl, rfl⟩
    · have := h2.rest m h3
      dsimp only at this
      rw [this]; exact ⟨rfl, rfl⟩
  rw [width_eq s'' use m hm, c3]
  cases lastSet m hist with
  | none => dsimp only; rw [hs.2, width_eq s use m hm]
  | some k => dsimp only; rw [hs.1]

theorem start' (ls : List Layer) (s : Store) (us : List CUnit) (s' : Store) (h : units ls s = .ok (us, s')) (hls : ls ≠ []) :
    ∃ groups s'', prepare ls s = .ok (groups, s'') ∧ groups.map (·.1) = List.range groups.length ∧
      (groups.map (·.2)).Sublist us ∧
      (∀ u ∈ us, u ∈ groups.map (·.2) ↔ (∃ c, Registered ls true c u.ch) ∧ ∃ c, Registered ls false c u.ch) ∧
      ∀ use ∈ uses ls, ∀ m, Depends use m → ∃ k ∈ offered (s m), (∀ x ∈ offered (s m), x ≤ k) ∧
        width s'' use = min k (s m).num * times use := by
  obtain ⟨evs, h1, h2⟩ := units_inv h
  have hh : ∀ p ∈ us.map fun u => (u, top u), p.1 ∈ us ∧ p.2 ∈ p.1.cands := by
    intro p hp
    obtain ⟨u, hu, rfl⟩ := List.mem_map.1 hp
    exact ⟨hu, (top_mem h2 hu).1⟩
  obtain ⟨s'', a, b⟩ := set' ls s us s' h _ hh
  have hc : hasChannel ls = true := by
    cases ls with
    | nil => exact absurd rfl hls
    | cons l ls =>
      obtain ⟨ins, outs, hi, ho, _⟩ := h1.both l (by simp)
      simp [hasChannel, hi]
  have hz : (((us.filter prunable).zipIdx.map fun p => (p.2, p.1)).map (·.2)) = us.filter prunable := by
    rw [List.map_map]
    simp [Function.comp_def]
  refine ⟨((us.filter prunable).zipIdx.map fun p => (p.2, p.1)), s'', ?_, ?_, ?_, ?_, ?_⟩
  · unfold prepare
    rw [if_pos hc, h]
    dsimp only
    rw [setTops_many, a]
  · rw [List.map_map]
    simp only [Function.comp_def, List.length_map, List.length_zipIdx]
    rw [List.range_eq_range']
    exact List.zipIdx_map_snd 0 _
  · rw [hz]
    exact List.filter_sublist
  · intro u hu
    rw [hz, List.mem_filter]
    have h3 := related' ls s us s' h u hu
    unfold prunable
    simp only [hu, true_and, Bool.and_eq_true, Bool.not_eq_true', List.isEmpty_eq_false_iff_exists_mem]
    constructor
    · rintro ⟨⟨c, hc⟩, ⟨d, hd⟩⟩
      exact ⟨⟨c, (h3.1 c).1 hc⟩, ⟨d, (h3.2 d).1 hd⟩⟩
    · rintro ⟨⟨c, hc⟩, ⟨d, hd⟩⟩
      exact ⟨⟨c, (h3.1 c).2 hc⟩, ⟨d, (h3.2 d).2 hd⟩⟩
  · intro use hu m hm
    -- the unit of the choice
    have hmem : m ∈ us.map (·.ch) := by
      have h3 := h2.chs
      dsimp only at h3
      rw [h3, firsts_mem]
      obtain ⟨m', hm', hd⟩ := forall_mem h1.ord use hu
      have : m' = m := by
        have e1 := (source_ok _ _).2 hd
        rw [(source_ok _ _).2 hm] at e1
        cases e1; rfl
      rw [← this]; exact hm'
    obtain ⟨u, hu2, rfl⟩ := List.mem_map.1 hmem
    have ht := top_mem h2 hu2
    have hb := (h2.unit u hu2).2.1
    refine ⟨top u, ?_, ?_, ?_⟩
    · have := ht.1
      rw [hb] at this
      exact (ascending_perm _).mem_iff.1 this
    · intro x hx
      apply ht.2
      rw [hb]
      exact (ascending_perm _).mem_iff.2 hx
    · rw [b use hu u.ch hm, lastSet_tops us u hu2 (by
        have h3 := h2.chs
        dsimp only at h3
        rw [h3]; exact firsts_nodup _)]

end Verif.Predefined
