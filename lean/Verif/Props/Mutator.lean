import Verif.Lemmas.Mutator

namespace Verif.Mutator
open Verif

variable {N C : Type} [DecidableEq N]

/-- Setting a complete legal dictionary succeeds, gives every element of a group the
choice of the group, leaves other elements alone, and reading the current choices gives
the dictionary back. -/
theorem C25_round_trip (store : Nat → C → Except Err C) (groups : List (N × List Nat)) (hw : Wf groups)
    (choices : N → C) (hc : Complete store groups choices) (s : St C) :
    ∃ s', setChoices store (groups.map (fun g => (g.1, choices g.1))) groups s = (s', none) ∧
      currentChoices s' groups = .ok (groups.map (fun g => (g.1, choices g.1))) ∧
      (∀ g ∈ groups, ∀ e ∈ g.2, s' e = choices g.1) ∧ (∀ e, (∀ g ∈ groups, e ∉ g.2) → s' e = s e) := by
  obtain ⟨s', h1, h2, h3⟩ := setChoices_ok (store := store) (choices := groups.map (fun g => (g.1, choices g.1)))
    (f := choices) groups (fun g hg => get?_map groups choices g.1 (List.mem_map.2 ⟨g, hg, rfl⟩)) hw.disjoint hc s
  exact ⟨s', h1, current_ok s' choices groups hw.nonempty h2, h2, h3⟩

/-- A dictionary without the name of some group is refused, with a `KeyError` or the
error of an earlier refused choice. -/
theorem C25_incomplete (store : Nat → C → Except Err C) (choices : List (N × C)) (groups : List (N × List Nat))
    (g : N × List Nat) (hg : g ∈ groups) (hmiss : get? choices g.1 = none) (s : St C) :
    (setChoices store choices groups s).2 ≠ none := by
  induction groups generalizing s with
  | nil => simp at hg
  | cons g' groups ih =>
    obtain ⟨name, es⟩ := g'
    simp only [setChoices]
    cases hgt : get? choices name with
    | none => simp
    | some c =>
      simp only
      rcases List.mem_cons.1 hg with rfl | hg
      · simp at hmiss; rw [hmiss] at hgt; cases hgt
      · match hm : setMembers store c es s with
        | (s', none) => exact ih hg s'
        | (s', some err) => simp

/-- A refused dictionary may have been applied in part: here the second group has no
entry, and the first has its new choice already. -/
theorem C25_partial_update_violated :
    let store : Nat → Nat → Except Err Nat := fun _ c => .ok c
    let r := setChoices store [("a", 7)] [("a", [0]), ("b", [1])] (fun _ => 0)
    r.2 = some .key ∧ r.1 0 = 7 := by decide

/-- If an element is in two groups (as `C24_derived_violated` shows can happen), what is
read is not what was set. -/
theorem C25_shared_violated :
    let store : Nat → Nat → Except Err Nat := fun _ c => .ok c
    let groups : List (String × List Nat) := [("a", [0]), ("b", [0])]
    let r := setChoices store [("a", 1), ("b", 2)] groups (fun _ => 0)
    r.2 = none ∧ (match currentChoices r.1 groups with | .ok l => l | .error _ => []) = [("a", 2), ("b", 2)] := by
  decide

/-- Sampling with a known kind gives one entry per group: what the first element of the
group offers. -/
theorem C25_sample (o : Offers C) (arch : N → Bool) (kind : Kind) (hk : kind ≠ .other)
    (groups : List (N × List Nat)) (hne : ∀ g ∈ groups, g.2 ≠ []) :
    ∃ l, sampleChoices o arch kind groups = .ok l ∧
      List.Forall₂ (Sampled o arch kind) groups l := by
  induction groups with
  | nil => exact ⟨[], rfl, .nil⟩
  | cons g groups ih =>
    obtain ⟨l, h1, h2⟩ := ih (fun g hg => hne g (by simp [hg]))
    obtain ⟨name, es⟩ := g
    cases es with
    | nil => exact absurd rfl (hne (name, []) (by simp))
    | cons e es =>
      have hS : ∀ c, c = (if arch name then o.byParam e else pick o kind e) →
          Sampled o arch kind (name, e :: es) (name, c) := fun c hc => ⟨rfl, e, rfl, hc⟩
      have hg : sampleGroup o arch kind name (e :: es) = .ok (if arch name then o.byParam e else pick o kind e) := by
        unfold sampleGroup
        cases ha : arch name with
        | true => simp
        | false => cases kind <;> first | exact absurd rfl hk | rfl
      simp only [sampleChoices, hg, h1]
      exact ⟨_, rfl, .cons (hS _ rfl) h2⟩

/-- An unknown kind is refused as soon as there is a group without architecture
parameter. -/
theorem C25_unknown_kind (o : Offers C) (arch : N → Bool) (groups : List (N × List Nat))
    (hne : ∀ g ∈ groups, g.2 ≠ []) (g : N × List Nat) (hg : g ∈ groups) (ha : arch g.1 = false) :
    sampleChoices o arch .other groups = .error .notImplemented := by
  induction groups with
  | nil => simp at hg
  | cons g' groups ih =>
    obtain ⟨name, es⟩ := g'
    cases es with
    | nil => exact absurd rfl (hne (name, []) (by simp))
    | cons e es =>
      simp only [sampleChoices, sampleGroup]
      cases ha' : arch name with
      | false => simp
      | true =>
        simp only [if_true]
        rcases List.mem_cons.1 hg with rfl | hg
        · simp [ha'] at ha
        · rw [ih (fun g hg => hne g (by simp [hg])) hg]

/-- When the elements of a group accept the same choices and each offers only choices it
accepts, what is sampled can be set and is read back. Missing: groups of elements that accept different choices, see
`C25_sampled_illegal_violated`. -/
theorem C25_sampled_legal_partial (store : Nat → C → Except Err C) (o : Offers C) (arch : N → Bool)
    (kind : Kind) (hk : kind ≠ .other) (groups : List (N × List Nat)) (hw : Wf groups)
    (hoff : ∀ e, Legal store e (o.max e) ∧ Legal store e (o.min e) ∧ Legal store e (o.random e) ∧
      Legal store e (o.byParam e))
    (hsame : ∀ g ∈ groups, ∀ e ∈ g.2, ∀ e' ∈ g.2, ∀ c, Legal store e c → Legal store e' c) (s : St C) :
    ∃ l s', sampleChoices o arch kind groups = .ok l ∧ setChoices store l groups s = (s', none) ∧
      currentChoices s' groups = .ok l := by
  obtain ⟨l, h1, h2⟩ := C25_sample o arch kind hk groups hw.nonempty
  by_cases hl0 : l = []
  · subst hl0; cases h2; exact ⟨[], s, rfl, rfl, rfl⟩
  obtain ⟨p0, -⟩ := List.exists_mem_of_ne_nil _ hl0
  -- the dictionary as a function
  let f : N → C := fun n => (get? l n).getD p0.2
  have hmem : ∀ (gs : List (N × List Nat)) (l : List (N × C)),
      List.Forall₂ (Sampled o arch kind) gs l → (gs.map (·.1)).Nodup →
      l = gs.map (fun g => (g.1, (get? l g.1).getD p0.2)) ∧
      ∀ g ∈ gs, get? l g.1 ≠ none ∧ ∃ e, g.2.head? = some e ∧ Legal store e ((get? l g.1).getD p0.2) := by
    intro gs l h
    induction h with
    | nil => intro _; simp
    | @cons g p gs l hgp _ ih =>
      intro hnd
      simp only [List.map_cons, List.nodup_cons] at hnd
      obtain ⟨i1, i2⟩ := ih hnd.2
      obtain ⟨hp, e, he, hoffp⟩ := hgp
      have hget : get? (p :: l) g.1 = some p.2 := by simp [get?, hp]
      have hother : ∀ g' ∈ gs, get? (p :: l) g'.1 = get? l g'.1 := by
        intro g' hg'
        have : p.1 ≠ g'.1 := by
          intro h; rw [hp] at h; exact hnd.1 (List.mem_map.2 ⟨g', hg', h.symm⟩)
        simp [get?, this]
      refine ⟨?_, ?_⟩
      · rw [List.map_cons, hget]
        congr 1
        · rw [← hp]; rfl
        · rw [i1]
          conv_rhs => rw [← i1]
          apply List.map_congr_left
          intro g' hg'
          rw [hother g' hg']
      · intro g' hg'
        rcases List.mem_cons.1 hg' with rfl | hg'
        · refine ⟨by rw [hget]; simp, e, he, ?_⟩
          rw [hget]
          have := hoff e
          rw [Option.getD_some, hoffp]
          split
          · exact this.2.2.2
          · cases kind
            · exact this.1
            · exact this.2.1
            · exact this.2.2.1
            · exact this.2.2.1
        · rw [hother g' hg']; exact i2 g' hg'
  obtain ⟨m1, m2⟩ := hmem groups l h2 hw.names
  have hc : Complete store groups f := by
    intro g hg e he
    obtain ⟨_, e0, he0, hleg⟩ := m2 g hg
    exact hsame g hg e0 (List.mem_of_head? he0) e he _ hleg
  obtain ⟨s', r1, r2, -⟩ := C25_round_trip store groups hw f hc s
  rw [show groups.map (fun g => (g.1, f g.1)) = l from m1.symm] at r1 r2
  exact ⟨l, s', h1, r1, r2⟩

/-- Without that, the sampled choice can be illegal for another element of the group:
only the first one is asked. -/
theorem C25_sampled_illegal_violated :
    let store : Nat → Nat → Except Err Nat := fun e c => if c < 3 - e then .ok c else .error .value
    let o : Offers Nat := ⟨fun e => 2 - e, fun _ => 0, fun e => 2 - e, fun _ => 0⟩
    let groups : List (String × List Nat) := [("g", [0, 1])]
    (match sampleChoices o (fun _ => false) .random groups with
      | .ok l => (setChoices store l groups (fun _ => 0)).2
      | .error e => some e) = some .value := by decide

/-- Setting the largest (smallest) choices gives every element the largest (smallest)
choice of the first element of its group. -/
theorem C25_extremes (store : Nat → C → Except Err C) (o : Offers C) (kind : Kind)
    (hk : kind = .max ∨ kind = .min) (groups : List (N × List Nat)) (hw : Wf groups)
    (hleg : ∀ g ∈ groups, ∀ e0, g.2.head? = some e0 → ∀ e ∈ g.2,
      Legal store e (pick o kind e0)) (s : St C) :
    ∃ s', setExtremes store o kind groups groups s = (s', none) ∧
      ∀ g ∈ groups, ∀ e0, g.2.head? = some e0 → ∀ e ∈ g.2,
        s' e = pick o kind e0 := by
  have hk' : kind ≠ .other := by rcases hk with rfl | rfl <;> simp
  obtain ⟨l, h1, h2⟩ := C25_sample o (fun _ : N => false) kind hk' groups hw.nonempty
  have hget : ∀ g ∈ groups, ∀ e0, g.2.head? = some e0 →
      get? l g.1 = some (pick o kind e0) := by
    have : ∀ (gs : List (N × List Nat)) (l : List (N × C)),
      List.Forall₂ (Sampled o (fun _ => false) kind) gs l → (gs.map (·.1)).Nodup →
      ∀ g ∈ gs, ∀ e0, g.2.head? = some e0 →
        get? l g.1 = some (pick o kind e0) := by
      intro gs l h
      induction h with
      | nil => intro _ g hg; simp at hg
      | @cons g p gs l hgp _ ih =>
        intro hnd g' hg' e0 he0
        simp only [List.map_cons, List.nodup_cons] at hnd
        obtain ⟨hp, e, he, hpk⟩ := hgp
        rcases List.mem_cons.1 hg' with rfl | hg'
        · rw [he0] at he; cases he
          have : p.2 = pick o kind e0 := by simpa using hpk
          simp [get?, hp, this]
        · have : p.1 ≠ g'.1 := by
            intro h; rw [hp] at h; exact hnd.1 (List.mem_map.2 ⟨g', hg', h.symm⟩)
          rw [← ih hnd.2 g' hg' e0 he0]
          simp [get?, this]
    exact this groups l h2 hw.names
  have main : ∀ (gs : List (N × List Nat)), (∀ g ∈ gs, g ∈ groups) →
      gs.Pairwise (fun g g' => ∀ e ∈ g.2, e ∉ g'.2) → ∀ s, ∃ s', setExtremes store o kind groups gs s = (s', none) ∧
      (∀ g ∈ gs, ∀ e0, g.2.head? = some e0 → ∀ e ∈ g.2, s' e = pick o kind e0) ∧
      (∀ e, (∀ g ∈ gs, e ∉ g.2) → s' e = s e) := by
    intro gs
    induction gs with
    | nil => intro _ _ s; exact ⟨s, rfl, by simp, by simp⟩
    | cons g gs ih =>
      intro hsub hdis s
      rw [List.pairwise_cons] at hdis
      have hg := hsub g (by simp)
      have hnn := hw.nonempty g hg
      obtain ⟨e1, hhead⟩ : ∃ e1, g.2.head? = some e1 := by
        cases h : g.2 with
        | nil => exact absurd h hnn
        | cons e es => exact ⟨e, rfl⟩
      have hgt := hget g hg e1 hhead
      obtain ⟨name, es⟩ := g
      simp only at hgt hhead
      simp only [setExtremes, h1, hgt]
      rw [setMembers_ok es s (fun e he => hleg (name, es) hg e1 hhead e he)]
      simp only
      obtain ⟨s', r1, r2, r3⟩ := ih (fun g hg => hsub g (by simp [hg])) hdis.2
        (fun x => if x ∈ es then (pick o kind e1) else s x)
      refine ⟨s', r1, ?_, ?_⟩
      · intro g' hg' e0 he0 e he
        rcases List.mem_cons.1 hg' with rfl | hg'
        · rw [r3 e (fun g'' hg'' => hdis.1 g'' hg'' e he)]
          rw [hhead] at he0; cases he0
          simp only at he
          rw [if_pos he]
        · exact r2 g' hg' e0 he0 e he
      · intro e he
        rw [r3 e (fun g hg => he g (by simp [hg]))]
        have := he (name, es) (by simp)
        simp only at this
        rw [if_neg this]
  obtain ⟨s', r1, r2, -⟩ := main groups (fun g hg => hg) hw.disjoint s
  exact ⟨s', r1, r2⟩

/-! ### Channel mutator -/

/-- Channel units: a dictionary with a legal choice for exactly the mutable units, in any
order, is set and read back. -/
theorem C25_channel_round_trip (store : Nat → C → Except Err C) (units : List (U N))
    (hn : (units.map U.name).Nodup) (hid : (units.map U.id).Nodup) (choices : List (N × C))
    (hkeys : (choices.map (·.1)).Perm ((units.filter (fun u => u.isMutable)).map U.name))
    (hleg : ∀ u ∈ units, ∀ c, (u.name, c) ∈ choices → Legal store u.id c) (s : St C) :
    ∃ s', setUnits store units choices s = (s', none) ∧ (currentUnits units s').Perm choices ∧
      ∀ u ∈ units, u.isMutable = false → s' u.id = s u.id := by
  have hmn : ((units.filter (fun u => u.isMutable)).map U.name).Nodup := (List.filter_sublist.map _).nodup hn
  have hcn : (choices.map (·.1)).Nodup := hkeys.nodup_iff.2 hmn
  obtain ⟨s', r1, r2, r3⟩ := setUnits_ok (store := store) hn hid choices s hcn (by
    intro p hp
    have : p.1 ∈ (units.filter (fun u => u.isMutable)).map U.name := hkeys.mem_iff.1 (List.mem_map.2 ⟨p, hp, rfl⟩)
    obtain ⟨u, hu, hup⟩ := List.mem_map.1 this
    have hu' := (List.mem_filter.1 hu).1
    exact ⟨u, hu', hup, hleg u hu' p.2 (by rw [hup]; exact hp)⟩)
  refine ⟨s', r1, ?_, ?_⟩
  · rw [List.perm_ext_iff_of_nodup]
    · intro p
      constructor
      · intro hp
        obtain ⟨u, hu, rfl⟩ := List.mem_map.1 hp
        have hu' := (List.mem_filter.1 hu).1
        have : u.name ∈ choices.map (·.1) := hkeys.mem_iff.2 (List.mem_map.2 ⟨u, hu, rfl⟩)
        obtain ⟨⟨n, c⟩, hq, hq'⟩ := List.mem_map.1 this
        simp only at hq'; subst hq'
        rw [r2 u hu' c hq]; exact hq
      · intro hp
        have : p.1 ∈ (units.filter (fun u => u.isMutable)).map U.name := hkeys.mem_iff.1 (List.mem_map.2 ⟨p, hp, rfl⟩)
        obtain ⟨u, hu, hup⟩ := List.mem_map.1 this
        have hu' := (List.mem_filter.1 hu).1
        refine List.mem_map.2 ⟨u, hu, ?_⟩
        rw [r2 u hu' p.2 (by rw [hup]; exact hp), hup]
    · have : ((currentUnits units s').map (·.1)).Nodup := by
        simpa [currentUnits, Function.comp_def] using hmn
      exact this.of_map
    · exact hcn.of_map
  · intro u hu hm
    apply r3 u hu
    intro h
    have := hkeys.mem_iff.1 h
    obtain ⟨v, hv, hvu⟩ := List.mem_map.1 this
    have hv' := List.mem_filter.1 hv
    have := List.inj_on_of_nodup_map hn hv'.1 hu hvu
    subst this
    simp [hm] at hv'

/-- Sampling channel units gives one entry per mutable unit, and only random sampling is
supported. -/
theorem C25_channel_sample (units : List (U N)) (o : Offers C) :
    (∃ l, sampleUnits units o .random = .ok l ∧
      ∀ n c, (n, c) ∈ l ↔ ∃ u ∈ units, u.isMutable = true ∧ u.name = n ∧ c = o.random u.id) ∧
    ∀ kind, kind ≠ .random → sampleUnits units o kind = .error .assertion := by
  refine ⟨⟨_, rfl, ?_⟩, ?_⟩
  · intro n c
    simp only [List.mem_map, List.mem_filter, Prod.mk.injEq]
    constructor
    · rintro ⟨u, ⟨h1, h2⟩, h3, h4⟩; exact ⟨u, h1, h2, h3, h4.symm⟩
    · rintro ⟨u, h1, h2, h3, h4⟩; exact ⟨u, ⟨h1, h2⟩, h3, h4.symm⟩
  · intro kind h
    cases kind <;> first | rfl | exact absurd rfl h

/-! Concrete cases. -/

example : Wf [("a", [0, 1]), ("b", [2])] := by
  refine ⟨by decide, by decide, by decide⟩

example : ∃ s', setChoices (fun _ c => .ok c) [("a", 5), ("b", 6)] [("a", [0, 1]), ("b", [2])] (fun _ => 0) = (s', none) ∧
    s' 1 = 5 ∧ s' 2 = 6 := ⟨_, rfl, by decide, by decide⟩

example : (setUnits (fun _ c => .ok c) [⟨"u", 0, true⟩, ⟨"v", 1, false⟩] [("u", 3)] (fun _ => 9)).2 = none := by decide

/-- Setting the choices of channel units stops at the first entry that cannot be set: the
error is reported, the entries before it are in force and the ones after it are not. -/
theorem C25_units_refused (store : Nat → C → Except Err C) (units : List (U N)) (pre post : List (N × C)) (name : N) (c : C)
    (s s1 : St C) (hp : setUnits store units pre s = (s1, none)) :
    (units.find? (fun u => decide (u.name = name)) = none → setUnits store units (pre ++ (name, c) :: post) s = (s1, some .key)) ∧
    (∀ u e, units.find? (fun u => decide (u.name = name)) = some u → store u.id c = .error e →
      setUnits store units (pre ++ (name, c) :: post) s = (s1, some e)) := by
  induction pre generalizing s with
  | nil =>
    simp only [setUnits, Prod.mk.injEq, and_true] at hp
    subst hp
    refine ⟨fun h => by simp [setUnits, h], fun u e h he => by simp [setUnits, h, setOne, he]⟩
  | cons p pre ih =>
    obtain ⟨n0, c0⟩ := p
    simp only [List.cons_append, setUnits] at hp ⊢
    cases hf : units.find? (fun u => decide (u.name = n0)) with
    | none => simp [hf] at hp
    | some v =>
      simp only [hf] at hp ⊢
      cases hs : store v.id c0 with
      | error e => simp [setOne, hs] at hp
      | ok x =>
        simp only [setOne, hs] at hp ⊢
        exact ih _ hp

example : ((setUnits (fun i c => if i = 1 then .error .assertion else .ok c) [⟨"u", 0, true⟩, ⟨"v", 1, true⟩]
    [("u", 3), ("v", 4)] (fun _ => 9)).2, (setUnits (fun i c => if i = 1 then .error .assertion else .ok c)
    [⟨"u", 0, true⟩, ⟨"v", 1, true⟩] [("u", 3), ("v", 4)] (fun _ => 9)).1 0) = (some .assertion, 3) := by decide

/-- Sampling fails at the first group only for a group without elements, or for an unknown kind where no architecture parameter
decides. -/
theorem C25_sample_refused (o : Offers C) (arch : N → Bool) (kind : Kind) (name : N) (es : List Nat) (rest : List (N × List Nat)) :
    (es = [] → sampleChoices o arch kind ((name, es) :: rest) = .error .index) ∧
    (es ≠ [] → arch name = false → kind = .other → sampleChoices o arch kind ((name, es) :: rest) = .error .notImplemented) := by
  constructor
  · rintro rfl
    simp [sampleChoices, sampleGroup]
  · intro h1 h2 h3
    cases es with
    | nil => exact absurd rfl h1
    | cons x es => simp [sampleChoices, sampleGroup, h2, h3]

/-- The current choices of groups of which one is empty cannot be read. -/
theorem C25_current_refused (s : St C) (pre : List (N × List Nat)) (name : N) (rest : List (N × List Nat)) :
    currentChoices s (pre ++ (name, []) :: rest) = .error .index := by
  induction pre with
  | nil => simp [currentChoices]
  | cons p pre ih =>
    obtain ⟨n, es⟩ := p
    cases es with
    | nil => simp [currentChoices]
    | cons e es => simp only [List.cons_append, currentChoices, ih]

end Verif.Mutator
