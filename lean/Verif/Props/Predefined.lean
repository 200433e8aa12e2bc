import Verif.Lemmas.Predefined

namespace Verif.Predefined
open Verif

/-! The registered ranges as a list. -/

/-! ## Property C96 -/

/-- The units can be made exactly when every dynamic layer has something registered for its inputs and
for its outputs, and every registered range depends on one choice of channels. -/
theorem C96_possible (ls : List Layer) (s : Store) :
    (∃ st, units ls s = .ok st) ↔
      ∀ l ∈ ls, ∃ ins outs, l.ins = some ins ∧ l.outs = some outs ∧ ∀ e ∈ ins ++ outs, ∃ m, Depends e.use m := by
  constructor
  · rintro ⟨st, h⟩
    obtain ⟨evs, h1, _⟩ := units_inv h
    exact h1.both
  · exact addLayers_ok ls _

example : ∃ st, units exLayers exStore = .ok st := by
  refine (C96_possible _ _).2 ?_
  intro l hl
  simp only [exLayers, List.mem_cons, List.not_mem_nil, or_false] at hl
  rcases hl with rfl | rfl
  · exact ⟨_, _, rfl, rfl, by simp [Depends]⟩
  · exact ⟨_, _, rfl, rfl, by simp [Depends]⟩

/-- Otherwise an `AttributeError` says that a layer has nothing registered for a side, and an
`AssertionError` that a registered range depends on no or several choices of channels. -/
theorem C96_refused (ls : List Layer) (s : Store) (err : Err) (h : units ls s = .error err) :
    (err = .attribute ∧ ∃ l ∈ ls, l.ins = none ∨ l.outs = none) ∨
      (err = .assertion ∧ ∃ l ∈ ls, ∃ out es, side l out = some es ∧ ∃ e ∈ es, ∀ m, ¬ Depends e.use m) :=
  addLayers_error ls _ h

example : units [⟨"conv", some [⟨0, 3, .derived [0, 1] 1⟩], some []⟩] exStore = .error .assertion := by rfl

/-- DISAGREEMENT: a model in which only some of the dynamic layers carry choices of channels is
recognised as one with channels to search, and then preparing the search ends with an
`AttributeError`: the layers without choices are not left out. -/
theorem C96_some_layers_fails (ls : List Layer) (s : Store) (l l' : Layer) (h1 : l ∈ ls) (h2 : l.outs.isSome ∨ l.ins.isSome)
    (h3 : l' ∈ ls) (h4 : l'.ins = none ∨ l'.outs = none) (h5 : ∀ l ∈ ls, ∀ out es, side l out = some es → ∀ e ∈ es, ∃ m, Depends e.use m) :
    prepare ls s = .error .attribute := by
  unfold prepare hasChannel
  rw [if_pos (by
    rw [List.any_eq_true]
    exact ⟨l, h1, by simpa [Bool.or_eq_true] using h2⟩)]
  cases hq : units ls s with
  | ok st =>
    obtain ⟨ins, outs, a, b, _⟩ := (possible' ls s).1 ⟨st, hq⟩ l' h3
    rcases h4 with h4 | h4
    · rw [a] at h4; cases h4
    · rw [b] at h4; cases h4
  | error err =>
    rcases addLayers_error ls _ hq with ⟨rfl, _⟩ | ⟨_, l2, a, out, es, b, e, d, f⟩
    · rfl
    · obtain ⟨m, hm⟩ := h5 l2 a out es b e d
      exact absurd hm (f m)

example : prepare [⟨"stem", none, none⟩, ⟨"conv1", some [⟨0, 3, .direct 0⟩], some [⟨0, 8, .direct 1⟩]⟩] exStore = .error .attribute := by rfl

/-- Every choice of channels that something depends on has one unit. The units are in the order in
which the choices are met. -/
theorem C96_units (ls : List Layer) (s : Store) (us : List CUnit) (s' : Store) (h : units ls s = .ok (us, s')) :
    ∃ ms, List.Forall₂ Depends (uses ls) ms ∧ us.map (·.ch) = firsts ms := by
  obtain ⟨evs, h1, h2⟩ := units_inv h
  exact ⟨_, h1.ord, h2.chs⟩

/-- The channels of a unit are exactly the registered ranges that depend on its choice: outputs of
layers among the outputs, inputs among the inputs. -/
theorem C96_related (ls : List Layer) (s : Store) (us : List CUnit) (s' : Store) (h : units ls s = .ok (us, s')) :
    ∀ u ∈ us, (∀ c, c ∈ u.outs ↔ Registered ls true c u.ch) ∧ ∀ c, c ∈ u.ins ↔ Registered ls false c u.ch :=
  related' ls s us s' h

example : ((units exLayers exStore).map fun st => st.1) =
    .ok [⟨0, 3, [3], [⟨"conv1", 0, 3⟩], []⟩, ⟨1, 8, [4, 8], [⟨"conv2", 0, 16⟩], [⟨"conv1", 0, 8⟩]⟩,
      ⟨2, 4, [4], [], [⟨"conv2", 0, 4⟩]⟩] := by rfl

/-- The candidates of a unit are the numbers its choice offers, in ascending order. The choice itself
gets these candidates; nothing else is changed. -/
theorem C96_candidates (ls : List Layer) (s : Store) (us : List CUnit) (s' : Store) (h : units ls s = .ok (us, s')) :
    (∀ u ∈ us, u.num = (s u.ch).num ∧ u.cands.Perm (offered (s u.ch)) ∧ u.cands.Pairwise (· ≤ ·) ∧
      s' u.ch = { s u.ch with cands := u.cands }) ∧ ∀ m, (∀ u ∈ us, u.ch ≠ m) → s' m = s m := by
  obtain ⟨evs, h1, h2⟩ := units_inv h
  constructor
  · intro u hu
    obtain ⟨a, b, c⟩ := h2.unit u hu
    exact ⟨a, by rw [b]; exact ascending_perm _, by rw [b]; exact ascending_sorted _, c⟩
  · intro m hm
    apply h2.rest
    intro h3
    have h4 : m ∈ us.map (·.ch) := by
      have := h2.chs
      dsimp only at this
      rw [this, firsts_mem]; exact h3
    obtain ⟨u, hu, rfl⟩ := List.mem_map.1 h4
    exact hm u hu rfl

/-- Settings of units, in any order and number, are accepted when each is a candidate of its unit.
Then every registered range has the number of channels that was last set for the unit of its choice
(not more than there are), times its ratio; what depends on other choices is as before. -/
theorem C96_set (ls : List Layer) (s : Store) (us : List CUnit) (s' : Store) (h : units ls s = .ok (us, s'))
    (hist : List (CUnit × Nat)) (hh : ∀ p ∈ hist, p.1 ∈ us ∧ p.2 ∈ p.1.cands) :
    ∃ s'', setMany hist s' = .ok s'' ∧ ∀ use ∈ uses ls, ∀ m, Depends use m →
      width s'' use = match lastSet m hist with
        | none => width s use
        | some c => min c (s m).num * times use :=
  set' ls s us s' h hist hh

/-- A number that is not a candidate is refused. -/
theorem C96_set_refused (ls : List Layer) (s : Store) (us : List CUnit) (s' : Store) (h : units ls s = .ok (us, s')) (u : CUnit) (hu : u ∈ us)
    (c : Nat) (hc : c ∉ offered (s u.ch)) : setUnit u c s' = .error .assertion := by
  obtain ⟨evs, h1, h2⟩ := units_inv h
  rw [setUnit_ready (inv_ready h2) hu, if_neg]
  intro h3
  rw [(h2.unit u hu).2.1] at h3
  exact hc ((ascending_perm _).mem_iff.1 h3)

/-- The state of the whole example after a setting. -/
example : ((units exLayers exStore).bind fun st => (setMany [(⟨1, 8, [4, 8], [], []⟩, 4)] st.2).map fun s =>
    (uses exLayers).map (width s)) = .ok [3, 4, 8, 4] := by rfl

/-- Preparing the search succeeds when the units can be made. It searches the units that are both
produced and used by some layer, numbered from zero, and every registered range starts with the
largest number its choice offers (not more than there are). -/
theorem C96_start (ls : List Layer) (s : Store) (us : List CUnit) (s' : Store) (h : units ls s = .ok (us, s')) (hls : ls ≠ []) :
    ∃ groups s'', prepare ls s = .ok (groups, s'') ∧ groups.map (·.1) = List.range groups.length ∧
      (groups.map (·.2)).Sublist us ∧
      (∀ u ∈ us, u ∈ groups.map (·.2) ↔ (∃ c, Registered ls true c u.ch) ∧ ∃ c, Registered ls false c u.ch) ∧
      ∀ use ∈ uses ls, ∀ m, Depends use m → ∃ k ∈ offered (s m), (∀ x ∈ offered (s m), x ≤ k) ∧
        width s'' use = min k (s m).num * times use :=
  start' ls s us s' h hls

example : ((prepare exLayers exStore).map fun r => (r.1, (uses exLayers).map (width r.2))) =
    .ok ([(0, ⟨1, 8, [4, 8], [⟨"conv2", 0, 16⟩], [⟨"conv1", 0, 8⟩]⟩)], [3, 8, 16, 4]) := by rfl

/-- A model in which nothing is registered has no units to search and stays as it is. -/
theorem C96_nothing (ls : List Layer) (s : Store) (h : ∀ l ∈ ls, l.ins = none ∧ l.outs = none) : prepare ls s = .ok ([], s) := by
  unfold prepare hasChannel
  rw [if_neg]
  rw [List.any_eq_true]
  rintro ⟨l, hl, h2⟩
  rw [(h l hl).1, (h l hl).2] at h2
  cases h2

/-- The names of the units that are searched are different, if no range is registered twice for the
outputs of a layer. -/
theorem C96_names (ls : List Layer) (s : Store) (us : List CUnit) (s' : Store) (h : units ls s = .ok (us, s'))
    (hr : ∀ c m m', Registered ls true c m → Registered ls true c m' → m = m') (u u' : CUnit) (hu : u ∈ us) (hu' : u' ∈ us)
    (hp : ∃ c, Registered ls true c u.ch) (hp' : ∃ c, Registered ls true c u'.ch) (hn : unitName u = unitName u') : u = u' := by
  obtain ⟨evs, h1, h2⟩ := units_inv h
  have h3 := related' ls s us s' h u hu
  have h3' := related' ls s us s' h u' hu'
  obtain ⟨c, hc⟩ := hp
  obtain ⟨c', hc'⟩ := hp'
  have hc := (h3.1 c).2 hc
  have hc' := (h3'.1 c').2 hc'
  unfold unitName at hn
  have hch : u.ch = u'.ch := by
    cases ho : u.outs with
    | nil => rw [ho] at hc; cases hc
    | cons a t =>
      cases ho' : u'.outs with
      | nil => rw [ho'] at hc'; cases hc'
      | cons a' t' =>
        rw [ho, ho'] at hn
        have : a = a' := by simpa using (Prod.mk.inj hn).1
        subst this
        exact hr a _ _ ((h3.1 a).1 (by rw [ho]; simp)) ((h3'.1 a).1 (by rw [ho']; simp))
  have hnd : (us.map (·.ch)).Nodup := by
    have h4 := h2.chs
    dsimp only at h4
    rw [h4]; exact firsts_nodup _
  exact List.inj_on_of_nodup_map hnd hu hu' hch

/-- DISAGREEMENT: the dictionary of all units by name loses units: a unit that only feeds a layer and
the one made by the same layer have the same name when the ranges and numbers agree. -/
theorem C96_names_violated (n a b k : Nat) (name : String) (cs ds : List Nat) :
    let ls : List Layer := [⟨name, some [⟨a, b, .direct 0⟩], some [⟨a, b, .direct 1⟩]⟩]
    let s : Store := fun m => if m = 0 then ⟨n, cs, k⟩ else ⟨n, ds, k⟩
    ∃ u u' s', units ls s = .ok ([u, u'], s') ∧ u ≠ u' ∧ unitName u = unitName u' := by
  refine ⟨⟨0, n, ascending (offered ⟨n, cs, k⟩), [⟨name, a, b⟩], []⟩, ⟨1, n, ascending (offered ⟨n, ds, k⟩), [], [⟨name, a, b⟩]⟩, _, rfl, ?_, rfl⟩
  intro h
  cases (CUnit.mk.inj h).1

/-- Choices made with a list of candidates offer these, in ascending order; with an empty list only
all channels. Choices made without a list all offer the number of channels of the first of them. -/
theorem C96_construct (h : List (Nat × Option (List Nat))) :
    (constructAll [] h).length = h.length ∧ ∀ i (hi : i < h.length), ∃ c, (constructAll [] h)[i]? = some c ∧ c.num = (h[i]).1 ∧ c.cur = (h[i]).1 ∧
      (∀ cs, (h[i]).2 = some cs → cs ≠ [] → c.cands.Perm cs ∧ c.cands.Pairwise (· ≤ ·)) ∧
      ((h[i]).2 = some [] → c.cands = [(h[i]).1]) ∧
      ((h[i]).2 = none → c.cands = [((h.filter fun p => p.2.isNone).map (·.1)).headD 0]) := by
  exact ⟨constructAll_length _ h, constructAll_spec' h⟩

example : (constructAll [] [(8, some [8, 4]), (16, none), (32, none), (4, some [])]).map (·.cands) = [[4, 8], [16], [16], [4]] := by rfl

/-- DISAGREEMENT: a choice made without candidates should offer all its channels. A second one offers
the number of channels of the first one: with more channels it can only be narrowed, and a search
starts it narrow; with fewer it offers more than there are. The missing list is one object for all
calls. -/
theorem C96_default_violated (n m : Nat) (h : n ≠ m) (before between : List (Nat × List Nat)) :
    ∃ c, (constructAll [] (before.map (fun p => (p.1, some p.2)) ++ (n, none) :: between.map (fun p => (p.1, some p.2)) ++ [(m, none)])).getLast? = some c ∧
      c.num = m ∧ c.cands = [n] ∧ m ∉ c.cands := by
  set hist := before.map (fun p => (p.1, some p.2)) ++ (n, none) :: between.map (fun p => (p.1, some p.2)) ++ [(m, none)] with hd
  have hl : hist.length = (before.length + between.length + 1) + 1 := by rw [hd]; simp; omega
  obtain ⟨c, h1, h2, _, _, _, h3⟩ := constructAll_spec' hist (before.length + between.length + 1) (by omega)
  have hx : hist[before.length + between.length + 1]'(by omega) = (m, none) := by
    have hg : hist.getLast? = some (m, none) := by rw [hd]; exact List.getLast?_concat
    rw [List.getLast?_eq_getElem?, hl] at hg
    simpa using (List.getElem?_eq_some_iff.1 hg).2
  rw [hx] at h2 h3
  have hf : ((hist.filter fun p => p.2.isNone).map (·.1)).headD 0 = n := by
    have hz : ∀ l : List (Nat × List Nat), (l.map fun p => (p.1, some p.2)).filter (fun p => p.2.isNone) = [] := by
      intro l
      rw [List.filter_eq_nil_iff]
      intro p hp
      obtain ⟨q, _, rfl⟩ := List.mem_map.1 hp
      simp
    rw [hd, List.filter_append, List.filter_append, hz, List.filter_cons]
    rfl
  rw [hf] at h3
  refine ⟨c, ?_, h2, h3 rfl, ?_⟩
  · rw [List.getLast?_eq_getElem?, constructAll_length, hl]
    simpa using h1
  · rw [h3 rfl]
    simpa using Ne.symm h

/-- DISAGREEMENT: such a choice of more channels is then searched, and starts, with fewer channels
than the layer has. -/
theorem C96_default_start_violated (n m : Nat) (hn : 1 ≤ n) (h : n < m) :
    let s : Store := fun k => ((constructAll [] [(n, none), (m, none)])[k]?).getD ⟨0, [], 0⟩
    let ls : List Layer := [⟨"a", some [⟨0, n, .direct 0⟩], some [⟨0, m, .direct 1⟩]⟩, ⟨"b", some [⟨0, m, .direct 1⟩], some [⟨0, n, .direct 0⟩]⟩]
    ∃ groups s', prepare ls s = .ok (groups, s') ∧ width s (.direct 1) = m ∧ width s' (.direct 1) = n := by
  intro s ls
  have hq : ∃ st, units ls s = .ok st := by
    rw [possible']
    intro l hl
    simp only [ls, List.mem_cons, List.not_mem_nil, or_false] at hl
    rcases hl with rfl | rfl
    · exact ⟨_, _, rfl, rfl, by simp [Depends]⟩
    · exact ⟨_, _, rfl, rfl, by simp [Depends]⟩
  obtain ⟨⟨us, s1⟩, hq⟩ := hq
  obtain ⟨groups, s', h1, _, _, _, h5⟩ := start' ls s us s1 hq (by simp [ls])
  refine ⟨groups, s', h1, rfl, ?_⟩
  obtain ⟨k, h6, _, h8⟩ := h5 (.direct 1) (by simp [ls, uses]) 1 rfl
  have ho : offered (s 1) = [max 1 n] := rfl
  have hk : (s 1).num = m := rfl
  rw [ho] at h6
  simp only [List.mem_singleton] at h6
  rw [h8, h6, hk]
  simp only [times]
  omega

end Verif.Predefined
