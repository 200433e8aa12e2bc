import Verif.Lemmas.FixSubnet

/-! C10, C11: exporting and loading a fixed subnet. -/

namespace Verif.FixSubnet
open Verif

variable {V : Type} [DecidableEq V]

/-! ### Property theorems -/

/-- C10: export, then load into a fresh copy: no error, and every searchable
element is fixed to the choice it had at export time; elements not reached from
the model are untouched. Guard: objects described under one key (a shared alias,
or several unaliased sources of one derived mutable) had equal choices. Missing: other networks, see `C10_two_sources_violated`. -/
theorem C10_roundtrip_partial (model : List (String × Node)) (st fresh : Store V) (d : Desc V)
    (hk : KeysConsistent st model) (hfresh : Fresh st fresh)
    (hlegal : ∀ i c, (st i).current = some c → c ∈ (st i).cands)
    (hexp : exportSubnet model st = .ok d) :
    (loadSubnet model d "" "" fresh).2 = none ∧
    (∀ v ∈ visits model, ((loadSubnet model d "" "" fresh).1 v.2).fixed = true ∧
      effective ((loadSubnet model d "" "" fresh).1 v.2) = (st v.2).current) ∧
    (∀ i, i ∉ (visits model).map (·.2) → (loadSubnet model d "" "" fresh).1 i = fresh i) := by
  have hkey : ∀ v, keyOf fresh v = keyOf st v := by
    intro v; simp [keyOf, (hfresh v.2).2.1]
  have h := loadLoop_ok d fresh (fun i => (hfresh i).2.2.2) (fun i => (st i).current) (visits model) fresh
    (by
      intro v hv
      obtain ⟨c, h1, h2⟩ := export_entry st model d hk hexp v hv
      exact ⟨c, h1, by rw [hkey]; exact h2, by rw [(hfresh v.2).2.2.1]; exact hlegal _ _ h1⟩)
    (fun i => Or.inl rfl)
  have e : loadSubnet model d "" "" fresh = loadLoop d "" "" (visits model) fresh := by
    simp [loadSubnet]
  rw [e]
  refine ⟨h.1, ?_, h.2.2.2⟩
  intro v hv
  have hfix := h.2.2.1 v.2 (Or.inl (List.mem_map.mpr ⟨v, hv, rfl⟩))
  refine ⟨hfix, ?_⟩
  rcases h.2.1 v.2 with h' | h'
  · rw [h', (hfresh v.2).2.2.2] at hfix; cases hfix
  · exact h'.2

example : (exportSubnet exModel exStore).toOption = some [("op", 2), ("width", 16), ("d", 5)] := by decide

example : KeysConsistent exStore exModel := by
  unfold KeysConsistent
  decide

/-- C10: the guard is necessary for two sources of one derived mutable: the entry
of the first is overwritten by the second, and loading gives it the wrong choice. -/
theorem C10_two_sources_violated :
    let model : List (String × Node) := [("d", .derived [0, 1])]
    let st : Store Nat := fun i => if i = 0 then ⟨.value, none, [1, 2], some 1, none, false⟩
      else ⟨.value, none, [1, 2], some 2, none, false⟩
    let fresh : Store Nat := fun _ => ⟨.value, none, [1, 2], some 1, none, false⟩
    (exportSubnet model st).toOption = some [("d", 2)] ∧
    (loadSubnet model [("d", 2)] "" "" fresh).2 = none ∧
    effective ((loadSubnet model [("d", 2)] "" "" fresh).1 0) = some 2 := by
  decide

/-- C10: a description with no entry for a reached element that is not yet fixed is
rejected. `AssertionError` for an alias, `RuntimeError` for a name. -/
theorem C10_missing_rejected (model : List (String × Node)) (d : Desc V) (st : Store V)
    (v : String × Id) (hv : v ∈ visits model) (hmiss : d.get? (keyOf st v) = none) :
    (loadSubnet model d "" "" st).2 ≠ none := by
  have e : loadSubnet model d "" "" st = loadLoop d "" "" (visits model) st := by simp [loadSubnet]
  rw [e]
  have aka_pres : ∀ (st : Store V) n i, ∀ j, ((loadOne d "" "" st n i).1 j).aka = (st j).aka := by
    intro st n i j
    unfold loadOne
    split
    · rfl
    · split
      · rfl
      · split
        · rename_i m hm
          by_cases hj : j = i
          · subst hj
            simp only [Store.set, if_true]
            unfold fixChosen at hm
            cases hkd : (st j).kind <;> simp only [hkd] at hm
            · split at hm
              · cases hm
              · injection hm with hm; subst hm; rfl
            · split at hm
              · cases hm
              · split at hm
                · injection hm with hm; subst hm; rfl
                · cases hm
          · simp [Store.set, hj]
        · rfl
  have key : ∀ (vs : List (String × Id)) (st : Store V), v ∈ vs → d.get? (keyOf st v) = none →
      (loadLoop d "" "" vs st).2 ≠ none := by
    intro vs
    induction vs with
    | nil => intro st h; cases h
    | cons w vs ih =>
      intro st h hm
      obtain ⟨n, i⟩ := w
      rw [loadLoop]
      match hl : loadOne d "" "" st n i with
      | (st', some e) => simp
      | (st', none) =>
        simp only
        have hal := aka_pres st n i
        rw [hl] at hal
        rcases List.mem_cons.mp h with h | h
        · subst h
          exfalso
          unfold loadOne at hl
          cases ha : (st i).aka with
          | none => simp [keyOf, ha] at hm; simp [findEntry, ha, lookupName, hm] at hl
          | some a => simp [keyOf, ha] at hm; simp [findEntry, ha, hm] at hl
        · apply ih st' h
          have : keyOf st' v = keyOf st v := by
            have := hal v.2
            simp only [] at this
            simp [keyOf, this]
          rw [this]; exact hm
  exact key _ st hv hmiss

example : (loadSubnet exModel [("op", 2), ("d", 5)] "" "" exStore).2 = some .assertion := by decide

/-- C10: a description naming a value that is not a candidate is rejected for value
mutables ... -/
theorem C10_illegal_value_rejected (d : Desc V) (st : Store V) (n : String) (i : Id) (c : V)
    (hk : (st i).kind = .value) (hf : (st i).fixed = false) (ha : (st i).aka = none)
    (hd : d.get? n = some c) (hc : c ∉ (st i).cands) :
    loadOne d "" "" st n i = (st, some .assertion) := by
  simp [loadOne, findEntry, ha, lookupName, hd, hf, fixChosen, hk, hc]

/-- ... but accepted for operations, which lose all their candidates. -/
theorem C10_illegal_op_accepted_violated (d : Desc V) (st : Store V) (n : String) (i : Id) (c : V)
    (hk : (st i).kind = .op) (hf : (st i).fixed = false) (ha : (st i).aka = none)
    (hd : d.get? n = some c) (hc : c ∉ (st i).cands) :
    (loadOne d "" "" st n i).2 = none ∧ ((loadOne d "" "" st n i).1 i).cands = [] := by
  have : (st i).cands.filter (fun k => decide (k = c)) = [] := by
    rw [List.filter_eq_nil_iff]
    intro k hk' h
    simp only [decide_eq_true_eq] at h
    subst h
    exact hc hk'
  simp [loadOne, findEntry, ha, lookupName, hd, hf, fixChosen, hk, this, Store.set]

/-- C10 for a loaded subnet is violated: exporting a subnet that was built by
loading fails, because fixing an operation does not set its current choice. -/
theorem C10_reexport_violated :
    let fresh : Store Nat := fun _ => ⟨.op, none, [1, 2], none, none, false⟩
    (loadSubnet [("op", .mutable 0)] [("op", 2)] "" "" fresh).2 = none ∧
    exportSubnet [("op", .mutable 0)] (loadSubnet [("op", .mutable 0)] [("op", 2)] "" "" fresh).1
      = .error .assertion := by
  exact ⟨by decide, rfl⟩

/-- C11: without a prefix the element's own name is looked up, with an extra prefix
the extra prefix followed by the name; both together are rejected. -/
theorem C11_plain_and_extra (name extra : String) (h : extra ≠ "") :
    lookupName "" "" name = name ∧ lookupName "" extra name = extra ++ name ∧
    ∀ (model : List (String × Node)) (d : Desc V) (st : Store V) (p : String), p ≠ "" →
      loadSubnet model d p extra st = (st, some .runtime) := by
  refine ⟨by simp [lookupName], by simp [lookupName, h], ?_⟩
  intro model d st p hp
  simp [loadSubnet, hp, h]

/-- C11 with a prefix, exactly when it is right: for a name that starts with the
prefix, the looked-up name is the name without the prefix iff nothing follows the
prefix or the next character does not occur in the prefix. -/
theorem C11_prefix_iff (p rest : String) (hp : p ≠ "") :
    lookupName p "" (p ++ rest) = removePrefix (p ++ rest) p ↔
      ∀ c, rest.toList.head? = some c → c ∉ p.toList := by
  have h1 : (p ++ rest).toList = p.toList ++ rest.toList := by simp
  have h2 : removePrefix (p ++ rest) p = rest := by
    simp [removePrefix, h1]
  have h3 : lookupName p "" (p ++ rest)
      = String.ofList (rest.toList.dropWhile (fun c => decide (c ∈ p.toList))) := by
    simp only [lookupName, hp, ne_eq, not_false_eq_true, if_true, lstrip, h1]
    congr 1
    rw [List.dropWhile_append_of_pos]
    intro c hc
    simpa using hc
  rw [h2, h3]
  constructor
  · intro h c hc hin
    have h' : rest.toList.dropWhile (fun c => decide (c ∈ p.toList)) = rest.toList := by
      have := congrArg String.toList h
      simpa using this
    cases hr : rest.toList with
    | nil => rw [hr] at hc; cases hc
    | cons a l =>
      rw [hr] at hc h'
      simp only [List.head?_cons, Option.some.injEq] at hc
      subst hc
      rw [List.dropWhile_cons_of_pos (by simpa using hin)] at h'
      have := congrArg List.length h'
      have hle := (List.dropWhile_suffix (l := l) (fun c => decide (c ∈ p.toList))).length_le
      simp at this
      omega
  · intro h
    have : rest.toList.dropWhile (fun c => decide (c ∈ p.toList)) = rest.toList := by
      cases hr : rest.toList with
      | nil => rfl
      | cons a l =>
        rw [List.dropWhile_cons_of_neg]
        have := h a (by rw [hr]; rfl)
        simpa using this
    rw [this]
    simp

/-- C11: with an extra prefix alone a description that holds, under the extra prefix followed by the
element's name (or under its alias), a legal choice for every searchable element is loaded without error,
and every element is fixed to the choice described. -/
theorem C11_extra_loads (model : List (String × Node)) (d : Desc V) (fresh : Store V) (extra : String)
    (hextra : extra ≠ "") (hfree : ∀ i, (fresh i).fixed = false) (target : Id → Option V)
    (hd : ∀ v ∈ visits model, ∃ c, target v.2 = some c ∧ d.get? ((fresh v.2).aka.getD (extra ++ v.1)) = some c ∧ c ∈ (fresh v.2).cands) :
    (loadSubnet model d "" extra fresh).2 = none ∧
    ∀ v ∈ visits model, ((loadSubnet model d "" extra fresh).1 v.2).fixed = true ∧
      effective ((loadSubnet model d "" extra fresh).1 v.2) = target v.2 := by
  have e : loadSubnet model d "" extra fresh = loadLoop d "" "" ((visits model).map fun v => (extra ++ v.1, v.2)) fresh := by
    simp only [loadSubnet]
    rw [if_neg (by simp), loadLoop_rename]
    simp [lookupName, hextra]
  have h := loadLoop_ok d fresh hfree target ((visits model).map fun v => (extra ++ v.1, v.2)) fresh
    (by
      intro v hv
      obtain ⟨u, hu, rfl⟩ := List.mem_map.1 hv
      exact hd u hu) (fun i => Or.inl rfl)
  rw [e]
  refine ⟨h.1, fun v hv => ?_⟩
  have hfix := h.2.2.1 v.2 (Or.inl (by
    rw [List.map_map]
    exact List.mem_map.mpr ⟨v, hv, rfl⟩))
  refine ⟨hfix, ?_⟩
  rcases h.2.1 v.2 with h' | h'
  · rw [h', hfree] at hfix; cases hfix
  · exact h'.2

/-- C11: the same with a prefix alone, under the names that `lookupName` gives. -/
theorem C11_prefix_loads (model : List (String × Node)) (d : Desc V) (fresh : Store V) (p : String)
    (hfree : ∀ i, (fresh i).fixed = false) (target : Id → Option V)
    (hd : ∀ v ∈ visits model, ∃ c, target v.2 = some c ∧ d.get? ((fresh v.2).aka.getD (lookupName p "" v.1)) = some c ∧ c ∈ (fresh v.2).cands) :
    (loadSubnet model d p "" fresh).2 = none ∧
    ∀ v ∈ visits model, ((loadSubnet model d p "" fresh).1 v.2).fixed = true ∧
      effective ((loadSubnet model d p "" fresh).1 v.2) = target v.2 := by
  have e : loadSubnet model d p "" fresh = loadLoop d "" "" ((visits model).map fun v => (lookupName p "" v.1, v.2)) fresh := by
    simp only [loadSubnet]
    rw [if_neg (by simp), loadLoop_rename]
  have h := loadLoop_ok d fresh hfree target ((visits model).map fun v => (lookupName p "" v.1, v.2)) fresh
    (by
      intro v hv
      obtain ⟨u, hu, rfl⟩ := List.mem_map.1 hv
      exact hd u hu) (fun i => Or.inl rfl)
  rw [e]
  refine ⟨h.1, fun v hv => ?_⟩
  have hfix := h.2.2.1 v.2 (Or.inl (by
    rw [List.map_map]
    exact List.mem_map.mpr ⟨v, hv, rfl⟩))
  refine ⟨hfix, ?_⟩
  rcases h.2.1 v.2 with h' | h'
  · rw [h', hfree] at hfix; cases hfix
  · exact h'.2

/-- C11 is violated: with prefix `backbone.`, the element `backbone.conv` is looked
up as `v`, so a description that holds `conv` is rejected. -/
theorem C11_prefix_violated :
    lookupName "backbone." "" "backbone.conv" = "v" ∧ removePrefix "backbone.conv" "backbone." = "conv" ∧
    (loadSubnet [("backbone.conv", .mutable 0)] [("conv", 1)] "backbone." ""
      (fun _ => (⟨.value, none, [1, 2], some 2, none, false⟩ : Mut Nat))).2 = some .runtime := by
  decide +kernel

/-- C11 is violated for a name outside the prefix too: `ab` with prefix `b_a` is
looked up as the empty name. -/
theorem C11_unprefixed_name_violated :
    lookupName "b_a" "" "ab" = "" ∧ removePrefix "ab" "b_a" = "ab" := by
  decide +kernel

/-- What `fix_chosen` refuses: a second time an `AttributeError` for operations (whose choice is not checked) and a `RuntimeError` for
values; a value that is not listed is an assertion. -/
theorem C10_fix_refused (m : Mut V) (c : V) (e : Err) :
    fixChosen m c = .error e ↔ (m.kind = .op ∧ m.fixed = true ∧ e = .attribute) ∨ (m.kind = .value ∧ m.fixed = true ∧ e = .runtime) ∨
      (m.kind = .value ∧ m.fixed = false ∧ c ∉ m.cands ∧ e = .assertion) := by
  unfold fixChosen
  cases hk : m.kind <;> cases hf : m.fixed
  · simp
  · simp [eq_comm (a := e)]
  · by_cases hc : c ∈ m.cands
    · simp [hc]
    · simp [hc, eq_comm (a := e)]
  · simp [eq_comm (a := e)]

example : fixChosen (⟨.value, none, [1, 2], some 1, none, true⟩ : Mut ℕ) 1 = .error .runtime ∧
    fixChosen (⟨.value, none, [1, 2], some 1, none, false⟩ : Mut ℕ) 3 = .error .assertion :=
  ⟨(C10_fix_refused _ _ _).2 (by simp), (C10_fix_refused _ _ _).2 (by simp)⟩

end Verif.FixSubnet
