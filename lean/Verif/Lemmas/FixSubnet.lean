import Verif.Spec.FixSubnet

/-! Helper lemmas for `Verif/Props/FixSubnet.lean`. -/

namespace Verif.FixSubnet
open Verif

variable {V : Type} [DecidableEq V]

/-! ### Helpers -/

theorem get_put (d : Desc V) (k k' : String) (v : V) :
    (d.put k v).get? k' = if k' = k then some v else d.get? k' := by
  unfold Desc.put Desc.get?
  split
  · rename_i h
    induction d with
    | nil => simp at h
    | cons p d ih =>
      by_cases hp : p.1 = k
      · by_cases hk : k' = k
        · subst hk; simp [hp]
        · have h1 : (k == k') = false := by simpa using Ne.symm hk
          have h2 : (p.1 == k') = false := by rw [hp]; exact h1
          simp only [List.map_cons, hp, beq_self_eq_true, if_true, List.find?_cons, h1, hk, if_false]
          by_cases hd : d.any (fun p => p.1 == k) = true
          · rw [ih hd]; simp [hk]
          · have : d.map (fun p => if p.1 == k then (k, v) else p) = d := by
              conv_rhs => rw [← List.map_id d]
              apply List.map_congr_left
              intro q hq
              have hq' : (q.1 == k) = false := by
                by_contra hc
                exact hd (List.any_eq_true.mpr ⟨q, hq, by simpa using hc⟩)
              simp [hq']
            rw [this]
      · have hp' : (p.1 == k) = false := by simpa using hp
        have hd : d.any (fun p => p.1 == k) = true := by simpa [hp'] using h
        have ih' := ih hd
        simp only [List.map_cons, hp', Bool.false_eq_true, if_false, List.find?_cons]
        by_cases hk : p.1 = k'
        · have : k' ≠ k := by rintro rfl; exact hp hk
          simp [hk, this]
        · have hk' : (p.1 == k') = false := by simpa using hk
          simp only [hk']
          exact ih'
  · rename_i h
    rw [List.find?_append]
    by_cases hk : k' = k
    · subst hk
      have : d.find? (fun p => p.1 == k') = none := by
        rw [List.find?_eq_none]
        intro q hq hc
        exact h (List.any_eq_true.mpr ⟨q, hq, hc⟩)
      simp [this]
    · have h1 : (k == k') = false := by simpa using Ne.symm hk
      simp [hk, h1]

theorem exportLoop_get (st : Store V) : ∀ (vs : List (String × Id)) (d d' : Desc V),
    exportLoop st vs d = .ok d' →
    (∀ v ∈ vs, ∃ c, (st v.2).current = some c) ∧
    (∀ k, k ∉ vs.map (keyOf st) → d'.get? k = d.get? k) ∧
    (∀ k, k ∈ vs.map (keyOf st) → ∃ v ∈ vs, keyOf st v = k ∧ d'.get? k = (st v.2).current)
  | [], d, d', h => by
    simp only [exportLoop, Except.ok.injEq] at h
    subst h
    simp
  | (n, i) :: vs, d, d', h => by
    rw [exportLoop] at h
    cases hc : (st i).current with
    | none => simp [dump, hc, bind, Except.bind] at h
    | some c =>
      simp only [dump, hc, bind, Except.bind] at h
      obtain ⟨h1, h2, h3⟩ := exportLoop_get st vs _ d' h
      refine ⟨?_, ?_, ?_⟩
      · intro v hv
        rcases List.mem_cons.mp hv with rfl | hv
        · exact ⟨c, hc⟩
        · exact h1 v hv
      · intro k hk
        simp only [List.map_cons, List.mem_cons, not_or] at hk
        rw [h2 k hk.2, get_put]
        have : k ≠ (st i).aka.getD n := hk.1
        simp [this]
      · intro k hk
        by_cases hin : k ∈ vs.map (keyOf st)
        · obtain ⟨v, hv, hv1, hv2⟩ := h3 k hin
          exact ⟨v, by simp [hv], hv1, hv2⟩
        · have hk' : k = keyOf st (n, i) := by
            simp only [List.map_cons, List.mem_cons] at hk
            exact hk.resolve_right hin
          refine ⟨(n, i), by simp, hk'.symm, ?_⟩
          rw [h2 k hin, get_put, hk']
          simp [keyOf, hc]

/-- What exporting produces: for every visited object, an entry under its key. -/
theorem export_entry (st : Store V) (model : List (String × Node)) (d : Desc V)
    (hk : KeysConsistent st model) (h : exportSubnet model st = .ok d) (v : String × Id)
    (hv : v ∈ visits model) :
    ∃ c, (st v.2).current = some c ∧ d.get? (keyOf st v) = some c := by
  obtain ⟨h1, _, h3⟩ := exportLoop_get st _ _ _ h
  obtain ⟨c, hc⟩ := h1 v hv
  obtain ⟨w, hw, hw1, hw2⟩ := h3 (keyOf st v) (List.mem_map.mpr ⟨v, hv, rfl⟩)
  refine ⟨c, hc, ?_⟩
  rw [hw2, hk w hw v hv hw1, hc]

/-- One load step on a description that holds the right entry. -/
theorem loadOne_ok (d : Desc V) (st : Store V) (n : String) (i : Id) (c : V)
    (hd : d.get? ((st i).aka.getD n) = some c)
    (hin : (st i).fixed = false → c ∈ (st i).cands) :
    (loadOne d "" "" st n i).2 = none ∧
    ((st i).fixed = true → (loadOne d "" "" st n i).1 = st) ∧
    ((st i).fixed = false → ∃ m, (loadOne d "" "" st n i).1 = st.set i m ∧ m.fixed = true ∧
      effective m = some c ∧ m.aka = (st i).aka) := by
  have hr : findEntry d "" "" (st i).aka n = .ok c := by
    cases ha : (st i).aka with
    | none => simp [ha] at hd; simp [findEntry, lookupName, hd]
    | some a => simp [ha] at hd; simp [findEntry, hd]
  unfold loadOne
  simp only [hr]
  by_cases hf : (st i).fixed = true
  · simp [hf]
  · have hf' : (st i).fixed = false := by simpa using hf
    have hc := hin hf'
    cases hkd : (st i).kind with
    | op =>
      simp only [hf', fixChosen, hkd, Bool.false_eq_true, if_false, true_and]
      exact ⟨by simp, fun _ => ⟨_, rfl, rfl, by simp [effective, hkd], rfl⟩⟩
    | value =>
      simp only [hf', fixChosen, hkd, hc, Bool.false_eq_true, if_false, if_true, true_and]
      exact ⟨by simp, fun _ => ⟨_, rfl, rfl, by simp [effective, hkd], rfl⟩⟩

/-- Loading with a prefix is loading under the looked-up names. -/
theorem loadLoop_rename (d : Desc V) (pfx extra : String) : ∀ (vs : List (String × Id)) (st : Store V),
    loadLoop d pfx extra vs st = loadLoop d "" "" (vs.map fun v => (lookupName pfx extra v.1, v.2)) st
  | [], _ => rfl
  | (n, i) :: vs, st => by
    have hf : ∀ aka, findEntry d pfx extra aka n = findEntry d "" "" aka (lookupName pfx extra n) := by
      intro aka
      cases aka with
      | none => simp [findEntry, lookupName]
      | some a => rfl
    have h1 : loadOne d pfx extra st n i = loadOne d "" "" st (lookupName pfx extra n) i := by
      unfold loadOne
      rw [hf]
    rw [List.map_cons, loadLoop, loadLoop, h1]
    cases h : loadOne d "" "" st (lookupName pfx extra n) i with
    | mk st' e =>
      cases e with
      | none => exact loadLoop_rename d pfx extra vs st'
      | some e => rfl

/-- Loop invariant: every object is either untouched, or fixed to its described
choice. -/
theorem loadLoop_ok (d : Desc V) (st0 : Store V) (hfree : ∀ i, (st0 i).fixed = false)
    (target : Id → Option V) :
    ∀ (vs : List (String × Id)) (st : Store V),
      (∀ v ∈ vs, ∃ c, target v.2 = some c ∧ d.get? (keyOf st0 v) = some c ∧ c ∈ (st0 v.2).cands) →
      (∀ i, st i = st0 i ∨ ((st i).fixed = true ∧ effective (st i) = target i ∧
        (st i).aka = (st0 i).aka)) →
      (loadLoop d "" "" vs st).2 = none ∧
      (∀ i, (loadLoop d "" "" vs st).1 i = st0 i ∨
        (((loadLoop d "" "" vs st).1 i).fixed = true ∧
          effective ((loadLoop d "" "" vs st).1 i) = target i)) ∧
      (∀ i, (i ∈ vs.map (·.2) ∨ (st i).fixed = true) → ((loadLoop d "" "" vs st).1 i).fixed = true) ∧
      (∀ i, i ∉ vs.map (·.2) → (loadLoop d "" "" vs st).1 i = st i)
  | [], st, _, hinv => by
    refine ⟨rfl, fun i => ?_, fun i hi => ?_, fun i _ => rfl⟩
    · rcases hinv i with h | h
      · exact Or.inl h
      · exact Or.inr ⟨h.1, h.2.1⟩
    · rcases hi with hi | hi
      · simp at hi
      · exact hi
  | (n, i) :: vs, st, hv, hinv => by
    obtain ⟨c, hc1, hc2, hc3⟩ := hv (n, i) (by simp)
    have hal : (st i).aka = (st0 i).aka := by
      rcases hinv i with h | h
      · rw [h]
      · exact h.2.2
    have hone := loadOne_ok d st n i c (by rw [hal]; exact hc2) (by
      intro hf
      rcases hinv i with h | h
      · rw [h]; exact hc3
      · rw [h.1] at hf; cases hf)
    have hstep : ∀ st', loadOne d "" "" st n i = (st', none) →
        loadLoop d "" "" ((n, i) :: vs) st = loadLoop d "" "" vs st' := by
      intro st' h; simp [loadLoop, h]
    by_cases hf : (st i).fixed = true
    · have e : loadOne d "" "" st n i = (st, none) := Prod.ext (hone.2.1 hf) hone.1
      rw [hstep st e]
      obtain ⟨r1, r2, r3, r4⟩ := loadLoop_ok d st0 hfree target vs st (fun v h => hv v (by simp [h])) hinv
      refine ⟨r1, r2, ?_, ?_⟩
      · intro j hj
        apply r3
        rcases hj with hj | hj
        · simp only [List.map_cons, List.mem_cons] at hj
          rcases hj with rfl | hj
          · exact Or.inr hf
          · exact Or.inl hj
        · exact Or.inr hj
      · intro j hj
        simp only [List.map_cons, List.mem_cons, not_or] at hj
        exact r4 j hj.2
    · have hf' : (st i).fixed = false := by simpa using hf
      obtain ⟨m, hm1, hm2, hm3, hm4⟩ := hone.2.2 hf'
      have e : loadOne d "" "" st n i = (st.set i m, none) := Prod.ext hm1 hone.1
      rw [hstep _ e]
      obtain ⟨r1, r2, r3, r4⟩ := loadLoop_ok d st0 hfree target vs (st.set i m)
        (fun v h => hv v (by simp [h])) (by
          intro j
          by_cases hj : j = i
          · subst hj
            right
            simp only [Store.set, if_true]
            exact ⟨hm2, by rw [hm3]; exact hc1.symm, by rw [hm4]; exact hal⟩
          · simp only [Store.set, hj, if_false]
            exact hinv j)
      refine ⟨r1, r2, ?_, ?_⟩
      · intro j hj
        apply r3
        rcases hj with hj | hj
        · simp only [List.map_cons, List.mem_cons] at hj
          rcases hj with rfl | hj
          · right; simp [Store.set, hm2]
          · exact Or.inl hj
        · right
          by_cases hji : j = i
          · subst hji; simp [Store.set, hm2]
          · simp [Store.set, hji, hj]
      · intro j hj
        simp only [List.map_cons, List.mem_cons, not_or] at hj
        rw [r4 j hj.2]
        simp [Store.set, hj.1]

end Verif.FixSubnet
