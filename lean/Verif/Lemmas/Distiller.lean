import Verif.Spec.Distiller

/-! Helper lemmas for `Verif/Props/Distiller.lean`. -/

namespace Verif.Distiller
open Verif

variable {T : Type}

theorem checkItem_ok (c : Cfg T) (l : Loss T) (k : Name) (i : Info) :
    checkItem c l k i = .ok () ↔ ∃ d, get? l.params k = some d ∧ (d = false → Named c i) := by
  unfold checkItem Named
  cases h : get? l.params k with
  | none => simp
  | some d =>
    cases d with
    | true => simp
    | false =>
      simp only [Option.some.injEq, exists_eq_left', forall_true_left]
      cases hr : i.recorder with
      | none => simp
      | some r =>
        cases hf : i.fromStudent with
        | none => simp
        | some b =>
          cases b with
          | other t => simp
          | bool b =>
            simp only [Option.some.injEq, Flag.bool.injEq, exists_and_left, exists_eq_left']
            by_cases hm : r ∈ (if b then c.student else c.teacher)
            · rw [if_pos hm]
              cases hc : i.connector with
              | none => simp [hm]
              | some n =>
                simp only [Option.some.injEq, forall_eq']
                cases hg : get? c.connectors n with
                | none => simp
                | some f => simp [hm]
            · rw [if_neg hm]
              simp [hm]

theorem checkItems_ok (c : Cfg T) (l : Loss T) (m : List (Name × Info)) :
    checkItems c l m = .ok () ↔ ∀ ki ∈ m, ∃ d, get? l.params ki.1 = some d ∧ (d = false → Named c ki.2) := by
  induction m with
  | nil => simp [checkItems]
  | cons ki m ih =>
    obtain ⟨k, i⟩ := ki
    rw [checkItems, List.forall_mem_cons, ← checkItem_ok, ← ih]
    cases h : checkItem c l k i with
    | error e => simp
    | ok u => simp

theorem pyGet_nat {A : Type} (l : List A) (k : Nat) (x : A) (h : l[k]? = some x) : pyGet l k = .ok x := by
  unfold pyGet
  rw [if_neg (by omega), Int.toNat_natCast, h]
  simp only
  rw [if_neg (by omega)]

theorem getRecord_located (c : Cfg T) (w : World T) (i : Info) (d : Data T) (hn : Named c i) (he : i.extra = []) (h : Located c w i d) :
    getRecord c w i = .ok d := by
  obtain ⟨r, b, k, x, y, z, h1, h2, h3, h4, h5, h6, h7⟩ := h
  obtain ⟨r', b', g1, g2, g3, -⟩ := hn
  rw [h1] at g1
  rw [h2] at g2
  cases g1; cases g2
  have e1 : recordData (if b then w.student r else w.teacher r) i.recordIdx i.dataIdx = .ok y := by
    unfold recordData
    have hk : k < (if b then w.student r else w.teacher r).length := (List.getElem?_eq_some_iff.1 h4).1
    rw [h3, if_neg (by omega), pyGet_nat _ _ _ h4]
    dsimp only
    cases hd : i.dataIdx with
    | none => rw [hd] at h5; simp only at h5; rw [h5]
    | some j =>
      rw [hd] at h5
      obtain ⟨l, j', rfl, rfl, h5⟩ := h5
      dsimp only
      have hj : j' < l.length := (List.getElem?_eq_some_iff.1 h5).1
      rw [if_neg (by omega), pyGet_nat _ _ _ h5]
  have e2 : connect c y i.connector = .ok z := by
    cases hd : i.connector with
    | none => rw [hd] at h6; simp only at h6; rw [connect, h6]
    | some n =>
      rw [hd] at h6
      obtain ⟨f, h6, h6'⟩ := h6
      rw [connect, h6, h6']
  have e3 : index w z i.connectorIdx = .ok d := by
    cases hd : i.connectorIdx with
    | none => rw [hd] at h7; simp only at h7; rw [index, h7]
    | some j =>
      rw [hd] at h7
      obtain ⟨l, j', rfl, rfl, h7⟩ := h7
      exact pyGet_nat _ _ _ h7
  unfold getRecord
  rw [h1, h2]
  dsimp only
  have g3' : r ∈ (if (Flag.bool b).truth then c.student else c.teacher) := g3
  have e1' : recordData (if (Flag.bool b).truth then w.student r else w.teacher r) i.recordIdx i.dataIdx = .ok y := e1
  rw [if_neg (by simp [he]), if_neg (not_not_intro g3'), e1']
  simp only
  rw [e2]
  exact e3

theorem getArgs_located (c : Cfg T) (w : World T) (D : Info → Data T) (m : List (Name × Info))
    (h : ∀ ki ∈ m, getRecord c w ki.2 = .ok (D ki.2)) : getArgs c w m = .ok (m.map fun ki => (ki.1, D ki.2)) := by
  induction m with
  | nil => rfl
  | cons ki m ih =>
    obtain ⟨k, i⟩ := ki
    rw [getArgs, h (k, i) (by simp), ih fun ki hk => h ki (by simp [hk])]
    rfl

theorem get?_isSome {A : Type} (d : List (Name × A)) (k : Name) : (get? d k).isSome = true ↔ k ∈ d.map (·.1) := by
  unfold get?
  rw [Option.isSome_map, List.find?_isSome]
  simp

theorem getArgs_names (c : Cfg T) (w : World T) (m : List (Name × Info)) (args : List (Name × Data T)) (h : getArgs c w m = .ok args) :
    args.map (·.1) = m.map (·.1) := by
  induction m generalizing args with
  | nil => cases h; rfl
  | cons ki m ih =>
    obtain ⟨k, i⟩ := ki
    rw [getArgs] at h
    cases h1 : getRecord c w i with
    | error e => rw [h1] at h; cases h
    | ok d =>
      rw [h1] at h; simp only at h
      cases h2 : getArgs c w m with
      | error e => rw [h2] at h; cases h
      | ok ds =>
        rw [h2] at h; cases h
        simp [ih ds h2]

theorem loss_infix (p n : Name) (hp : p = "teacher".toList ∨ p = "student".toList ∨ p = "distill".toList) :
    "loss".toList <:+: p ++ '.' :: n ↔ "loss".toList <:+: n := by
  have h : "loss".toList = ['l', 'o', 's', 's'] := by decide +kernel
  have h1 : "teacher".toList = ['t', 'e', 'a', 'c', 'h', 'e', 'r'] := by decide +kernel
  have h2 : "student".toList = ['s', 't', 'u', 'd', 'e', 'n', 't'] := by decide +kernel
  have h3 : "distill".toList = ['d', 'i', 's', 't', 'i', 'l', 'l'] := by decide +kernel
  rw [h]
  rcases hp with rfl | rfl | rfl
  · rw [h1]; simp [List.infix_cons_iff]
  · rw [h2]; simp [List.infix_cons_iff]
  · rw [h3]; simp [List.infix_cons_iff]

theorem total_prefix (p : Name) (l : List (Name × ℚ)) (hp : p = "teacher".toList ∨ p = "student".toList ∨ p = "distill".toList) :
    total (addPrefix p l) = total l := by
  unfold total addPrefix
  rw [List.filter_map, List.map_map]
  congr 2
  apply List.filter_congr
  intro x _
  exact decide_eq_decide.2 (loss_infix p x.1 hp)

theorem total_append (l l' : List (Name × ℚ)) : total (l ++ l') = total l + total l' := by
  simp [total]

theorem total_eq (l : List (Name × ℚ)) : total l = lossSum l := by
  have hw : "loss".toList = ['l', 'o', 's', 's'] := by decide +kernel
  induction l with
  | nil => rfl
  | cons x xs ih =>
    unfold total lossSum at ih ⊢
    rw [List.filter_cons, List.map_cons, List.sum_cons, ← ih, hw]
    by_cases h : ['l', 'o', 's', 's'] <:+: x.1
    · have h' : ∃ a b : Name, x.1 = a ++ ['l', 'o', 's', 's'] ++ b := by
        obtain ⟨a, b, e⟩ := h; exact ⟨a, b, e.symm⟩
      rw [if_pos h', if_pos (by simpa using h)]
      rfl
    · have h' : ¬ ∃ a b : Name, x.1 = a ++ ['l', 'o', 's', 's'] ++ b := fun ⟨a, b, e⟩ => h ⟨a, b, e.symm⟩
      rw [if_neg h', if_neg (by simpa using h), zero_add]

end Verif.Distiller
