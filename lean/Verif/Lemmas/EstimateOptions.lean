import Verif.Spec.EstimateOptions

/-! Helper lemmas for `Verif/Props/EstimateOptions.lean`. -/

namespace Verif.EstimateOptions
open Verif

theorem get_merge (d e : Dict) (k : String) : (d.merge e).get k = (e.get k).orElse fun _ => d.get k := by
  unfold Dict.get Dict.merge
  rw [List.find?_append]
  cases List.find? (fun x => decide (x.1 = k)) e <;> simp

theorem get_set (d : Dict) (k k' : String) (v : Val) : (d.set k v).get k' = if k = k' then some v else d.get k' := by
  unfold Dict.get Dict.set
  rw [List.find?_cons]
  by_cases h : k = k' <;> simp [h]

theorem get_setDefault (e : Estimator) (d : Dict) (k k' : String) :
    (setDefault e d k).get k' = if k = k' then (d.get k').orElse (fun _ => e.own k') else d.get k' := by
  unfold setDefault
  by_cases h : k = k'
  · subst h
    rw [if_pos rfl]
    cases h1 : d.get k with
    | none =>
      cases h2 : e.own k with
      | none => simp [h1]
      | some v => simp [get_set]
    | some v => simp [h1]
  · rw [if_neg h]
    cases h1 : d.get k with
    | none =>
      cases h2 : e.own k with
      | none => simp
      | some v => simp [get_set, h]
    | some v => simp

theorem history_completed (mods : List Nat) (runs : List ((Nat → Bool) × Bool)) (h : ∀ r ∈ runs, r.2 = false)
    (hk : Nat → Bool) (h0 : ∀ m, hk m = false) : ∀ m, history mods runs hk m = false := by
  induction runs generalizing hk with
  | nil => exact h0
  | cons r rs ih =>
    obtain ⟨en, fl⟩ := r
    have hf : fl = false := h (en, fl) (by simp)
    subst hf
    simp only [history]
    apply ih (fun x hx => h x (by simp [hx]))
    intro m
    simp only [countRun, Bool.false_eq_true, if_false, h0, Bool.false_or]
    split
    · rfl
    · rename_i hm
      simp only [Bool.not_eq_true] at hm
      rw [hm]; rfl

theorem history_same (mods : List Nat) (en : Nat → Bool) (runs : List ((Nat → Bool) × Bool)) (h : ∀ r ∈ runs, r.1 = en)
    (hk : Nat → Bool) (h0 : ∀ m, hk m = true → m ∈ mods ∧ en m = true) :
    ∀ m, history mods runs hk m = true → m ∈ mods ∧ en m = true := by
  induction runs generalizing hk with
  | nil => exact h0
  | cons r rs ih =>
    obtain ⟨e, fl⟩ := r
    have hf : e = en := h (e, fl) (by simp)
    subst hf
    simp only [history]
    apply ih (fun x hx => h x (by simp [hx]))
    intro m
    simp only [countRun]
    split
    · intro hm
      simp at hm
      rcases hm with hm | hm
      · exact h0 m hm
      · exact hm
    · simp only []
      split
      · simp
      · intro hm
        simp at hm
        rcases hm with hm | hm
        · exact h0 m hm
        · exact hm

end Verif.EstimateOptions
