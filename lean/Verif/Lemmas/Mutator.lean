import Verif.Spec.Mutator

/-! Helper lemmas for `Verif/Props/Mutator.lean`. -/

namespace Verif.Mutator
open Verif

variable {N C : Type} [DecidableEq N]

theorem get?_map (groups : List (N × List Nat)) (f : N → C) (n : N) (h : n ∈ groups.map (·.1)) :
    get? (groups.map (fun g => (g.1, f g.1))) n = some (f n) := by
  induction groups with
  | nil => simp at h
  | cons g groups ih =>
    by_cases hg : g.1 = n
    · subst hg; simp [get?]
    · have : n ∈ groups.map (·.1) := by simpa [Ne.symm hg] using h
      have := ih this
      simpa [get?, hg] using this

theorem setMembers_ok {store : Nat → C → Except Err C} {c : C} (es : List Nat) : ∀ s, (∀ e ∈ es, Legal store e c) →
    setMembers store c es s = (fun x => if x ∈ es then c else s x, none) := by
  induction es with
  | nil => intro s _; simp [setMembers]
  | cons e es ih =>
    intro s h
    simp only [setMembers, setOne]
    rw [show store e c = .ok c from h e (by simp)]
    simp only
    rw [ih _ (fun e he => h e (by simp [he]))]
    congr 1
    funext x
    by_cases hx : x ∈ es
    · simp [hx]
    · by_cases hxe : x = e <;> simp [hx, hxe]

theorem setChoices_ok {store : Nat → C → Except Err C} {choices : List (N × C)} {f : N → C}
    (groups : List (N × List Nat)) (hget : ∀ g ∈ groups, get? choices g.1 = some (f g.1))
    (hdis : groups.Pairwise (fun g g' => ∀ e ∈ g.2, e ∉ g'.2)) (hleg : Complete store groups f) :
    ∀ s, ∃ s', setChoices store choices groups s = (s', none) ∧ (∀ g ∈ groups, ∀ e ∈ g.2, s' e = f g.1) ∧
      (∀ e, (∀ g ∈ groups, e ∉ g.2) → s' e = s e) := by
  induction groups with
  | nil => intro s; exact ⟨s, rfl, by simp, by simp⟩
  | cons g groups ih =>
    intro s
    obtain ⟨name, es⟩ := g
    rw [List.pairwise_cons] at hdis
    simp only [setChoices]
    rw [hget (name, es) (by simp)]
    simp only
    rw [setMembers_ok es s (fun e he => hleg (name, es) (by simp) e he)]
    simp only
    obtain ⟨s', h1, h2, h3⟩ := ih (fun g hg => hget g (by simp [hg])) hdis.2 (fun g hg => hleg g (by simp [hg]))
      (fun x => if x ∈ es then f name else s x)
    refine ⟨s', h1, ?_, ?_⟩
    · intro g hg e he
      rcases List.mem_cons.1 hg with rfl | hg
      · rw [h3 e (fun g' hg' => hdis.1 g' hg' e he)]; simp at he; simp [he]
      · exact h2 g hg e he
    · intro e he
      rw [h3 e (fun g hg => he g (by simp [hg]))]
      have := he (name, es) (by simp)
      simp at this; simp [this]

theorem current_ok (s : St C) (f : N → C) (groups : List (N × List Nat)) (hne : ∀ g ∈ groups, g.2 ≠ [])
    (h : ∀ g ∈ groups, ∀ e ∈ g.2, s e = f g.1) :
    currentChoices s groups = .ok (groups.map (fun g => (g.1, f g.1))) := by
  induction groups with
  | nil => rfl
  | cons g groups ih =>
    obtain ⟨name, es⟩ := g
    cases es with
    | nil => exact absurd rfl (hne (name, []) (by simp))
    | cons e es =>
      simp only [currentChoices]
      rw [ih (fun g hg => hne g (by simp [hg])) (fun g hg => h g (by simp [hg]))]
      simp only [List.map_cons]
      rw [h (name, e :: es) (by simp) e (by simp)]

theorem find_unit {units : List (U N)} (hn : (units.map U.name).Nodup) {u : U N} (hu : u ∈ units) :
    units.find? (fun v => decide (v.name = u.name)) = some u := by
  induction units with
  | nil => simp at hu
  | cons v units ih =>
    simp only [List.map_cons, List.nodup_cons] at hn
    rcases List.mem_cons.1 hu with rfl | hu
    · simp
    · have : v.name ≠ u.name := by
        intro h; exact hn.1 (List.mem_map.2 ⟨u, hu, h.symm⟩)
      simp [this, ih hn.2 hu]

theorem setUnits_ok {store : Nat → C → Except Err C} {units : List (U N)} (hn : (units.map U.name).Nodup)
    (hid : (units.map U.id).Nodup) (choices : List (N × C)) :
    ∀ s, (choices.map (·.1)).Nodup → (∀ p ∈ choices, ∃ u ∈ units, u.name = p.1 ∧ Legal store u.id p.2) →
    ∃ s', setUnits store units choices s = (s', none) ∧
      (∀ u ∈ units, ∀ c, (u.name, c) ∈ choices → s' u.id = c) ∧
      (∀ u ∈ units, u.name ∉ choices.map (·.1) → s' u.id = s u.id) := by
  induction choices with
  | nil => intro s _ _; exact ⟨s, rfl, by simp, by simp⟩
  | cons p choices ih =>
    intro s hnd hleg
    obtain ⟨name, c⟩ := p
    simp only [List.map_cons, List.nodup_cons] at hnd
    obtain ⟨u, hu, huname, hul⟩ := hleg (name, c) (by simp)
    simp only at huname hul
    have hfind := find_unit hn hu
    rw [huname] at hfind
    simp only [setUnits, hfind, setOne]
    rw [show store u.id c = .ok c from hul]
    simp only
    obtain ⟨s', r1, r2, r3⟩ := ih (fun x => if x = u.id then c else s x) hnd.2 (fun p hp => hleg p (by simp [hp]))
    have hidinj : ∀ v ∈ units, v.id = u.id → v = u := by
      intro v hv hvu
      exact List.inj_on_of_nodup_map hid hv hu hvu
    refine ⟨s', r1, ?_, ?_⟩
    · intro v hv c' hc'
      rcases List.mem_cons.1 hc' with h | h
      · have h1 : v.name = name := congrArg Prod.fst h
        have h2 : c' = c := congrArg Prod.snd h
        have hvu : v = u := List.inj_on_of_nodup_map hn hv hu (h1.trans huname.symm)
        rw [r3 v hv (by rw [h1]; exact hnd.1), hvu, if_pos rfl, h2]
      · exact r2 v hv c' h
    · intro v hv hvn
      simp only [List.map_cons, List.mem_cons, not_or] at hvn
      rw [r3 v hv hvn.2]
      have : v.id ≠ u.id := by
        intro h; have := hidinj v hv h; subst this; exact hvn.1 huname
      rw [if_neg this]

end Verif.Mutator
