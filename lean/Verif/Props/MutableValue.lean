import Verif.Lemmas.MutableValue

/-! C04: value mutables. -/

namespace Verif.MutableValue
open Verif

variable {α : Type} [DecidableEq α]

/-- C04: whatever sequence of assigning, fixing, dumping, sampling and flag
changes is performed, and whichever of these calls fail, the current value is one
of the declared candidates (and the candidates never change). -/
theorem C04_current_is_candidate (values : List α) (default : Option α) (m : MV α)
    (h : init values default = .ok m) (ops : List (Op α)) :
    (run m ops).choices = values ∧ (run m ops).current ∈ values := by
  have hm : m.choices = values ∧ m.current ∈ values := by
    unfold init at h
    split at h
    · split at h
      · injection h with h; subst h; simpa
      · cases h
    · split at h
      · cases h
      · injection h with h; subst h; simp
  refine ⟨by rw [run_choices, hm.1], ?_⟩
  unfold run
  have key : ∀ (ops : List (Op α)) (m : MV α), m.choices = values → m.current ∈ values →
      (ops.foldl (fun m o => (step m o).1) m).current ∈ values := by
    intro ops
    induction ops with
    | nil => intro m _ h; exact h
    | cons o os ih =>
      intro m h1 h2
      refine ih _ (by rw [step_choices, h1]) ?_
      have := step_current m o (by rw [h1]; exact h2)
      rwa [h1] at this
  exact key ops m hm.1 hm.2

/-- C04: a new mutable is not fixed and starts at the default, or at the first
candidate; no candidate and a default outside the candidates are refused. -/
theorem C04_fresh (values : List α) (default : Option α) :
    (∀ m, init values default = .ok m → m = ⟨values, m.current, false⟩ ∧
      (default = some m.current ∨ default = none ∧ values.head? = some m.current)) ∧
    ((∃ e, init values default = .error e) ↔
      (∃ v, default = some v ∧ v ∉ values) ∨ (default = none ∧ values = [])) := by
  cases default with
  | some v =>
    by_cases hv : v ∈ values
    · simp [init, hv]
    · simp [init, hv]
  | none => cases values <;> simp [init]

/-- C04: reading: the dump carries the current value and all candidates, sampling
returns a candidate, and neither changes anything. -/
theorem C04_reading (m : MV α) :
    step m .dump = (m, .dumped m.current m.choices) ∧
    ∀ (i : Nat), (step m (.sample i)).1 = m ∧
      ∀ v, (step m (.sample i)).2 = .val v → v ∈ m.choices := by
  refine ⟨rfl, fun i => ?_⟩
  cases h : m.choices[i]? with
  | none => simp [step, h]
  | some v => simp [step, h, List.mem_of_getElem? h]

/-- C04: a call that raises leaves the whole state as it was. -/
theorem C04_error_keeps_state (m : MV α) (o : Op α) (e : Err) (h : (step m o).2 = .err e) :
    (step m o).1 = m := by
  cases o with
  | assign c => simp only [step, assign] at *; split at h <;> simp_all
  | fix c =>
    simp only [step] at *
    by_cases hf : m.fixed = true
    · simp [fixChosen, hf]
    · by_cases hc : c ∈ m.choices
      · rw [fixChosen_ok m c (by simpa using hf) hc] at h; simp at h
      · simp [fixChosen, hf, hc]
  | dump => rfl
  | sample i => simp only [step] at *; split <;> rfl
  | setFixed b => simp only [step, setFixed] at *; split at h <;> simp_all

/-- C04: exactly which calls raise: assigning or fixing a value outside the
candidates, fixing twice, touching the flag of a fixed mutable. -/
theorem C04_illegal_raises (m : MV α) (c : α) :
    ((step m (.assign c)).2 = .err .value ↔ c ∉ m.choices) ∧
    ((step m (.fix c)).2 = .none ↔ m.fixed = false ∧ c ∈ m.choices) ∧
    (m.fixed = true → (step m (.fix c)).2 = .err .runtime) ∧
    (∀ b, m.fixed = true → (step m (.setFixed b)).2 = .err .attribute) := by
  refine ⟨?_, ?_, ?_, ?_⟩
  · simp only [step, assign]; split <;> simp_all
  · simp only [step]
    by_cases hf : m.fixed = true
    · simp [fixChosen, hf]
    · by_cases hc : c ∈ m.choices
      · rw [fixChosen_ok m c (by simpa using hf) hc]; simp_all
      · simp [fixChosen, hf, hc]
  · intro hf; simp [step, fixChosen, hf]
  · intro b hf; simp [step, setFixed, hf]

/-- A successful fix stores the value and sets the flag. -/
theorem C04_fix_effect (m : MV α) (c : α) (h : (step m (.fix c)).2 = .none) :
    (step m (.fix c)).1 = { m with current := c, fixed := true } := by
  have := ((C04_illegal_raises m c).2.1).1 h
  simp only [step]
  rw [fixChosen_ok m c this.1 this.2]

/-- C04: once fixed, the mutable stays fixed through any history, and its value
stays the same through any history that contains no direct assignment to
`current_choice`. Missing for the full property: the setter itself does not
check the flag, see `C04_fixed_value_changes_violated`. -/
theorem C04_fixed_stays_partial (m : MV α) (hf : m.fixed = true) (ops : List (Op α)) :
    (run m ops).fixed = true ∧
    ((∀ o ∈ ops, ∀ c, o ≠ .assign c) → (run m ops).current = m.current) := by
  unfold run
  induction ops generalizing m with
  | nil => exact ⟨hf, fun _ => rfl⟩
  | cons o os ih =>
    have hstep : (step m o).1.fixed = true ∧ ((∀ c, o ≠ .assign c) → (step m o).1 = m) := by
      cases o with
      | assign c =>
        refine ⟨?_, fun h => absurd rfl (h c)⟩
        simp only [step, assign]; split <;> exact hf
      | fix c => simp [step, fixChosen, hf]
      | dump => exact ⟨hf, fun _ => rfl⟩
      | sample i => simp only [step]; split <;> exact ⟨hf, fun _ => rfl⟩
      | setFixed b => simp [step, setFixed, hf]
    obtain ⟨h1, h2⟩ := ih (step m o).1 hstep.1
    refine ⟨h1, fun hno => ?_⟩
    rw [List.foldl_cons, h2 (fun o' ho' => hno o' (by simp [ho'])),
      hstep.2 (hno o (by simp))]

/-- C04 violated: after a successful fix to 3, assigning 5 succeeds and changes
the value. -/
theorem C04_fixed_value_changes_violated :
    let m : MV Int := ⟨[3, 5, 7], 3, false⟩
    (run m [.fix 3]).fixed = true ∧ (run m [.fix 3]).current = 3 ∧
    (step (run m [.fix 3]) (.assign 5)).2 = .none ∧ (run m [.fix 3, .assign 5]).current = 5 := by
  decide

example : init [3, 5, 7] (some (5 : Int)) = .ok ⟨[3, 5, 7], 5, false⟩ ∧
    (run ⟨[3, 5, 7], 5, false⟩ [.assign 9, .fix 7, .fix (3 : Int), .dump]) = ⟨[3, 5, 7], 7, true⟩ := by
  decide

/-- C04 (one-shot): for any non-empty candidate list the one-shot mutable starts at
the maximum, and its `max_choice`/`min_choice` are upper/lower bounds among the
candidates, after any history. -/
theorem C04_oneshot_bounds (values : List Int) (hne : values ≠ []) (ops : List (Op Int)) :
    ∃ m lo hi, initOneShot values none = .ok m ∧ m.current = hi ∧
      maxChoice (run m ops) = some hi ∧ minChoice (run m ops) = some lo ∧
      hi ∈ values ∧ lo ∈ values ∧ ∀ v ∈ values, lo ≤ v ∧ v ≤ hi := by
  set vs := sortBy (fun a b : Int => decide (a ≤ b)) values with hvs
  have hp : vs.Perm values := sortBy_perm values
  have hs : vs.Pairwise (fun a b => decide (a ≤ b) = true) :=
    sortBy_sorted (fun a b c h1 h2 => by simp at *; omega) (fun a b => by simp; omega) values
  have hvne : vs ≠ [] := by
    intro h; rw [h] at hp; exact hne hp.symm.eq_nil
  obtain ⟨lo, rest, hlr⟩ := List.exists_cons_of_ne_nil hvne
  have hlast : vs.getLast? = some (vs.getLast hvne) := List.getLast?_eq_some_getLast hvne
  refine ⟨⟨vs, vs.getLast hvne, false⟩, lo, vs.getLast hvne, ?_, rfl, ?_, ?_, ?_, ?_, ?_⟩
  · simp only [initOneShot, ← hvs, hlast, init]
    rw [if_pos (List.getLast_mem hvne)]
  · simp only [maxChoice, run_choices, hlast]
  · simp only [minChoice, run_choices, hlr, List.head?_cons]
  · exact hp.mem_iff.1 (List.getLast_mem hvne)
  · exact hp.mem_iff.1 (by rw [hlr]; simp)
  · intro v hv
    have hv' : v ∈ vs := hp.mem_iff.2 hv
    constructor
    · rw [hlr] at hv' hs
      rcases List.mem_cons.1 hv' with rfl | hv'
      · exact le_refl _
      · simpa using (List.pairwise_cons.1 hs).1 v hv'
    · have hsplit := List.dropLast_append_getLast hvne
      rw [← hsplit] at hv' hs
      rcases List.mem_append.1 hv' with hv' | hv'
      · simpa using (List.pairwise_append.1 hs).2.2 v hv' _ (by simp)
      · simp at hv'; omega

example : (initOneShot [6, 3, 4] none) = .ok ⟨[3, 4, 6], 6, false⟩ := by decide

/-- Construction is refused exactly without candidates (and without a default) or with a
default that is not a candidate. -/
theorem C04_init_refused (values : List α) (default : Option α) (e : Err) :
    init values default = .error e ↔
      (default = none ∧ values = [] ∧ e = .index) ∨ (∃ v, default = some v ∧ v ∉ values ∧ e = .value) := by
  unfold init
  cases default with
  | none => cases values <;> simp [@eq_comm _ e]
  | some v =>
    by_cases h : v ∈ values
    · simp [h]
    · simp [h, @eq_comm _ e]

example : init [1, 2] (some 3) = .error .value := (C04_init_refused _ _ _).2 (Or.inr ⟨3, rfl, by decide, rfl⟩)

end Verif.MutableValue
