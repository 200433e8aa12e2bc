import Verif.Lemmas.Delivery

namespace Verif.Delivery
open Verif

variable {V : Type}

/-- First in, first out, for every history: what was queued before, then what the
recording calls produced, is what the overriding calls returned, then what is queued
now. -/
theorem C33_fifo (d : Delivery V) (ops : List (Op V)) :
    d.queue ++ returned false (d.run ops).2 = returned true (d.run ops).2 ++ (d.run ops).1.queue := by
  induction ops generalizing d with
  | nil => simp [Delivery.run, returned]
  | cons op ops ih =>
    cases op with
    | setOverride b =>
      have := ih { d with override := b }
      simpa [Delivery.run, Delivery.step] using this
    | call o =>
      obtain ⟨mx, q, ov⟩ := d
      simp only [Delivery.run, Delivery.step, Option.toList, List.singleton_append]
      cases ov with
      | true =>
        cases q with
        | nil =>
          have := ih ⟨mx, [], true⟩
          simpa [Delivery.call, returned] using this
        | cons v q =>
          have := ih ⟨mx, q, true⟩
          simpa [Delivery.call, returned] using this
      | false =>
        by_cases hl : q.length < mx
        · cases o with
          | error e =>
            have := ih ⟨mx, q, false⟩
            simpa [Delivery.call, hl, returned] using this
          | ok v =>
            have := ih ⟨mx, q ++ [v], false⟩
            simpa [Delivery.call, hl, returned] using this
        · have := ih ⟨mx, q, false⟩
          simpa [Delivery.call, hl, returned] using this

/-- So the overriding calls of a history that starts with an empty queue return an
initial part of what the recording calls produced. -/
theorem C33_prefix (n : Nat) (ops : List (Op V)) :
    returned true ((Delivery.new n).run ops).2 <+: returned false ((Delivery.new n).run ops).2 := by
  have := C33_fifo (Delivery.new n) ops
  simp only [Delivery.new, List.nil_append] at this
  exact ⟨_, this.symm⟩

/-- Never more than the limit is held. -/
theorem C33_bound (d : Delivery V) (ops : List (Op V)) (h : d.queue.length ≤ d.max) :
    (d.run ops).1.queue.length ≤ d.max ∧ (d.run ops).1.max = d.max := by
  induction ops generalizing d with
  | nil => exact ⟨h, rfl⟩
  | cons op ops ih =>
    have key : ∀ d', (d.step op).1 = d' → d'.queue.length ≤ d'.max ∧ d'.max = d.max := by
      rintro d' rfl
      cases op with
      | setOverride b => exact ⟨h, rfl⟩
      | call o =>
        simp only [Delivery.step, Delivery.call]
        split
        · split
          · exact ⟨h, rfl⟩
          · rename_i v q hq
            rw [hq] at h
            simp at h
            exact ⟨by simpa using by omega, rfl⟩
        · split
          · split
            · exact ⟨h, rfl⟩
            · simp; omega
          · exact ⟨h, rfl⟩
    obtain ⟨k1, k2⟩ := key _ rfl
    obtain ⟨a, b⟩ := ih _ k1
    simp only [Delivery.run]
    exact ⟨by rw [← k2]; exact a, by rw [b, k2]⟩

/-- What each call does. Overriding: the oldest value, refused when there is none; the
original never runs. Recording: refused (before running the original) at the limit, else
the original's value, which is then queued last; if it raises nothing is queued. -/
theorem C33_call (d : Delivery V) (o : Except Err V) :
    (d.override = true → d.queue = [] → (d.call o).1 = d ∧ (d.call o).2.result = .error .assertion ∧ (d.call o).2.ran = false) ∧
    (d.override = true → ∀ v q, d.queue = v :: q →
      (d.call o).1 = { d with queue := q } ∧ (d.call o).2.result = .ok v ∧ (d.call o).2.ran = false) ∧
    (d.override = false → d.max ≤ d.queue.length →
      (d.call o).1 = d ∧ (d.call o).2.result = .error .assertion ∧ (d.call o).2.ran = false) ∧
    (d.override = false → d.queue.length < d.max → (d.call o).2.result = o ∧ (d.call o).2.ran = true ∧
      (∀ v, o = .ok v → (d.call o).1 = { d with queue := d.queue ++ [v] }) ∧ (∀ e, o = .error e → (d.call o).1 = d)) := by
  refine ⟨?_, ?_, ?_, ?_⟩
  · intro h1 h2; simp [Delivery.call, h1, h2]
  · intro h1 v q h2; simp [Delivery.call, h1, h2]
  · intro h1 h2; simp [Delivery.call, h1, show ¬ d.queue.length < d.max by omega]
  · intro h1 h2
    cases o <;> simp [Delivery.call, h1, h2]

/-- Over any number of iterations in each of which the student calls the function as often
as the teacher does, and not more often than the limit: every iteration starts and ends
with an empty queue, and each student call returns what the corresponding teacher call of
the same iteration produced. Missing: other numbers of calls, see `C33_iterations_violated`. -/
theorem C33_iterations_partial (mx : Nat) (its : List (List V × List (Except Err V))) (d : Delivery V)
    (hd : d.max = mx ∧ d.queue = [])
    (h : ∀ it ∈ its, it.1.length = it.2.length ∧ it.1.length ≤ mx) :
    (d.run (its.flatMap fun it => iteration it.1 it.2)).1.queue = [] ∧
    returned true (d.run (its.flatMap fun it => iteration it.1 it.2)).2 = its.flatMap (·.1) := by
  induction its generalizing d with
  | nil => simp [Delivery.run, returned, hd]
  | cons it its ih =>
    obtain ⟨h1, h2⟩ := h it (by simp)
    obtain ⟨t, s⟩ := it
    simp only at h1 h2
    have hit : d.run (iteration t s) = (⟨mx, [], true⟩, (t.map fun v => (false, ⟨.ok v, true⟩)) ++ t.map fun v => (true, ⟨.ok v, false⟩)) := by
      have hdd : ({ d with override := false } : Delivery V) = ⟨mx, [], false⟩ := by
        obtain ⟨a, b, c⟩ := d
        obtain ⟨rfl, rfl⟩ := hd
        rfl
      unfold iteration
      rw [List.cons_append]
      simp only [Delivery.run, Delivery.step]
      rw [hdd, run_append, run_record t mx [] (by simpa using h2)]
      simp only [List.nil_append, Delivery.run, Delivery.step]
      rw [run_override s mx t h1]
      simp
    rw [List.flatMap_cons, run_append, hit]
    obtain ⟨a, b⟩ := ih ⟨mx, [], true⟩ ⟨rfl, rfl⟩ (fun it hit => h it (by simp [hit]))
    refine ⟨a, ?_⟩
    have hret : ∀ x y : List (Bool × Outcome V), returned true (x ++ y) = returned true x ++ returned true y := by
      intro x y; simp [returned]
    have hret' : returned true ((t.map fun v => (false, (⟨.ok v, true⟩ : Outcome V))) ++ t.map fun v => (true, ⟨.ok v, false⟩)) = t := by
      rw [hret]
      have e1 : returned true (t.map fun v => (false, (⟨.ok v, true⟩ : Outcome V))) = [] := by
        simp [returned, List.filterMap_eq_nil_iff]
      have e2 : returned true (t.map fun v => (true, (⟨.ok v, false⟩ : Outcome V))) = t := by
        simp [returned, List.filterMap_map, Function.comp_def]
      rw [e1, e2, List.nil_append]
    simp only []
    rw [hret, hret', b, List.flatMap_cons]

/-- When the student calls less often than the teacher, what is left over is delivered in
the next iteration (limit 2), or makes the teacher fail (limit 1). -/
theorem C33_iterations_violated :
    returned true ((Delivery.new 3).run (iteration [1, 2] [.ok 0] ++ iteration [11, 12] [.ok 0])).2 = [1, 2] ∧
    ((Delivery.new 1).run (iteration [1] [] ++ iteration [11] [])).2.map (fun o => (o.2.ran, o.2.result.toOption)) =
      [(true, some 1), (false, none)] := by
  constructor <;> decide

/-- In a manager each delivery follows its own calls and the common mode, and nothing
else. -/
theorem C33_manager (m : Nat → Delivery V) (ops : List (MOp V)) (i : Nat) :
    managerRun m ops i = ((m i).run (seen i ops)).1 := by
  induction ops generalizing m with
  | nil => simp [managerRun, seen, Delivery.run]
  | cons op ops ih =>
    have hr : managerRun m (op :: ops) = managerRun (managerStep m op) ops := rfl
    rw [hr, ih]
    cases op with
    | setOverride b => simp [seen, managerStep, Delivery.run, Delivery.step]
    | call j o =>
      by_cases h : j = i
      · subst h
        simp [seen, managerStep, Delivery.run, Delivery.step]
      · simp [seen, managerStep, h, show ¬ i = j from fun e => h e.symm]

example : returned true ((Delivery.new 2).run (iteration [1, 2] [.ok 0, .ok 0] ++ iteration [11] [.ok 0])).2 = [1, 2, 11] ∧
    ((Delivery.new 2).run (iteration [1, 2] [.ok 0, .ok 0] ++ iteration [11] [.ok 0])).1.queue = [] := by
  constructor <;> decide

example : (managerRun (fun _ => Delivery.new 2) [.call 0 (.ok 5), .call 1 (.ok 6), .setOverride true, .call 0 (.ok 7)] 0).queue = [] ∧
    (managerRun (fun _ => Delivery.new 2) [.call 0 (.ok 5), .call 1 (.ok 6), .setOverride true, .call 0 (.ok 7)] 1).queue = [6] := by
  constructor <;> decide

/-- A new delivery stores: its first calls, up to the limit, run the original function and give what
it gives. -/
theorem C33_new (n : Nat) (vs : List V) (h : vs.length ≤ n) :
    returned false ((Delivery.new n).run (vs.map fun v => .call (.ok v))).2 = vs ∧
    ((Delivery.new n).run (vs.map fun v => .call (.ok v))).1.queue = vs := by
  have key : ∀ (vs : List V) (d : Delivery V), d.override = false → d.queue.length + vs.length ≤ d.max →
      returned false (d.run (vs.map fun v => .call (.ok v))).2 = vs ∧
      (d.run (vs.map fun v => .call (.ok v))).1.queue = d.queue ++ vs := by
    intro vs
    induction vs with
    | nil => intro d _ _; simp [Delivery.run, returned]
    | cons v vs ih =>
      intro d ho hl
      simp only [List.length_cons] at hl
      have hlt : d.queue.length < d.max := by omega
      obtain ⟨i1, i2⟩ := ih { d with queue := d.queue ++ [v] } ho (by simp; omega)
      have hstep : d.step (.call (.ok v)) = ({ d with queue := d.queue ++ [v] }, some (false, ⟨.ok v, true⟩)) := by
        simp [Delivery.step, Delivery.call, ho, hlt]
      constructor
      · simp only [List.map_cons, Delivery.run, hstep]
        simpa [returned] using i1
      · simp only [List.map_cons, Delivery.run, hstep]
        rw [i2]
        simp
  obtain ⟨h1, h2⟩ := key vs (Delivery.new n) rfl (by simpa [Delivery.new] using h)
  exact ⟨h1, by simpa [Delivery.new] using h2⟩

end Verif.Delivery
