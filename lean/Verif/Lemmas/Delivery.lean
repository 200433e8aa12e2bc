import Verif.Spec.Delivery

/-! Helper lemmas for `Verif/Props/Delivery.lean`. -/

namespace Verif.Delivery
open Verif

variable {V : Type}

theorem run_append (d : Delivery V) (a b : List (Op V)) :
    d.run (a ++ b) = (((d.run a).1.run b).1, (d.run a).2 ++ ((d.run a).1.run b).2) := by
  induction a generalizing d with
  | nil => simp [Delivery.run]
  | cons op a ih => simp [Delivery.run, ih]

theorem run_record (vs : List V) (mx : Nat) (q : List V) (h : q.length + vs.length ≤ mx) :
    ((⟨mx, q, false⟩ : Delivery V).run (vs.map fun v => .call (.ok v))) =
      (⟨mx, q ++ vs, false⟩, vs.map fun v => (false, ⟨.ok v, true⟩)) := by
  induction vs generalizing q with
  | nil => simp [Delivery.run]
  | cons v vs ih =>
    simp at h
    have hl : q.length < mx := by omega
    simp only [List.map_cons, Delivery.run, Delivery.step, Delivery.call, hl, if_true, Bool.false_eq_true, if_false]
    rw [ih (q ++ [v]) (by simp; omega)]
    simp

theorem run_override (os : List (Except Err V)) (mx : Nat) (q : List V) (h : q.length = os.length) :
    ((⟨mx, q, true⟩ : Delivery V).run (os.map .call)) = (⟨mx, [], true⟩, q.map fun v => (true, ⟨.ok v, false⟩)) := by
  induction os generalizing q with
  | nil => simp at h; subst h; simp [Delivery.run]
  | cons o os ih =>
    cases q with
    | nil => simp at h
    | cons v q =>
      simp only [List.map_cons, Delivery.run, Delivery.step, Delivery.call, if_true]
      rw [ih q (by simpa using h)]
      simp

end Verif.Delivery
