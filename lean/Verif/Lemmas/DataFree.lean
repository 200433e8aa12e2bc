import Verif.Spec.DataFree

/-! Helper lemmas for `Verif/Props/DataFree.lean`. -/

namespace Verif.DataFree
open Verif

variable {Z W G Ow Og : Type} [AddCommGroup W] [AddCommGroup G]

theorem students_eq (t : Task Z W G Ow Og) (zs : List Z) (s : St W G Ow Og) (hz : s.gw = 0) :
    (zs.foldl (fun s z => s.student t z) s).net = s.net.students t zs ∧ (zs.foldl (fun s z => s.student t z) s).gw = 0 ∧
      (zs.foldl (fun s z => s.student t z) s).gg = s.gg := by
  induction zs generalizing s with
  | nil => exact ⟨rfl, hz, rfl⟩
  | cons z zs ih =>
    obtain ⟨a1, a2, a3⟩ := ih (s.student t z) rfl
    refine ⟨?_, a2, a3⟩
    rw [List.foldl_cons, a1]
    have : (s.student t z).net = s.net.student t 0 z := by
      simp [St.student, Net.student, St.net, hz]
    rw [this]
    rfl

theorem students_first (t : Task Z W G Ow Og) (z : Z) (zs : List Z) (s : St W G Ow Og) :
    ((z :: zs).foldl (fun s z => s.student t z) s).net = (s.net.student t s.gw z).students t zs ∧
      ((z :: zs).foldl (fun s z => s.student t z) s).gw = 0 ∧ ((z :: zs).foldl (fun s z => s.student t z) s).gg = s.gg := by
  obtain ⟨a1, a2, a3⟩ := students_eq t zs (s.student t z) rfl
  exact ⟨a1, a2, a3⟩

theorem students_ok (t : Task Z W G Ow Og) (n : Noise Z) (s : St W G Ow Og) (hi : 0 < t.iters) :
    s.students t n = .ok ((n.list t).foldl (fun s z => s.student t z) s) := by
  unfold St.students Noise.list
  rw [if_neg (by omega), List.foldl_map]

theorem list_cons (t : Task Z W G Ow Og) (n : Noise Z) (hi : 0 < t.iters) :
    n.list t = n.student 0 :: (n.list t).tail := by
  unfold Noise.list
  obtain ⟨k, hk⟩ : ∃ k, t.iters = k + 1 := ⟨t.iters - 1, by omega⟩
  rw [hk, List.range_succ_eq_map]
  simp

theorem generator_net (t : Task Z W G Ow Og) (s : St W G Ow Og) (z : Z) (h : s.gg = 0) :
    (s.generator t z).net = s.net.generator t z := by
  simp [St.generator, Net.generator, St.net, h]

theorem run_gg (t : Task Z W G Ow Og) (ns : List (Noise Z)) (s s' : St W G Ow Og) (hs : s.gg = 0) (h : s.run t ns = .ok s') : s'.gg = 0 := by
  induction ns generalizing s with
  | nil => cases h; exact hs
  | cons n ns ih =>
    rw [St.run] at h
    cases h1 : s.step t n with
    | error e => rw [h1] at h; cases h
    | ok s1 =>
      rw [h1] at h
      refine ih s1 ?_ h
      unfold St.step at h1
      by_cases hf : t.studentFirst = true
      · rw [if_pos hf] at h1
        cases h2 : s.students t n with
        | error e => rw [h2] at h1; cases h1
        | ok s2 => rw [h2] at h1; cases h1; rfl
      · rw [if_neg hf] at h1
        by_cases hi : t.iters = 0
        · unfold St.students at h1; rw [if_pos hi] at h1; cases h1
        · rw [students_ok t n _ (by omega)] at h1
          cases h1
          rw [list_cons t n (by omega)]
          rw [(students_first t _ _ _).2.2]
          rfl

end Verif.DataFree
