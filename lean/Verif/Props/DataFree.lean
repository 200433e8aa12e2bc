import Verif.Lemmas.DataFree

/-! C60: data-free distillation. -/

namespace Verif.DataFree
open Verif

variable {Z W G Ow Og : Type} [AddCommGroup W] [AddCommGroup G]

/-! ### Lemmas -/

/-! ### Theorems -/

/-- C60: in every iteration of every run the generator takes one step with the gradient of its own
loss only, taken at the student as it is then. -/
theorem C60_generator (t : Task Z W G Ow Og) (ns : List (Noise Z)) (n : Noise Z) (w : W) (g : G) (ow : Ow) (og : Og)
    (s s' : St W G Ow Og) (h : (fresh w g ow og).run t ns = .ok s) (h' : s.step t n = .ok s') :
    (s'.og, s'.g) = t.optG s.og s.g (t.gen n.gen (if t.studentFirst then s'.w else s.w) s.g).2 := by
  have hg := run_gg t ns _ s rfl h
  by_cases hi : t.iters = 0
  · exfalso
    unfold St.step St.students at h'
    simp only [hi, if_true] at h'
    by_cases hf : t.studentFirst = true
    · rw [if_pos hf] at h'; cases h'
    · rw [if_neg hf] at h'; cases h'
  · unfold St.step at h'
    have hi' : 0 < t.iters := by omega
    by_cases hf : t.studentFirst = true
    · rw [if_pos hf, students_ok t n s hi', list_cons t n hi'] at h'
      cases h'
      rw [if_pos hf]
      obtain ⟨a1, a2, a3⟩ := students_first t (n.student 0) (n.list t).tail s
      set s2 := (n.student 0 :: (n.list t).tail).foldl (fun s z => s.student t z) s
      have hk : ∀ (zs : List Z) (v : Net W G Ow Og), (v.students t zs).g = v.g ∧ (v.students t zs).og = v.og := by
        intro zs
        induction zs with
        | nil => intro v; exact ⟨rfl, rfl⟩
        | cons z zs ih => intro v; exact ⟨(ih (v.student t 0 z)).1, (ih (v.student t 0 z)).2⟩
      have b1 : s2.g = s.g := by
        have := congrArg Net.g a1
        rw [(hk _ _).1] at this
        exact this
      have b2 : s2.og = s.og := by
        have := congrArg Net.og a1
        rw [(hk _ _).2] at this
        exact this
      rw [← b1, ← b2]
      simp [St.generator, a3, hg]
    · rw [if_neg hf, students_ok t n _ hi', list_cons t n hi'] at h'
      cases h'
      rw [if_neg hf]
      obtain ⟨a1, a2, a3⟩ := students_first t (n.student 0) (n.list t).tail (s.generator t n.gen)
      have hk : ∀ (zs : List Z) (v : Net W G Ow Og), (v.students t zs).g = v.g ∧ (v.students t zs).og = v.og := by
        intro zs
        induction zs with
        | nil => intro v; exact ⟨rfl, rfl⟩
        | cons z zs ih => intro v; exact ⟨(ih (v.student t 0 z)).1, (ih (v.student t 0 z)).2⟩
      have b1 := congrArg Net.g a1
      have b2 := congrArg Net.og a1
      rw [(hk _ _).1] at b1
      rw [(hk _ _).2] at b2
      change (_, _) = _
      refine Prod.ext (b2.trans ?_) (b1.trans ?_) <;>
      simp [St.generator, Net.student, St.net, hg]

/-- C60 in full, under the guard that the generator loss does not depend on the student: every run
is the intended one, also when it is continued from any intended state. Missing: generator losses that depend on the student,
see `C60_leak_violated`. -/
theorem C60_run_partial (t : Task Z W G Ow Og) (hi : 0 < t.iters) (hg : ∀ z w g, (t.gen z w g).1 = 0) (ns : List (Noise Z)) (w : W) (g : G)
    (ow : Ow) (og : Og) : ∃ s, (fresh w g ow og).run t ns = .ok s ∧ s.net = ns.foldl (Net.step t) ⟨w, g, ow, og⟩ := by
  have key : ∀ (ns : List (Noise Z)) (s : St W G Ow Og), s.gw = 0 → s.gg = 0 →
      ∃ s', s.run t ns = .ok s' ∧ s'.net = ns.foldl (Net.step t) s.net := by
    intro ns
    induction ns with
    | nil => intro s _ _; exact ⟨s, rfl, rfl⟩
    | cons n ns ih =>
      intro s h1 h2
      obtain ⟨s1, e1, e2, e3, e4⟩ : ∃ s1, s.step t n = .ok s1 ∧ s1.net = s.net.step t n ∧ s1.gw = 0 ∧ s1.gg = 0 := by
        unfold St.step Net.step
        by_cases hf : t.studentFirst = true
        · rw [if_pos hf, if_pos hf, students_ok t n s hi]
          obtain ⟨a1, a2, a3⟩ := students_eq t (n.list t) s h1
          refine ⟨_, rfl, ?_, ?_, rfl⟩
          · rw [generator_net t _ _ (by rw [a3, h2]), a1]
          · simp [St.generator, a2, hg]
        · rw [if_neg hf, if_neg hf, students_ok t n _ hi]
          obtain ⟨a1, a2, a3⟩ := students_eq t (n.list t) (s.generator t n.gen) (by simp [St.generator, h1, hg])
          refine ⟨_, rfl, ?_, a2, by rw [a3]; rfl⟩
          rw [a1, generator_net t s _ h2]
      obtain ⟨s', f1, f2⟩ := ih s1 e3 e4
      refine ⟨s', ?_, ?_⟩
      · rw [St.run, e1]; exact f1
      · rw [f2, List.foldl_cons, e2]
  exact key ns _ rfl rfl

/-- C60 is violated otherwise: the gradient of the generator loss stays in the student, and the
first student step of the iteration uses it in addition to that of the distillation loss. -/
theorem C60_leak_violated (t : Task Z W G Ow Og) (hi : 0 < t.iters) (hf : t.studentFirst = false) (n : Noise Z) (w : W) (g : G)
    (ow : Ow) (og : Og) : ∃ s, (fresh w g ow og).step t n = .ok s ∧
      s.net = (((⟨w, g, ow, og⟩ : Net W G Ow Og).generator t n.gen).student t (t.gen n.gen w g).1 (n.student 0)).students t (n.list t).tail := by
  unfold St.step
  rw [if_neg (by simp [hf]), students_ok t n _ hi, list_cons t n hi]
  refine ⟨_, rfl, ?_⟩
  obtain ⟨a1, -, -⟩ := students_first t (n.student 0) (n.list t).tail ((fresh w g ow og).generator t n.gen)
  rw [a1, generator_net t _ _ rfl]
  simp [St.generator, fresh, St.net]

/-- C60 is violated in the same way when the student is trained first: the first iteration is the
intended one, but in the second the first student step uses the gradient of the generator loss of
the first. -/
theorem C60_leak_first_violated (t : Task Z W G Ow Og) (hi : 0 < t.iters) (hf : t.studentFirst = true) (n n' : Noise Z) (w : W) (g : G)
    (ow : Ow) (og : Og) : ∃ s s', (fresh w g ow og).step t n = .ok s ∧ s.net = (⟨w, g, ow, og⟩ : Net W G Ow Og).step t n ∧
      s.step t n' = .ok s' ∧
      s'.net = ((s.net.student t (t.gen n.gen s.w g).1 (n'.student 0)).students t (n'.list t).tail).generator t n'.gen := by
  obtain ⟨a1, a2, a3⟩ := students_eq t (n.list t) (fresh w g ow og) rfl
  have e1 : (fresh w g ow og).step t n = .ok (((n.list t).foldl (fun s z => s.student t z) (fresh w g ow og)).generator t n.gen) := by
    unfold St.step
    rw [if_pos hf, students_ok t n _ hi]
    rfl
  set s1 := (n.list t).foldl (fun s z => s.student t z) (fresh w g ow og)
  have hg1 : s1.g = g := by
    have hk : ∀ (zs : List Z) (s : St W G Ow Og), (zs.foldl (fun s z => s.student t z) s).g = s.g := by
      intro zs
      induction zs with
      | nil => intro s; rfl
      | cons z zs ih => intro s; exact ih (s.student t z)
    exact hk _ _
  have e2 : (s1.generator t n.gen).step t n' = .ok (((n'.list t).foldl (fun s z => s.student t z) (s1.generator t n.gen)).generator t n'.gen) := by
    unfold St.step
    rw [if_pos hf, students_ok t n' _ hi]
    rfl
  refine ⟨_, _, e1, ?_, e2, ?_⟩
  · rw [generator_net t _ _ (by rw [a3]; rfl), a1]
    unfold Net.step
    rw [if_pos hf]
    rfl
  · rw [list_cons t n' hi]
    obtain ⟨b1, b2, b3⟩ := students_first t (n'.student 0) (n'.list t).tail (s1.generator t n.gen)
    rw [generator_net t _ _ (by rw [b3]; rfl), b1]
    have : (s1.generator t n.gen).gw = (t.gen n.gen (s1.generator t n.gen).w g).1 := by
      simp [St.generator, a2, hg1]
    rw [this]
    rfl

/-- C60 is violated for DAFL with an adversarial generator loss, the negative of the distillation
loss: the two gradients cancel in the student, and with an optimizer that does not move for a zero
gradient the student is never trained, whatever the number of iterations. -/
theorem C60_dafl_violated (t : Task Z W G Ow Og) (hadv : ∀ z w g, (t.gen z w g).1 = -t.dist z w g)
    (hopt : ∀ o w, (t.optW o w 0).2 = w) (zs : List Z) (s : St W G Ow Og) (hs : s.gw = 0) :
    (zs.foldl (St.dafl t) s).w = s.w := by
  induction zs generalizing s with
  | nil => rfl
  | cons z zs ih =>
    rw [List.foldl_cons, ih _ rfl]
    simp [St.dafl, hs, hadv, hopt]

/-- For DAFL under the guard that the generator loss does not depend on the student: each step
trains both networks with the gradients of their own losses, taken before either step. Missing: generator losses that depend on
the student, see `C60_dafl_violated`. -/
theorem C60_dafl_partial (t : Task Z W G Ow Og) (hg : ∀ z w g, (t.gen z w g).1 = 0) (zs : List Z) (w : W) (g : G) (ow : Ow) (og : Og) :
    (zs.foldl (St.dafl t) (fresh w g ow og)).net = zs.foldl (fun v z =>
      (⟨(t.optW v.ow v.w (t.dist z v.w v.g)).2, (t.optG v.og v.g (t.gen z v.w v.g).2).2, (t.optW v.ow v.w (t.dist z v.w v.g)).1,
        (t.optG v.og v.g (t.gen z v.w v.g).2).1⟩ : Net W G Ow Og)) ⟨w, g, ow, og⟩ := by
  have key : ∀ (s : St W G Ow Og), s.gw = 0 → s.gg = 0 → (zs.foldl (St.dafl t) s).net = zs.foldl (fun v z =>
      (⟨(t.optW v.ow v.w (t.dist z v.w v.g)).2, (t.optG v.og v.g (t.gen z v.w v.g).2).2, (t.optW v.ow v.w (t.dist z v.w v.g)).1,
        (t.optG v.og v.g (t.gen z v.w v.g).2).1⟩ : Net W G Ow Og)) s.net := by
    induction zs with
    | nil => intro s _ _; rfl
    | cons z zs ih =>
      intro s h1 h2
      rw [List.foldl_cons, ih _ rfl rfl, List.foldl_cons]
      congr 1
      simp [St.dafl, St.net, h1, h2, hg]
  exact key _ rfl rfl

/-- C60 is violated for `student_iter = 0`: the option is accepted and every iteration fails. -/
theorem C60_iter_zero_violated (t : Task Z W G Ow Og) (hi : t.iters = 0) (s : St W G Ow Og) (n : Noise Z) (ns : List (Noise Z)) :
    s.run t (n :: ns) = .error .name := by
  have : s.step t n = .error .name := by
    unfold St.step St.students
    rw [hi]
    cases t.studentFirst <;> rfl
  rw [St.run, this]
  rfl

/-! ### A concrete case -/

example : ((fresh 5 0 () ()).step (toy 1 false) ⟨2, fun _ => 3⟩) = .ok ⟨5 - ((2 - 5) + (5 - 3)), -1, 0, 0, (), ()⟩ := by
  decide +kernel

example : ([1, 2, 3].foldl (St.dafl (toy 1 false)) (fresh 5 0 () ())).w = 5 :=
  C60_dafl_violated (toy 1 false) (fun z w g => by simp [toy]) (fun o w => by simp [toy]) _ _ rfl

end Verif.DataFree
