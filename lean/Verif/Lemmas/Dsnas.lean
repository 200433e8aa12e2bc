import Verif.Spec.Dsnas

/-! Helper lemmas for `Verif/Props/Dsnas.lean`. -/

/-! C47: the schedule of DSNAS. -/
namespace Verif.Dsnas

theorem trainStep_plain (c : Cfg) (d : Bool) (e : Int) (s : St)
    (h : e ≠ c.finetune ∨ s.isSupernet = false) :
    trainStep c d e s = .ok ⟨s.isSupernet, s.log ++ body c e⟩ := by
  have : ¬ (e = c.finetune ∧ s.isSupernet = true) := by
    rintro ⟨h1, h2⟩
    rcases h with h | h
    · exact h h1
    · rw [h] at h2; cases h2
  simp only [trainStep, startFinetune, if_neg this, bind, Except.bind, pure, Except.pure,
    needUpdateMutator, body]
  by_cases h1 : c.pretrain ≤ e ∧ e < c.finetune
  · simp [h1.1, h1.2]
  · rw [if_neg h1]
    simp only [not_and, not_lt] at h1
    by_cases h2 : c.pretrain ≤ e
    · simp [h2, h1 h2]
    · simp [h2]

theorem trainStep_fix (c : Cfg) (log : List (Act × Int)) :
    trainStep c true c.finetune ⟨true, log⟩ =
      .ok ⟨false, log ++ (.fix, c.finetune) :: body c c.finetune⟩ := by
  simp [trainStep, startFinetune, bind, Except.bind, pure, Except.pure, needUpdateMutator, body]

theorem bodies_succ (c : Cfg) (e : Int) (n : Nat) :
    bodies c e (n + 1) = body c e ++ bodies c e n := by
  simp [bodies, List.replicate_succ]

theorem plain_succ (c : Cfg) (n k : Nat) (e : Int) :
    plain c n (k + 1) e = bodies c e n ++ plain c n k (e + 1) := by
  simp only [plain, List.range_succ_eq_map, List.flatMap_cons, List.flatMap_map]
  congr 1
  · simp
  · congr 1; funext i; congr 1; push_cast; ring

theorem epochRun_plain (c : Cfg) (d : Bool) (e : Int) (n : Nat) (s : St)
    (h : e ≠ c.finetune ∨ s.isSupernet = false) :
    epochRun c d e n s = .ok ⟨s.isSupernet, s.log ++ bodies c e n⟩ := by
  induction n generalizing s with
  | zero => simp [epochRun, bodies]
  | succ n ih =>
      simp only [epochRun, trainStep_plain c d e s h, bind, Except.bind]
      rw [ih ⟨s.isSupernet, s.log ++ body c e⟩ h, bodies_succ, List.append_assoc]

theorem train_plain (c : Cfg) (d : Bool) (n k : Nat) (e : Int) (s : St)
    (h : s.isSupernet = false ∨ c.finetune < e ∨ e + k ≤ c.finetune) :
    train c d n k e s = .ok ⟨s.isSupernet, s.log ++ plain c n k e⟩ := by
  induction k generalizing s e with
  | zero => simp [train, plain]
  | succ k ih =>
      have h1 : e ≠ c.finetune ∨ s.isSupernet = false := by
        rcases h with h | h | h
        · exact .inr h
        · exact .inl (by omega)
        · exact .inl (by push_cast at h; omega)
      simp only [train, epochRun_plain c d e n s h1, bind, Except.bind]
      rw [ih (e + 1) ⟨s.isSupernet, s.log ++ bodies c e n⟩, plain_succ, List.append_assoc]
      rcases h with h | h | h
      · exact .inl h
      · exact .inr (.inl (by omega))
      · exact .inr (.inr (by push_cast at h; omega))

theorem train_append (c : Cfg) (d : Bool) (n k k' : Nat) (e : Int) (s : St) :
    train c d n (k + k') e s = (train c d n k e s >>= train c d n k' (e + k)) := by
  induction k generalizing e s with
  | zero => simp [train, bind, Except.bind]
  | succ k ih =>
      rw [show k + 1 + k' = (k + k') + 1 by omega]
      simp only [train, bind, Except.bind]
      cases epochRun c d e n s with
      | error err => rfl
      | ok s1 =>
          simp only
          rw [ih]
          simp only [bind, Except.bind]
          rw [show e + ((k + 1 : Nat) : Int) = e + 1 + k by push_cast; ring]

theorem epochRun_fix (c : Cfg) (n : Nat) (log : List (Act × Int)) :
    epochRun c true c.finetune (n + 1) ⟨true, log⟩ =
      .ok ⟨false, log ++ (.fix, c.finetune) :: bodies c c.finetune (n + 1)⟩ := by
  simp only [epochRun, trainStep_fix, bind, Except.bind]
  rw [epochRun_plain _ _ _ _ _ (.inr rfl), bodies_succ]
  simp

theorem train_fix (c : Cfg) (n k : Nat) (e : Int) (h1 : e ≤ c.finetune) (h2 : c.finetune < e + k) :
    ∃ k₁ k₂ : Nat, k = k₁ + (1 + k₂) ∧ c.finetune = e + k₁ ∧
      train c true (n + 1) k e fresh =
        .ok ⟨false, plain c (n + 1) k₁ e ++ (.fix, c.finetune) ::
          plain c (n + 1) (1 + k₂) c.finetune⟩ := by
  obtain ⟨k₁, hk⟩ : ∃ k₁ : Nat, c.finetune = e + k₁ := ⟨(c.finetune - e).toNat, by omega⟩
  obtain ⟨k₂, hk2⟩ : ∃ k₂ : Nat, k = k₁ + (1 + k₂) := ⟨k - k₁ - 1, by omega⟩
  refine ⟨k₁, k₂, hk2, hk, ?_⟩
  subst hk2
  rw [train_append, train_plain c true (n + 1) k₁ e fresh (.inr (.inr (by omega)))]
  simp only [bind, Except.bind, fresh, List.nil_append]
  rw [← hk, show 1 + k₂ = k₂ + 1 by omega]
  simp only [train, epochRun_fix, bind, Except.bind]
  rw [train_plain _ _ _ _ _ _ (.inl rfl), plain_succ]
  simp

theorem mem_bodies (c : Cfg) (e : Int) (n : Nat) (x : Act × Int) :
    x ∈ bodies c e n → x.2 = e ∧ x.1 ≠ .fix := by
  simp only [bodies, List.mem_flatten, List.mem_replicate]
  rintro ⟨l, ⟨_, rfl⟩, hx⟩
  unfold body at hx
  split at hx
  · simp at hx; rcases hx with rfl | rfl <;> simp
  · simp at hx; subst hx; simp

theorem mem_plain (c : Cfg) (n k : Nat) (e : Int) (x : Act × Int) (h : x ∈ plain c n k e) :
    e ≤ x.2 ∧ x.2 < e + k ∧ x.1 ≠ .fix := by
  simp only [plain, List.mem_flatMap, List.mem_range] at h
  obtain ⟨i, hi, hx⟩ := h
  obtain ⟨h1, h2⟩ := mem_bodies _ _ _ _ hx
  exact ⟨by omega, by omega, h2⟩

theorem count_bodies (c : Cfg) (e e' : Int) (n : Nat) :
    (bodies c e n).count (.arch, e') =
      if e' = e ∧ c.pretrain ≤ e' ∧ e' < c.finetune then n else 0 := by
  induction n with
  | zero => simp [bodies]
  | succ n ih =>
      rw [bodies_succ, List.count_append, ih]
      unfold body
      by_cases he : e' = e
      · subst he
        by_cases hw : c.pretrain ≤ e' ∧ e' < c.finetune
        · simp [hw]; omega
        · simp [hw]
      · have he' : ¬ e = e' := fun h => he h.symm
        split <;> simp [he, he']

theorem count_plain (c : Cfg) (n k : Nat) (e e' : Int) :
    (plain c n k e).count (.arch, e') =
      if (e ≤ e' ∧ e' < e + k) ∧ c.pretrain ≤ e' ∧ e' < c.finetune then n else 0 := by
  induction k generalizing e with
  | zero =>
      have : ¬ (e ≤ e' ∧ e' < e + (0 : Nat)) := by omega
      simp [plain, this]
  | succ k ih =>
      rw [plain_succ, List.count_append, count_bodies, ih]
      split_ifs <;> first | omega | skip

end Verif.Dsnas
