import Verif.Lemmas.Dsnas

/-! C47: the schedule of DSNAS. -/
namespace Verif.Dsnas

/-- C47, construction: the pretrain stage must end before the finetune stage. -/
theorem C47_stages (p f : Int) :
    (p < f → mk? p f = .ok ⟨p, f⟩) ∧ (f ≤ p → mk? p f = .error .value) := by
  unfold mk?
  constructor
  · intro h; rw [if_neg (by omega)]
  · intro h; rw [if_pos (by omega)]

/-- C47, architecture updates: in any run of a distributed job, starting in any
epoch (from the beginning or resumed), each epoch `e` of the run has one
architecture update per iteration if `pretrain ≤ e < finetune` and none
otherwise. -/
theorem C47_updates (c : Cfg) (n k : Nat) (start : Int) (s' : St)
    (h : train c true (n + 1) k start fresh = .ok s') (e : Int)
    (he : start ≤ e) (he' : e < start + k) :
    s'.log.count (.arch, e) = if c.pretrain ≤ e ∧ e < c.finetune then n + 1 else 0 := by
  by_cases hc : start ≤ c.finetune ∧ c.finetune < start + k
  · obtain ⟨k₁, k₂, hk, hf, ht⟩ := train_fix c n k start hc.1 hc.2
    rw [ht] at h
    obtain rfl := Except.ok.inj h
    simp only [List.count_append, List.count_cons, count_plain]
    have : ((Act.fix, c.finetune) == (Act.arch, e)) = false := by simp
    simp only [this]
    split_ifs <;> first | omega | skip
    all_goals simp_all
  · rw [train_plain c true (n + 1) k start fresh (by omega)] at h
    obtain rfl := Except.ok.inj h
    simp only [fresh, List.nil_append, count_plain]
    split_ifs <;> first | omega | skip

/-- C47, fixing: in a distributed run that starts at or before the finetune
stage and reaches it, the architecture is fixed exactly once, at the start of
the finetune stage: everything before happens in earlier epochs, everything
after in the epochs of the finetune stage, and the run never stops. Missing: a single process and resumed runs, see
`C47_single_process_violated` and `C47_resume_violated`. -/
theorem C47_fixed_once_partial (c : Cfg) (n k : Nat) (start : Int)
    (h1 : start ≤ c.finetune) (h2 : c.finetune < start + k) :
    ∃ pre post : List (Act × Int),
      train c true (n + 1) k start fresh =
        .ok ⟨false, pre ++ (.fix, c.finetune) :: post⟩ ∧
      (∀ x ∈ pre, x.1 ≠ .fix ∧ start ≤ x.2 ∧ x.2 < c.finetune) ∧
      (∀ x ∈ post, x.1 = .net ∧ c.finetune ≤ x.2 ∧ x.2 < start + k) := by
  obtain ⟨k₁, k₂, hk, hf, ht⟩ := train_fix c n k start h1 h2
  refine ⟨_, _, ht, ?_, ?_⟩
  · intro x hx
    obtain ⟨a, b, d⟩ := mem_plain _ _ _ _ _ hx
    exact ⟨d, a, by omega⟩
  · intro x hx
    obtain ⟨a, b, d⟩ := mem_plain _ _ _ _ _ hx
    refine ⟨?_, a, by subst hk; push_cast at *; omega⟩
    obtain ⟨act, e⟩ := x
    cases act with
    | fix => exact absurd rfl d
    | net => rfl
    | arch =>
        exfalso
        have hc : 0 < (plain c (n + 1) (1 + k₂) c.finetune).count (.arch, e) :=
          List.count_pos_iff.mpr hx
        rw [count_plain] at hc
        simp only at a
        split_ifs at hc <;> omega

/-- C47 fails when training is resumed inside the finetune stage: the resumed
object is a supernet again and is never fixed, however long it trains. -/
theorem C47_resume_violated (c : Cfg) (d : Bool) (n k : Nat) (start : Int)
    (h : c.finetune < start) :
    ∃ s', train c d n k start fresh = .ok s' ∧ s'.isSupernet = true ∧
      ∀ e, (Act.fix, e) ∉ s'.log := by
  refine ⟨_, train_plain c d n k start fresh (.inr (.inl h)), rfl, ?_⟩
  intro e he
  simp only [fresh, List.nil_append] at he
  exact (mem_plain _ _ _ _ _ he).2.2 rfl

/-- Such a resumption exists: the checkpoint of epoch 80 of a 100-epoch run
with the default stages. -/
theorem C47_resume_violated_witness :
    (train ⟨15, 80⟩ true 1 100 0 fresh).map (·.isSupernet) = .ok false ∧
    (train ⟨15, 80⟩ true 1 19 81 fresh).map (·.isSupernet) = .ok true := by
  decide +kernel

/-- C47 fails outside a distributed job: the first iteration of the finetune
stage raises, so no run reaches it. -/
theorem C47_single_process_violated (c : Cfg) (n k : Nat) (start : Int)
    (h1 : start ≤ c.finetune) (h2 : c.finetune < start + k) :
    train c false (n + 1) k start fresh = .error .runtime := by
  obtain ⟨k₁, hk⟩ : ∃ k₁ : Nat, c.finetune = start + k₁ := ⟨(c.finetune - start).toNat, by omega⟩
  obtain ⟨k₂, hk2⟩ : ∃ k₂ : Nat, k = k₁ + (k₂ + 1) := ⟨k - k₁ - 1, by omega⟩
  subst hk2
  rw [train_append, train_plain c false (n + 1) k₁ start fresh (.inr (.inr (by omega)))]
  simp only [bind, Except.bind, fresh]
  rw [← hk]
  simp [train, epochRun, trainStep, startFinetune, bind, Except.bind]

/-- A run that ends before the finetune stage leaves the supernet. -/
theorem C47_short (c : Cfg) (d : Bool) (n k : Nat) (start : Int) (h : start + k ≤ c.finetune) :
    ∃ s', train c d n k start fresh = .ok s' ∧ s'.isSupernet = true := 
  ⟨_, train_plain c d n k start fresh (.inr (.inr h)), rfl⟩

/-- Two iterations per epoch, stages at 1 and 2, three epochs. -/
example : train ⟨1, 2⟩ true 2 3 0 fresh = .ok ⟨false,
    [(.net, 0), (.net, 0), (.net, 1), (.arch, 1), (.net, 1), (.arch, 1),
      (.fix, 2), (.net, 2), (.net, 2)]⟩ := by decide

end Verif.Dsnas
