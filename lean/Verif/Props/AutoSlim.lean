import Verif.Lemmas.AutoSlim

/-! C18: the greedy AutoSlim search. -/

namespace Verif.AutoSlim
open Verif

/-! ### C18 -/

/-- C18, the targets are processed from the largest to the smallest, each once. -/
theorem C18_order (targets : List ℚ) :
    (descending targets).Perm targets ∧ (descending targets).Pairwise (fun a b => a ≥ b) := by
  refine ⟨sortBy_perm _, ?_⟩
  have := sortBy_sorted (le := fun a b : ℚ => decide (a ≥ b))
    (by intro a b c; simpa using fun h1 h2 => le_trans h2 h1)
    (by intro a b; simpa using le_total b a) targets
  simpa [descending] using this

/-- C18, one step: the next subnet has one bin less in exactly one unit that had at
least two, and no such subnet scores higher; there is no next subnet exactly when
every unit is down to one bin. -/
theorem C18_step (score : List Nat → ℚ) (cur : List Nat) (hpos : ∀ x ∈ cur, 1 ≤ x) :
    (∀ b, pick score cur = some b → GreedyStep score cur b) ∧
    (pick score cur = none ↔ ∀ x ∈ cur, x = 1) :=
  ⟨fun b h => pick_some score cur b hpos h, pick_none score cur⟩

example : pick (fun s => (s.getD 1 0 : ℚ)) [1, 3, 2] = some [1, 3, 1] := by decide +kernel

/-- C18, whole search from the start, for every network, score and list of targets:
it either records one subnet per target, each reached from the previous one by
greedy steps taken only while the FLOPs exceed the target, or raises because even
the smallest subnet exceeds a target. It always ends. -/
theorem C18_search (flopsOf score : List Nat → ℚ) (bins : List Nat) (targets : List ℚ)
    (hpos : ∀ x ∈ bins, 1 ≤ x) :
    (∃ st ck, run flopsOf score bins targets none = .ok (st, ck) ∧
      Records flopsOf score (descending targets) bins st.searched) ∨
    (run flopsOf score bins targets none = .error (.raised .runtime) ∧
      ∃ t ∈ targets, t < flopsOf (bins.map (fun _ => 1))) := by
  have hinit : init flopsOf bins = .ok ⟨bins, flopsOf bins, []⟩ := by
    unfold init
    rw [if_pos]
    simp only [List.all_eq_true, decide_eq_true_eq]
    exact fun x hx => hpos x hx
  unfold run
  rw [hinit]
  simp only
  rcases runTargets_ok flopsOf score (descending targets) ⟨bins, flopsOf bins, []⟩ [] hpos rfl with
    ⟨st', ck', recs, h1, h2, h3⟩ | ⟨h1, t, ht, h2⟩
  · refine Or.inl ⟨st', ck', h1, ?_⟩
    rw [h2]
    simpa using h3
  · exact Or.inr ⟨h1, t, mem_sortBy.mp ht, h2⟩

/-- C18, what the user gets from a completed search: for the `i`-th largest target,
a subnet whose FLOPs do not exceed it, at least one channel bin in every unit, and
no unit above its original size. -/
theorem C18_targets_met (flopsOf score : List Nat → ℚ) (bins : List Nat) (targets : List ℚ)
    (hpos : ∀ x ∈ bins, 1 ≤ x) (st : State) (ck : List State)
    (h : run flopsOf score bins targets none = .ok (st, ck)) :
    List.Forall₂ (fun t r => r.2 = flopsOf r.1 ∧ r.2 ≤ t ∧ (∀ x ∈ r.1, 1 ≤ x) ∧
      List.Forall₂ (· ≤ ·) r.1 bins) (descending targets) st.searched := by
  rcases C18_search flopsOf score bins targets hpos with ⟨st', ck', h1, h2⟩ | ⟨h1, _⟩
  · rw [h] at h1
    simp only [Except.ok.injEq, Prod.mk.injEq] at h1
    rw [h1.1]
    exact records_forall _ _ _ _ _ h2 hpos
  · rw [h] at h1; cases h1

example : (run exFlops exScore [3, 2] [4, 2] none).toOption.map (fun r => (r.1.searched, r.2.length))
    = some ([([3, 1], 4), ([1, 1], 2)], 3) := by decide +kernel

/-! Resuming. -/

/-- C18 is violated on resume: the checkpoint written when a target is reached does
not contain the record for it yet, and the resumed run skips that target, so that
fewer subnets than targets are recorded. -/
theorem C18_resume_violated :
    ∃ st ck, run exFlops exScore [3, 2] [4, 2] none = .ok (st, ck) ∧ st.searched.length = 2 ∧
      ∃ c ∈ ck, ∃ st' ck', run exFlops exScore [3, 2] [4, 2] (some c) = .ok (st', ck') ∧
        st'.searched.length = 1 := by
  refine ⟨⟨[1, 1], 2, [([3, 1], 4), ([1, 1], 2)]⟩, [⟨[3, 1], 4, []⟩, ⟨[2, 1], 3, [([3, 1], 4)]⟩,
    ⟨[1, 1], 2, [([3, 1], 4)]⟩], by decide +kernel, rfl, ⟨[3, 1], 4, []⟩, by simp,
    ⟨[1, 1], 2, [([1, 1], 2)]⟩, [⟨[2, 1], 3, []⟩, ⟨[1, 1], 2, []⟩], by decide +kernel, rfl⟩

/-- C18 is violated on resume in a second way: after a resume, a later target that is
already met when it comes up is not recorded either. -/
theorem C18_resume_skips_violated :
    ∃ c st ck st' ck', (c : State).flops = 5 ∧ run exFlops exScore [3, 3] [4, 4] none = .ok (st, ck) ∧ c ∈ ck ∧
      run exFlops exScore [3, 3] [4, 4] (some c) = .ok (st', ck') ∧
      st.searched.length = 2 ∧ st'.searched.length = 1 := by
  refine ⟨⟨[3, 2], 5, []⟩, ⟨[3, 1], 4, [([3, 1], 4), ([3, 1], 4)]⟩, [⟨[3, 2], 5, []⟩, ⟨[3, 1], 4, []⟩],
    ⟨[3, 1], 4, [([3, 1], 4)]⟩, [⟨[3, 1], 4, []⟩], rfl, by decide +kernel, by simp, by decide +kernel, rfl, rfl⟩

/-- C18, resuming where it works: if the checkpoint lies at or below the targets
`done` already recorded and strictly above the next one, and no later step passes two
targets at once, the resumed run does exactly what the uninterrupted run does from
that point, so nothing is lost or recorded twice. Missing: other checkpoints, see `C18_resume_violated` and
`C18_resume_skips_violated`. -/
theorem C18_resume_partial (flopsOf score : List Nat → ℚ) (bins : List Nat) (targets done rest : List ℚ)
    (c : State) (hpos : ∀ x ∈ bins, 1 ≤ x) (hts : descending targets = done ++ rest)
    (hdone : ∀ t ∈ done, c.flops ≤ t) (hrest : NeverSkips flopsOf score rest c) :
    run flopsOf score bins targets (some c) = runTargets flopsOf score false rest c [] := by
  have hinit : init flopsOf bins = .ok ⟨bins, flopsOf bins, []⟩ := by
    unfold init
    rw [if_pos]
    simp only [List.all_eq_true, decide_eq_true_eq]
    exact fun x hx => hpos x hx
  unfold run
  rw [hinit]
  simp only
  rw [show sortBy (fun a b : ℚ => decide (a ≥ b)) targets = done ++ rest from hts]
  have : ∀ l : List ℚ, (∀ t ∈ l, c.flops ≤ t) →
      runTargets flopsOf score true (l ++ rest) c [] = runTargets flopsOf score true rest c [] := by
    intro l
    induction l with
    | nil => intro _; rfl
    | cons t l ih =>
      intro h
      rw [List.cons_append, runTargets, if_pos ⟨rfl, h t (by simp)⟩]
      exact ih (fun t ht => h t (by simp [ht]))
  rw [this done hdone, runTargets_resumed flopsOf score rest c [] hrest]

/-- The hypotheses are met by the checkpoint between the two targets of the toy
search. -/
example : run exFlops exScore [3, 2] [4, 2] (some ⟨[2, 1], 3, [([3, 1], 4)]⟩)
    = runTargets exFlops exScore false [2] ⟨[2, 1], 3, [([3, 1], 4)]⟩ [] :=
  C18_resume_partial exFlops exScore [3, 2] [4, 2] [4] [2] _ (by decide) (by decide +kernel)
    (by decide +kernel) ⟨by decide +kernel, fun _ _ _ _ => trivial⟩

end Verif.AutoSlim
