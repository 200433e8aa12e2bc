import Verif.Spec.Crd

/-! Helper lemmas for `Verif/Props/Crd.lean`. -/

namespace Verif.Crd
open Verif

theorem mem_positive (c : Cfg) (k i : Nat) : i ∈ positive c k ↔ c.labels[i]? = some k := by
  unfold positive
  rw [List.mem_filter, List.mem_range, beq_iff_eq]
  constructor
  · exact fun h => h.2
  · exact fun h => ⟨(List.getElem?_eq_some_iff.1 h).1, h⟩

theorem positive_nodup (c : Cfg) (k : Nat) : (positive c k).Nodup := List.nodup_range.filter _

theorem mem_negativeAll (c : Cfg) (n k i : Nat) : i ∈ negativeAll c n k ↔ ∃ j < n, j ≠ k ∧ c.labels[i]? = some j := by
  unfold negativeAll
  rw [List.mem_flatMap]
  constructor
  · rintro ⟨j, hj, hi⟩
    by_cases h : j = k
    · simp [h] at hi
    · rw [if_neg h, mem_positive] at hi
      exact ⟨j, List.mem_range.1 hj, h, hi⟩
  · rintro ⟨j, hj, hk, hi⟩
    exact ⟨j, List.mem_range.2 hj, by rw [if_neg hk, mem_positive]; exact hi⟩

theorem negativeAll_nodup (c : Cfg) (n k : Nat) : (negativeAll c n k).Nodup := by
  unfold negativeAll
  rw [List.nodup_flatMap]
  refine ⟨?_, ?_⟩
  · intro j _
    split_ifs
    · exact List.nodup_nil
    · exact positive_nodup c j
  · refine List.Pairwise.imp ?_ List.nodup_range
    intro a b hab
    simp only [Function.onFun]
    intro x hx hy
    split_ifs at hx hy
    · exact absurd hx List.not_mem_nil
    · exact absurd hx List.not_mem_nil
    · exact absurd hy List.not_mem_nil
    rw [mem_positive] at hx hy
    rw [hx] at hy
    exact hab (Option.some.inj hy)

theorem negative_facts (c : Cfg) (r : Rand) (hr : Legal r) (n k : Nat) :
    (∀ i ∈ negative c r n k, i ∈ negativeAll c n k) ∧ (negative c r n k).Nodup := by
  unfold negative
  split_ifs
  · refine ⟨?_, ?_⟩
    · intro i hi
      exact (hr.1 k _).mem_iff.1 (List.mem_of_mem_take hi)
    · exact List.Nodup.sublist (List.take_sublist _ _) ((hr.1 k _).nodup_iff.2 (negativeAll_nodup c n k))
  · exact ⟨fun i hi => hi, negativeAll_nodup c n k⟩

theorem parse_ok {c : Cfg} {r : Rand} {n : Nat} {neg : Nat → List Nat} (h : parse c r = .ok (n, neg)) :
    (c.mode = "exact" ∨ c.mode = "random") ∧ classes c = .ok n ∧ (∀ k ∈ c.labels, k < n) ∧ neg = fun k => negative c r n k := by
  unfold parse at h
  by_cases hm : c.mode = "exact" ∨ c.mode = "random"
  · rw [if_neg (not_not.2 hm)] at h
    cases hc : classes c with
    | error e => rw [hc] at h; cases h
    | ok m =>
      rw [hc] at h
      simp only [bind, Except.bind, pure, Except.pure] at h
      split_ifs at h with h1 h2
      cases h
      refine ⟨hm, rfl, ?_, rfl⟩
      intro k hk
      by_contra hcon
      exact h1 (List.any_eq_true.2 ⟨k, hk, by simpa using hcon⟩)
  · rw [if_pos hm] at h; cases h

end Verif.Crd
