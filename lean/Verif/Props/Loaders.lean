import Verif.Lemmas.Loaders

namespace Verif.Loaders
open Verif

variable {β : Type}

/-- An epoch: as many steps as the shortest loader has batches, step `i` with the `i`-th batch of
every loader; and this is the length the combined loader reports. -/
theorem C43_epoch (ls : List (List β)) (hne : ls ≠ []) (fuel : Nat) (hf : shortest ls ≤ fuel) :
    (epoch fuel ls).length = shortest ls ∧ len ls = .ok (shortest ls) ∧
    ∀ i < shortest ls, (epoch fuel ls)[i]? = batchAt ls i ∧ (batchAt ls i).isSome := by
  have hlen : len ls = .ok (shortest ls) := by cases ls with
    | nil => exact absurd rfl hne
    | cons l ls => rfl
  suffices h : (epoch fuel ls).length = shortest ls ∧ ∀ i < shortest ls, (epoch fuel ls)[i]? = batchAt ls i ∧ (batchAt ls i).isSome from
    ⟨h.1, hlen, h.2⟩
  clear hlen
  induction fuel generalizing ls with
  | zero =>
    have : shortest ls = 0 := by omega
    exact ⟨by simp [epoch, this], by intro i hi; omega⟩
  | succ fuel ih =>
    by_cases hs : 0 < shortest ls
    · obtain ⟨n1, n2, n3⟩ := nextAll_some ls ((shortest_pos ls hne).1 hs)
      obtain ⟨d, hd⟩ := Option.isSome_iff_exists.1 n2
      have hne' : ls.map List.tail ≠ [] := by simpa using hne
      have hst := shortest_tail ls hne
      obtain ⟨e1, e2⟩ := ih (ls.map List.tail) hne' (by omega)
      have hep : epoch (fuel + 1) ls = d :: epoch fuel (ls.map List.tail) := by
        rw [epoch, hd, n3]
      rw [hep]
      refine ⟨by rw [List.length_cons, e1, hst]; omega, ?_⟩
      intro i hi
      cases i with
      | zero => exact ⟨by rw [List.getElem?_cons_zero, ← n1, hd], by rw [← n1, hd]; rfl⟩
      | succ i =>
        rw [List.getElem?_cons_succ, ← mapM_tail]
        exact e2 i (by omega)
    · have h0 : shortest ls = 0 := by omega
      have hmem : [] ∈ ls := by
        by_contra hc
        exact hs ((shortest_pos ls hne).2 (fun l hl he => hc (he ▸ hl)))
      rw [epoch, (nextAll_none ls hmem).1]
      exact ⟨by simp [h0], by intro i hi; omega⟩

/-- Iteration based training with at most as many iterations as the shortest loader has batches
uses the `i`-th batches too. Missing: more iterations, see `C43_restart_violated`. -/
theorem C43_iter_partial (n : Nat) : ∀ (ls : List (List β)) (ep : Nat), ls ≠ [] → n ≤ shortest ls →
    (run n ⟨ls, ep⟩).2 = false ∧ (run n ⟨ls, ep⟩).1.length = n ∧ ∀ i < n, (run n ⟨ls, ep⟩).1[i]? = batchAt ls i := by
  induction n with
  | zero => intro ls ep _ _; exact ⟨rfl, rfl, by intro i hi; omega⟩
  | succ n ih =>
    intro ls ep hne hn
    obtain ⟨n1, n2, n3⟩ := nextAll_some ls ((shortest_pos ls hne).1 (by omega))
    obtain ⟨d, hd⟩ := Option.isSome_iff_exists.1 n2
    have hnext : It.next ⟨ls, ep⟩ = (some d, ⟨ls.map List.tail, ep⟩) := by
      simp only [It.next, hd, n3]
    obtain ⟨r1, r2, r3⟩ := ih (ls.map List.tail) ep (by simpa using hne) (by rw [shortest_tail ls hne]; omega)
    simp only [run, hnext]
    refine ⟨r1, by rw [List.length_cons, r2], ?_⟩
    intro i hi
    cases i with
    | zero => rw [List.getElem?_cons_zero, ← n1, hd]
    | succ i =>
      rw [List.getElem?_cons_succ, ← mapM_tail]
      exact r3 i (by omega)

/-- It does not restart: with one iteration more than the shortest loader has batches, training
stops with an error after the shortest loader, whatever the loaders. -/
theorem C43_restart_violated (ls : List (List β)) (hne : ls ≠ []) (ep n : Nat) (hn : shortest ls < n) :
    (run n ⟨ls, ep⟩).2 = true ∧ (run n ⟨ls, ep⟩).1.length = shortest ls := by
  induction n generalizing ls with
  | zero => omega
  | succ n ih =>
    by_cases hs : 0 < shortest ls
    · obtain ⟨n1, n2, n3⟩ := nextAll_some ls ((shortest_pos ls hne).1 hs)
      obtain ⟨d, hd⟩ := Option.isSome_iff_exists.1 n2
      have hnext : It.next ⟨ls, ep⟩ = (some d, ⟨ls.map List.tail, ep⟩) := by
        simp only [It.next, hd, n3]
      obtain ⟨r1, r2⟩ := ih (ls.map List.tail) (by simpa using hne) (by rw [shortest_tail ls hne]; omega)
      simp only [run, hnext]
      refine ⟨r1, ?_⟩
      rw [List.length_cons, r2, shortest_tail ls hne]
      omega
    · have h0 : shortest ls = 0 := by omega
      have hmem : [] ∈ ls := by
        by_contra hc
        exact hs ((shortest_pos ls hne).2 (fun l hl he => hc (he ▸ hl)))
      rw [run_exhausted ⟨ls, ep⟩ hmem n]
      exact ⟨rfl, h0.symm⟩

example : epoch 10 [[1, 2, 3], [10, 20]] = [[1, 10], [2, 20]] := by decide
example : run 3 (It.init [[1, 2, 3], [10, 20]]) = ([[1, 10], [2, 20]], true) := by decide

/-- Without any loader the combined loader has no length, and an epoch does not end. -/
theorem C43_none_violated (fuel : Nat) : len ([] : List (List β)) = .error .value ∧ (epoch fuel ([] : List (List β))).length = fuel := by
  refine ⟨rfl, ?_⟩
  induction fuel with
  | zero => rfl
  | succ n ih => simp [epoch, nextAll, ih]

/-- C43: the epoch counter goes up exactly when one of the loaders has no batch left. -/
theorem C43_epoch_counter (s : It β) :
    s.next.2.ep = if ∃ l ∈ s.its, l = [] then s.ep + 1 else s.ep := by
  by_cases h : ∃ l ∈ s.its, l = []
  · rw [if_pos h]
    have hn : (nextAll s.its).1 = none := by
      obtain ⟨its, ep⟩ := s
      dsimp only at h ⊢
      clear ep
      induction its with
      | nil => obtain ⟨l, hl, _⟩ := h; simp at hl
      | cons l its ih =>
        cases l with
        | nil => rfl
        | cons x xs =>
          have : ∃ l ∈ its, l = [] := by
            obtain ⟨l, hl, rfl⟩ := h
            exact ⟨[], by simpa using hl, rfl⟩
          simp [nextAll, ih this]
    unfold It.next
    rw [hn]
  · rw [if_neg h]
    obtain ⟨_, n2, _⟩ := nextAll_some s.its (fun l hl e => h ⟨l, hl, e⟩)
    obtain ⟨d, hd⟩ := Option.isSome_iff_exists.1 n2
    unfold It.next
    rw [hd]

example : (It.next ⟨[[1], [2, 3]], 0⟩).2.ep = 0 ∧ ((It.next ⟨[[1], [2, 3]], 0⟩).2.next).2.ep = 1 := by decide

/-- C43: as long as no loader has run out, the epoch counter of a new loop shows zero. -/
theorem C43_first_epoch (ls : List (List β)) (hne : ls ≠ []) (n : Nat) (hn : n ≤ shortest ls) :
    ((fun s : It β => s.next.2)^[n] (It.init ls)).ep = 0 := by
  have key : ∀ (n : Nat) (ls : List (List β)) (ep : Nat), ls ≠ [] → n ≤ shortest ls →
      ((fun s : It β => s.next.2)^[n] ⟨ls, ep⟩).ep = ep := by
    intro n
    induction n with
    | zero => intro ls ep _ _; rfl
    | succ n ih =>
      intro ls ep hne hn
      obtain ⟨_, n2, n3⟩ := nextAll_some ls ((shortest_pos ls hne).1 (by omega))
      obtain ⟨d, hd⟩ := Option.isSome_iff_exists.1 n2
      have : (It.next ⟨ls, ep⟩).2 = ⟨ls.map List.tail, ep⟩ := by
        unfold It.next
        dsimp only
        rw [hd, n3]
      rw [Function.iterate_succ_apply, this]
      exact ih _ ep (by simpa using hne) (by rw [shortest_tail ls hne]; omega)
  exact key n ls 0 hne hn

example : ((fun s : It Nat => s.next.2)^[2] (It.init [[1, 2], [3, 4, 5]])).ep = 0 := by decide

end Verif.Loaders
