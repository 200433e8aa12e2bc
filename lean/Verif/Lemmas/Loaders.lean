import Verif.Spec.Loaders

/-! Helper lemmas for `Verif/Props/Loaders.lean`. -/

namespace Verif.Loaders
open Verif

variable {β : Type}

theorem foldl_min_le (ls : List (List β)) (a : Nat) :
    ls.foldl (fun m k => min m k.length) a ≤ a ∧ ∀ l ∈ ls, ls.foldl (fun m k => min m k.length) a ≤ l.length := by
  induction ls generalizing a with
  | nil => simp
  | cons k ls ih =>
    obtain ⟨h1, h2⟩ := ih (min a k.length)
    refine ⟨le_trans h1 (min_le_left _ _), ?_⟩
    intro l hl
    rcases List.mem_cons.1 hl with rfl | hl
    · exact le_trans h1 (min_le_right _ _)
    · exact h2 l hl

theorem foldl_min_mem (ls : List (List β)) (a : Nat) :
    ls.foldl (fun m k => min m k.length) a = a ∨ ∃ l ∈ ls, ls.foldl (fun m k => min m k.length) a = l.length := by
  induction ls generalizing a with
  | nil => simp
  | cons k ls ih =>
    rcases ih (min a k.length) with h | ⟨l, hl, h⟩
    · rcases min_choice a k.length with e | e
      · left; rw [List.foldl_cons, h, e]
      · right; exact ⟨k, by simp, by rw [List.foldl_cons, h, e]⟩
    · right; exact ⟨l, by simp [hl], h⟩

theorem shortest_spec (ls : List (List β)) (h : ls ≠ []) :
    (∀ l ∈ ls, shortest ls ≤ l.length) ∧ ∃ l ∈ ls, l.length = shortest ls := by
  cases ls with
  | nil => exact absurd rfl h
  | cons l ls =>
    obtain ⟨h1, h2⟩ := foldl_min_le ls l.length
    refine ⟨?_, ?_⟩
    · intro k hk
      rcases List.mem_cons.1 hk with rfl | hk
      · exact h1
      · exact h2 k hk
    · rcases foldl_min_mem ls l.length with h | ⟨k, hk, h⟩
      · exact ⟨l, by simp, h.symm⟩
      · exact ⟨k, by simp [hk], h.symm⟩

theorem nextAll_some (its : List (List β)) (h : ∀ l ∈ its, l ≠ []) :
    (nextAll its).1 = batchAt its 0 ∧ (nextAll its).1.isSome ∧ (nextAll its).2 = its.map List.tail := by
  induction its with
  | nil => exact ⟨rfl, rfl, rfl⟩
  | cons l its ih =>
    cases l with
    | nil => exact absurd rfl (h [] (by simp))
    | cons x xs =>
      obtain ⟨h1, h2, h3⟩ := ih (fun k hk => h k (by simp [hk]))
      refine ⟨?_, ?_, ?_⟩
      · rw [nextAll, h1]
        simp only [batchAt, List.mapM_cons, List.getElem?_cons_zero]
        cases its.mapM (·[0]?) <;> rfl
      · rw [nextAll]
        simpa using h2
      · rw [nextAll, h3]; rfl

theorem nextAll_none (its : List (List β)) (h : [] ∈ its) : (nextAll its).1 = none ∧ [] ∈ (nextAll its).2 := by
  induction its with
  | nil => simp at h
  | cons l its ih =>
    cases l with
    | nil => exact ⟨rfl, by simp [nextAll]⟩
    | cons x xs =>
      have : [] ∈ its := by simpa using h
      obtain ⟨h1, h2⟩ := ih this
      rw [nextAll]
      exact ⟨by rw [h1]; rfl, by simp [h2]⟩

theorem mapM_tail (ls : List (List β)) (i : Nat) : batchAt (ls.map List.tail) i = batchAt ls (i + 1) := by
  unfold batchAt
  induction ls with
  | nil => rfl
  | cons l ls ih =>
    rw [List.map_cons, List.mapM_cons, List.mapM_cons, ih]
    congr 1
    cases l <;> rfl

theorem shortest_tail (ls : List (List β)) (hne : ls ≠ []) : shortest (ls.map List.tail) = shortest ls - 1 := by
  have hne' : ls.map List.tail ≠ [] := by simpa using hne
  obtain ⟨a1, l, hl, a2⟩ := shortest_spec ls hne
  obtain ⟨b1, k, hk, b2⟩ := shortest_spec _ hne'
  obtain ⟨k', hk', rfl⟩ := List.mem_map.1 hk
  have h1 := b1 l.tail (List.mem_map_of_mem hl)
  have h2 := a1 k' hk'
  rw [List.length_tail] at b2 h1
  omega

theorem shortest_pos (ls : List (List β)) (hne : ls ≠ []) : 0 < shortest ls ↔ ∀ l ∈ ls, l ≠ [] := by
  obtain ⟨a1, l, hl, a2⟩ := shortest_spec ls hne
  constructor
  · intro h k hk he
    subst he
    have := a1 [] hk
    simp at this
    omega
  · intro h
    have := List.length_pos_of_ne_nil (h l hl)
    omega

theorem run_exhausted (s : It β) (h : [] ∈ s.its) (n : Nat) : run (n + 1) s = ([], true) := by
  obtain ⟨h1, h2⟩ := nextAll_none s.its h
  have h3 := nextAll_none _ h2
  have : s.next.1 = none := by simp only [It.next, h1]; exact h3.1
  simp only [run, this]

end Verif.Loaders
