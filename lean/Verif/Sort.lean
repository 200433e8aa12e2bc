/-! Python's `sorted`/`list.sort`: a stable sort, written as insertion sort so
that it computes inside the kernel. `le a b` says that `a` may come before `b`;
Python's `reverse=True` keeps equal elements in their original order too, and is
the same function with `le` flipped. -/

namespace Verif

/-- Insert before the first element that may come after. -/
def insertBy {α : Type _} (le : α → α → Bool) (x : α) : List α → List α
  | [] => [x]
  | y :: ys => if le x y then x :: y :: ys else y :: insertBy le x ys

/-- Stable sort. -/
def sortBy {α : Type _} (le : α → α → Bool) : List α → List α
  | [] => []
  | x :: xs => insertBy le x (sortBy le xs)

variable {α : Type _} {le : α → α → Bool}

theorem insertBy_perm (x : α) : ∀ l : List α, (insertBy le x l).Perm (x :: l)
  | [] => List.Perm.refl _
  | y :: ys => by
    unfold insertBy
    split
    · exact List.Perm.refl _
    · exact ((insertBy_perm x ys).cons y).trans (List.Perm.swap x y ys)

theorem sortBy_perm : ∀ l : List α, (sortBy le l).Perm l
  | [] => List.Perm.refl _
  | x :: xs => (insertBy_perm x _).trans ((sortBy_perm xs).cons x)

theorem mem_sortBy {l : List α} {x : α} : x ∈ sortBy le l ↔ x ∈ l := (sortBy_perm l).mem_iff

theorem length_sortBy (l : List α) : (sortBy le l).length = l.length := (sortBy_perm l).length_eq

theorem insertBy_sorted (trans : ∀ a b c, le a b = true → le b c = true → le a c = true)
    (total : ∀ a b, le a b = true ∨ le b a = true) (x : α) :
    ∀ l : List α, l.Pairwise (fun a b => le a b = true) →
      (insertBy le x l).Pairwise (fun a b => le a b = true)
  | [], _ => by simp [insertBy]
  | y :: ys, h => by
    have hy := List.pairwise_cons.1 h
    unfold insertBy
    split
    · rename_i hxy
      refine List.pairwise_cons.2 ⟨fun z hz => ?_, h⟩
      rcases List.mem_cons.1 hz with rfl | hz
      · exact hxy
      · exact trans _ _ _ hxy (hy.1 z hz)
    · rename_i hxy
      refine List.pairwise_cons.2 ⟨fun z hz => ?_, insertBy_sorted trans total x ys hy.2⟩
      rcases List.mem_cons.1 ((insertBy_perm x ys).mem_iff.1 hz) with rfl | hz
      · exact (total z y).resolve_left hxy
      · exact hy.1 z hz

theorem sortBy_sorted (trans : ∀ a b c, le a b = true → le b c = true → le a c = true)
    (total : ∀ a b, le a b = true ∨ le b a = true) :
    ∀ l : List α, (sortBy le l).Pairwise (fun a b => le a b = true)
  | [] => by simp [sortBy]
  | x :: xs => insertBy_sorted trans total x _ (sortBy_sorted trans total xs)

theorem insertBy_filter (p : α → Bool) (hp : ∀ a b, p a = true → p b = true → le a b = true)
    (x : α) : ∀ l : List α, (insertBy le x l).filter p = (x :: l).filter p
  | [] => rfl
  | y :: ys => by
    unfold insertBy
    split
    · rfl
    · rename_i hxy
      have ih := insertBy_filter p hp x ys
      by_cases hx : p x = true
      · have hy : p y = false := by
          by_cases hy : p y = true
          · exact absurd (hp x y hx hy) hxy
          · simpa using hy
        simp [hy, hx] at ih ⊢
        exact ih
      · simp [List.filter_cons, hx] at ih ⊢
        rw [ih]

/-- Stability: the elements of any class of mutually equal elements keep their
order. -/
theorem sortBy_filter (p : α → Bool) (hp : ∀ a b, p a = true → p b = true → le a b = true) :
    ∀ l : List α, (sortBy le l).filter p = l.filter p
  | [] => rfl
  | x :: xs => by
    unfold sortBy
    rw [insertBy_filter p hp x]
    simp only [List.filter_cons, sortBy_filter p hp xs]

theorem insertBy_of_le (x : α) : ∀ l : List α, (∀ y ∈ l, le x y = true) → insertBy le x l = x :: l
  | [], _ => rfl
  | y :: ys, h => by simp [insertBy, h y (by simp)]

/-- A sorted list is left as it is. -/
theorem sortBy_of_sorted : ∀ l : List α, l.Pairwise (fun a b => le a b = true) → sortBy le l = l
  | [], _ => rfl
  | x :: xs, h => by
    have h' := List.pairwise_cons.1 h
    unfold sortBy
    rw [sortBy_of_sorted xs h'.2, insertBy_of_le x xs h'.1]

end Verif
