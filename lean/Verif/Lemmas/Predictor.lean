import Verif.Spec.Predictor

/-! Helper lemmas for `Verif/Props/Predictor.lean`. -/

namespace Verif.Predictor
open Verif

variable {α : Type} [DecidableEq α]

theorem index_ok {l : List α} {c : α} (h : c ∈ l) : index l c = .ok (l.idxOf c) ∧ l.idxOf c < l.length ∧ l[l.idxOf c]? = some c := by
  refine ⟨by rw [index, if_pos h], List.idxOf_lt_length_of_mem h, List.getElem?_idxOf h⟩

theorem choicesOf_fits {all gs : List (Group α)} (hn : (all.map Group.key).Nodup) (g : Group α) (hg : g ∈ all) (e : String × Entry α)
    (h1 : e.1 = g.key) (h3 : ∀ all, (∃ c, e.2 = .dump all c) → all = some g.choices) : choicesOf all e.1 e.2 = .ok g.choices := by
  obtain ⟨k, e⟩ := e
  simp only at h1
  subst h1
  cases e with
  | dump al c =>
    have := h3 al ⟨c, rfl⟩
    subst this
    rfl
  | plain c =>
    have : all.find? (·.key == g.key) = some g := by
      clear h3 c
      induction all with
      | nil => simp at hg
      | cons x xs ih =>
        rw [List.map_cons, List.nodup_cons] at hn
        rcases List.mem_cons.1 hg with rfl | hg
        · simp
        · have hne : x.key ≠ g.key := fun he => hn.1 (he ▸ List.mem_map_of_mem hg)
          rw [List.find?_cons_of_neg (by simpa using hne)]
          exact ih hn.2 hg
    simp only [choicesOf, this]

theorem encodeLoop_fits (all : List (Group α)) (hn : (all.map Group.key).Nodup) (gs : List (Group α)) (m : List (String × Entry α)) (hm : Fits gs m) :
    (∀ g ∈ gs, g ∈ all) → encodeLoop all m = .ok ⟨normalOf gs m, onehotOf gs m⟩ := by
  induction hm with
  | nil => intro _; rfl
  | @cons g e gs m he _ ih =>
    intro hs
    obtain ⟨h1, h2, h3⟩ := he
    obtain ⟨k, e⟩ := e
    have := choicesOf_fits (gs := gs) hn g (hs g (by simp)) (k, e) h1 h3
    rw [encodeLoop, this]
    simp only [bind, Except.bind, (index_ok h2).1, ih (fun x hx => hs x (by simp [hx]))]
    rfl

theorem encode_fits (gs : List (Group α)) (hn : (gs.map Group.key).Nodup) (m : List (String × Entry α)) (hm : Fits gs m) :
    encode gs m = .ok ⟨normalOf gs m, onehotOf gs m⟩ := by
  rw [encode, if_neg (not_not.2 (List.Forall₂.length_eq hm).symm)]
  exact encodeLoop_fits gs hn gs m hm (fun _ h => h)

theorem pickChoice_ok {l : List α} {c : α} (h : c ∈ l) : pickChoice l (l.idxOf c) = .ok c := by
  obtain ⟨_, h2, h3⟩ := index_ok h
  unfold pickChoice
  by_cases h1 : 1 < l.length
  · rw [if_pos h1, h3]
  · have : l.idxOf c = 0 := by omega
    rw [if_neg h1, ← this, h3]

theorem block_length (n i : Nat) : (block n i).length = n := by simp [block]

theorem findIdx_block (n i : Nat) (h : i < n) : (block n i).findIdx? (· == 1) = some i := by
  rw [List.findIdx?_eq_some_iff_getElem]
  refine ⟨by rw [block_length]; exact h, by simp [block], ?_⟩
  intro j hj
  have : i ≠ j := by omega
  simp [block, List.getElem_set_ne this]

theorem decodeLoop_fits (gs : List (Group α)) (m : List (String × Entry α)) (hm : Fits gs m) :
    decodeLoop .normal gs (normalOf gs m) = .ok (chosen m) ∧ decodeLoop .onehot gs (onehotOf gs m) = .ok (chosen m) := by
  induction hm with
  | nil => exact ⟨rfl, rfl⟩
  | @cons g e gs m he _ ih =>
    obtain ⟨h1, h2, _⟩ := he
    obtain ⟨k, e⟩ := e
    simp only at h1 h2
    subst h1
    have hlt := (index_ok h2).2.1
    refine ⟨?_, ?_⟩
    · have : normalOf (g :: gs) ((g.key, e) :: m) = g.choices.idxOf e.chosen :: normalOf gs m := rfl
      rw [this, decodeLoop]
      simp only [pickChoice_ok h2, ih.1, bind, Except.bind]
      rfl
    · have : onehotOf (g :: gs) ((g.key, e) :: m) = block g.choices.length (g.choices.idxOf e.chosen) ++ onehotOf gs m := rfl
      rw [this, decodeLoop]
      rw [List.take_left' (block_length _ _), List.drop_left' (block_length _ _), findIdx_block _ _ hlt]
      simp only [pickChoice_ok h2, ih.2, bind, Except.bind]
      rfl

theorem block_count (n i : Nat) (h : i < n) : (block n i).sum = 1 ∧ (block n i).count 1 = 1 ∧ ∀ x ∈ block n i, x = 0 ∨ x = 1 := by
  unfold block
  induction n generalizing i with
  | zero => omega
  | succ n ih =>
    cases i with
    | zero => 
      rw [List.replicate_succ, List.set_cons_zero]
      refine ⟨by simp, ?_, ?_⟩
      · rw [List.count_cons_self, List.count_replicate]; simp
      · intro x hx
        rcases List.mem_cons.1 hx with rfl | hx
        · exact Or.inr rfl
        · exact Or.inl (List.eq_of_mem_replicate hx)
    | succ i =>
      obtain ⟨h1, h2, h3⟩ := ih i (by omega)
      rw [List.replicate_succ, List.set_cons_succ]
      refine ⟨by rw [List.sum_cons, h1], ?_, ?_⟩
      · rw [List.count_cons_of_ne (by norm_num), h2]
      · intro x hx
        rcases List.mem_cons.1 hx with rfl | hx
        · exact Or.inl rfl
        · exact h3 x hx

end Verif.Predictor
