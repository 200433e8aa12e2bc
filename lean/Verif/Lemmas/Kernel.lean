import Verif.Spec.Kernel

/-! Helper lemmas for `Verif/Props/Kernel.lean`. -/

namespace Verif.Kernel
open Verif DynamicOps

variable {R : Type}

theorem at'_eq [Zero R] (w : List (List R)) (u v : Nat) : at' w u v = ((w[u]?.getD [])[v]?).getD 0 := by
  simp [at', List.getD_eq_getElem?_getD]

theorem at'_crop [Zero R] (w : List (List R)) (a b u v : Nat) (hu : a + u < b) (hv : a + v < b) :
    at' (crop a b w) u v = at' w (a + u) (a + v) := by
  rw [at'_eq, at'_eq]
  simp only [crop, List.getElem?_map, List.getElem?_drop, List.getElem?_take, hu, if_true]
  cases h : w[a + u]? with
  | none => simp
  | some r => simp [List.getElem?_drop, List.getElem?_take, hv]

theorem at'_centre [Zero R] (w : List (List R)) (s t u v : Nat) :
    at' (centreOnly s t w) u v =
      if (s - t) / 2 ≤ u ∧ u < (s - t) / 2 + t ∧ (s - t) / 2 ≤ v ∧ v < (s - t) / 2 + t then at' w u v else 0 := by
  rw [at'_eq, at'_eq]
  simp only [centreOnly, List.getElem?_mapIdx]
  cases h : w[u]? with
  | none => simp
  | some r =>
    simp only [Option.map_some, Option.getD_some, List.getElem?_mapIdx]
    cases h' : r[v]? with
    | none => simp
    | some e => simp

theorem crop_square {s a b : Nat} {w : List (List R)} (h : Square s w) (hb : b ≤ s) : Square (b - a) (crop a b w) := by
  obtain ⟨h1, h2⟩ := h
  refine ⟨by simp [crop, h1, hb], ?_⟩
  intro r hr
  simp only [crop, List.mem_map] at hr
  obtain ⟨r0, hr0, rfl⟩ := hr
  have := h2 r0 (List.mem_of_mem_take (List.mem_of_mem_drop hr0))
  simp [this, hb]

theorem crop_crop (w : List (List R)) (a1 b1 a2 b2 : Nat) (h : a1 + b2 ≤ b1) :
    crop a2 b2 (crop a1 b1 w) = crop (a1 + a2) (a1 + b2) w := by
  have aux : ∀ {β : Type} (l : List β), ((((l.take b1).drop a1).take b2).drop a2) = (l.take (a1 + b2)).drop (a1 + a2) := by
    intro β l
    apply List.ext_getElem?
    intro i
    simp only [List.getElem?_drop, List.getElem?_take]
    have e : a1 + (a2 + i) = a1 + a2 + i := by omega
    rw [e]
    split_ifs <;> first | rfl | omega
  unfold crop
  rw [← List.map_take, ← List.map_drop, List.map_map, aux]
  apply List.map_congr_left
  intro r _
  exact aux r

theorem crop_id {s : Nat} {w : List (List R)} (h : Square s w) : crop 0 s w = w := by
  obtain ⟨h1, h2⟩ := h
  unfold crop
  rw [List.take_of_length_le (by omega), List.drop_zero]
  conv_rhs => rw [← List.map_id w]
  apply List.map_congr_left
  intro r hr
  simp [List.take_of_length_le (show r.length ≤ s by rw [h2 r hr])]

theorem odd_div (s t : Nat) (hs : s % 2 = 1) (ht : t % 2 = 1) (h : t ≤ s) :
    s / 2 - t / 2 = (s - t) / 2 ∧ s / 2 + t / 2 + 1 = (s - t) / 2 + t := by omega

theorem sum_window {M : Type} [AddCommMonoid M] (f : Nat → M) (s a t : Nat) (h : a + t ≤ s) (hz : ∀ u, u < s → ¬ (a ≤ u ∧ u < a + t) → f u = 0) :
    ∑ u ∈ Finset.range s, f u = ∑ u ∈ Finset.range t, f (a + u) := by
  have h1 : ∑ u ∈ Finset.Ico a (a + t), f u = ∑ u ∈ Finset.range s, f u := by
    apply Finset.sum_subset
    · intro u hu
      simp only [Finset.mem_Ico, Finset.mem_range] at hu ⊢
      omega
    · intro u hu hu'
      simp only [Finset.mem_Ico, Finset.mem_range] at hu hu'
      exact hz u hu hu'
  rw [← h1, Finset.sum_Ico_eq_sum_range, Nat.add_sub_cancel_left]

theorem ceil_div (h stride : Nat) (hs : 0 < stride) :
    Int.fdiv ((h : Int) - 1) stride + 1 = ((h + stride - 1) / stride : Nat) := by
  rw [Int.fdiv_eq_ediv_of_nonneg _ (by omega)]
  have h1 : ((h + stride - 1 : Nat) : Int) = ((h : Int) - 1) + stride := by omega
  rw [Int.natCast_ediv, h1, Int.add_ediv_of_dvd_right (dvd_refl _), Int.ediv_self (by omega)]

theorem delta_sum [Semiring R] (i : Nat) (v : List R) (k : Nat) :
    (List.zipWith (· * ·) ((List.range' k v.length).map fun j => if i = j then (1 : R) else 0) v).sum =
      if k ≤ i then v.getD (i - k) 0 else 0 := by
  induction v generalizing k with
  | nil => simp
  | cons a v ih =>
    simp only [List.length_cons, List.range'_succ, List.map_cons, List.zipWith_cons_cons, List.sum_cons, ih (k + 1)]
    by_cases h1 : i = k
    · subst h1; simp
    · by_cases h2 : k ≤ i
      · have e : i - k = (i - (k + 1)) + 1 := by omega
        rw [if_neg h1, if_pos (by omega), if_pos h2, e]; simp
      · rw [if_neg h1, if_neg (by omega), if_neg h2]; simp

theorem applyMatrix_eye [Semiring R] (v : List R) : applyMatrix (eye v.length) v = v := by
  unfold applyMatrix eye
  apply List.ext_getElem
  · simp
  · intro i h1 h2
    simp only [List.getElem_map, List.getElem_range]
    have := delta_sum i v 0
    rw [List.range_eq_range']
    rw [this]
    simp [h2]

theorem square_flatten {t : Nat} {w : List (List R)} (h : Square t w) :
    w.flatten.length = t * t ∧ chunks t t w.flatten = w := by
  refine ⟨by rw [List.length_flatten, sum_const _ t _ h.2, h.1], ?_⟩
  have := chunks_flatten t w h.2
  rwa [h.1] at this

theorem shrink_eye [Semiring R] (t : Nat) (ht : t % 2 = 1) (rest : List Nat) (src : Nat) (w : List (List R))
    (hw : Square src w) (hd : (src :: rest).Pairwise (· > ·)) (ho : ∀ k ∈ src :: rest, k % 2 = 1) (hm : t ∈ src :: rest) :
    shrink (fun _ tar => eye (tar * tar)) t (src :: rest) w = .ok (crop (src / 2 - t / 2) (src / 2 + t / 2 + 1) w) := by
  induction rest generalizing src w with
  | nil =>
    simp at hm; subst hm
    simp only [shrink]
    have e : t / 2 + t / 2 + 1 = t := by omega
    rw [Nat.sub_self, e, crop_id hw]
  | cons tar rest ih =>
    have hst : src > tar := (List.pairwise_cons.1 hd).1 tar (by simp)
    have hsrc : src % 2 = 1 := ho src (by simp)
    have htar : tar % 2 = 1 := ho tar (by simp)
    rcases List.mem_cons.1 hm with rfl | hm
    · simp only [shrink, le_refl, if_true]
      have e : t / 2 + t / 2 + 1 = t := by omega
      rw [Nat.sub_self, e, crop_id hw]
    · have htt : t ≤ tar := by
        rcases List.mem_cons.1 hm with rfl | hm'
        · exact le_refl _
        · exact le_of_lt ((List.pairwise_cons.1 (List.pairwise_cons.1 hd).2).1 t hm')
      simp only [shrink]
      rw [if_neg (by omega), kernelPos, if_neg (by omega)]
      simp only [bind, Except.bind]
      have hsq : Square tar (crop (src / 2 - tar / 2) (src / 2 + tar / 2 + 1) w) := by
        have := crop_square (a := src / 2 - tar / 2) (b := src / 2 + tar / 2 + 1) hw (by omega)
        have e : src / 2 + tar / 2 + 1 - (src / 2 - tar / 2) = tar := by omega
        rwa [e] at this
      obtain ⟨hfl, hch⟩ := square_flatten hsq
      rw [if_neg (by simp [hfl])]
      rw [← hfl, applyMatrix_eye, hch]
      rw [ih tar _ hsq (List.pairwise_cons.1 hd).2 (fun k hk => ho k (by simp [hk])) hm, crop_crop _ _ _ _ _ (by omega)]
      congr 2 <;> omega

end Verif.Kernel
