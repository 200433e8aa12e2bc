import Verif.Spec.Container

/-! Helper lemmas for `Verif/Props/Container.lean`. -/

namespace Verif.Container
open Verif

variable {α : Type}

/-! ### Helper lemmas -/

theorem keyLe_trans (a b c : Key × Chan α) (h1 : keyLe a.1 b.1 = true) (h2 : keyLe b.1 c.1 = true) :
    keyLe a.1 c.1 = true := by
  simp only [keyLe, Bool.or_eq_true, Bool.and_eq_true, decide_eq_true_eq] at *
  omega

theorem keyLe_total (a b : Key × Chan α) : keyLe a.1 b.1 = true ∨ keyLe b.1 a.1 = true := by
  simp only [keyLe, Bool.or_eq_true, Bool.and_eq_true, decide_eq_true_eq]
  omega

theorem sortItems_perm (d : Dict α) : (sortItems d).Perm d := sortBy_perm _

theorem setItem_ok {d d' : Dict α} {k : Key} {v : Chan α} (h : setItem d k v = .ok d') :
    k.1 < k.2 ∧ contains d k = false ∧ d' = sortItems (d ++ [(k, v)]) := by
  unfold setItem at h
  split at h
  · split at h
    · cases h
    · rename_i h1 h2
      injection h with h
      exact ⟨h1, by simpa using h2, h.symm⟩
  · cases h

theorem mem_setItem {d d' : Dict α} {k : Key} {v : Chan α} (h : setItem d k v = .ok d') (x) :
    x ∈ d' ↔ x ∈ d ∨ x = (k, v) := by
  obtain ⟨_, _, rfl⟩ := setItem_ok h
  rw [(sortItems_perm _).mem_iff]
  simp

theorem setItem_sorted {d d' : Dict α} {k : Key} {v : Chan α} (h : setItem d k v = .ok d') :
    d'.Pairwise (fun a b => keyLe a.1 b.1 = true) := by
  obtain ⟨_, _, rfl⟩ := setItem_ok h
  exact sortBy_sorted keyLe_trans keyLe_total _

theorem setItem_inv {d d' : Dict α} {k : Key} {v : Chan α} (hi : Inv d)
    (h : setItem d k v = .ok d') : Inv d' := by
  refine ⟨fun x hx => ?_, setItem_sorted h⟩
  rcases (mem_setItem h x).1 hx with h1 | rfl
  · exact hi.1 x h1
  · exact (setItem_ok h).1

theorem fillLoop_inv : ∀ (ks : List Key) (d : Dict α) (l : Int) (d' : Dict α) (l' : Int),
    fillLoop ks d l = .ok (d', l') → Inv d → Inv d' ∧ ∀ x ∈ d, x ∈ d'
  | [], d, l, d', l', h, hi => by
    simp [fillLoop] at h
    obtain ⟨rfl, rfl⟩ := h
    exact ⟨hi, fun _ h => h⟩
  | k :: ks, d, l, d', l', h, hi => by
    unfold fillLoop at h
    split at h
    · split at h
      · cases h
      · split at h
        · cases h
        · rename_i hset
          obtain ⟨h1, h2⟩ := fillLoop_inv ks _ _ _ _ h (setItem_inv hi hset)
          exact ⟨h1, fun x hx => h2 x ((mem_setItem hset x).2 (Or.inl hx))⟩
    · exact fillLoop_inv ks _ _ _ _ h hi

theorem fill_inv {n : Int} {d d' : Dict α} (h : fill n d = .ok d') (hi : Inv d) :
    Inv d' ∧ ∀ x ∈ d, x ∈ d' := by
  unfold fill at h
  split at h
  · cases h
  · split at h
    · cases h
    · rename_i hl
      obtain ⟨h1, h2⟩ := fillLoop_inv _ _ _ _ _ hl hi
      split at h
      · split at h
        · cases h
        · refine ⟨setItem_inv h1 h, fun x hx => (mem_setItem h x).2 (Or.inl (h2 x hx))⟩
      · injection h with h
        subst h
        exact ⟨h1, h2⟩

theorem currentMask_inv (env : α → List Bool) (n : Int) (d : Dict α) (hi : Inv d) :
    Inv (currentMask env n d).1 ∧ ∀ x ∈ d, x ∈ (currentMask env n d).1 := by
  unfold currentMask
  split
  · exact ⟨hi, fun _ h => h⟩
  · split
    · exact ⟨hi, fun _ h => h⟩
    · rename_i hf
      split <;> exact fill_inv hf hi

theorem run_inv (n : Int) (ops : List (Op α)) : Inv (run n ops) := by
  suffices H : ∀ (ops : List (Op α)) (d : Dict α), Inv d → Inv (ops.foldl (step n) d) by
    exact H ops [] ⟨by simp, by simp⟩
  intro ops
  induction ops with
  | nil => intro d h; exact h
  | cons o os ih =>
    intro d h
    refine ih _ ?_
    cases o with
    | register a s e =>
      simp only [step]
      split
      · rename_i hs; exact setItem_inv h hs
      · exact h
    | read env => exact (currentMask_inv env n d h).1

/-- `validFrom` forces the ranges to follow each other without gap or overlap. -/
theorem validFrom_unique (n : Int) : ∀ (ks : List Key) (last : Int),
    validFrom n last ks = true → (∀ k ∈ ks, k.1 < k.2) →
    last ≤ n ∧ (∀ k ∈ ks, last ≤ k.1 ∧ k.2 ≤ n) ∧ (∀ i : Int, last ≤ i → i < n →
      ∃ k ∈ ks, k.1 ≤ i ∧ i < k.2 ∧ ∀ k' ∈ ks, k'.1 ≤ i → i < k'.2 → k' = k)
  | [], last, h, _ => by
    simp [validFrom] at h
    subst h
    exact ⟨le_refl _, by simp, fun i h1 h2 => by omega⟩
  | k :: ks, last, h, hp => by
    simp only [validFrom, Bool.and_eq_true, decide_eq_true_eq] at h
    obtain ⟨hk, hv⟩ := h
    obtain ⟨a, b, c⟩ := validFrom_unique n ks k.2 hv (fun x hx => hp x (by simp [hx]))
    have hkk := hp k (by simp)
    refine ⟨by omega, ?_, ?_⟩
    · intro x hx
      rcases List.mem_cons.1 hx with rfl | hx
      · exact ⟨by omega, by omega⟩
      · have := b x hx; exact ⟨by omega, by omega⟩
    · intro i h1 h2
      by_cases hik : i < k.2
      · refine ⟨k, by simp, by omega, hik, ?_⟩
        intro x hx hx1 hx2
        rcases List.mem_cons.1 hx with rfl | hx
        · rfl
        · have := b x hx; omega
      · obtain ⟨x, hx, hx1, hx2, hx3⟩ := c i (by omega) h2
        refine ⟨x, by simp [hx], hx1, hx2, ?_⟩
        intro y hy hy1 hy2
        rcases List.mem_cons.1 hy with rfl | hy
        · omega
        · exact hx3 y hy hy1 hy2

theorem flatMap_position (env : α → List Bool) (n : Int) : ∀ (d : Dict α) (last : Int),
    validFrom n last (d.map (·.1)) = true → (∀ x ∈ d, x.1.1 < x.1.2) →
    (∀ x ∈ d, ((maskOf env x.2).length : Int) = x.1.2 - x.1.1) →
    ((d.flatMap (fun x => maskOf env x.2)).length : Int) = n - last ∧
    ∀ x ∈ d, ∀ j : Nat, (j : Int) < x.1.2 - x.1.1 →
      (d.flatMap (fun x => maskOf env x.2))[(x.1.1 - last).toNat + j]? = (maskOf env x.2)[j]?
  | [], last, h, _, _ => by
    simp [validFrom] at h
    subst h
    simp
  | y :: d, last, h, hp, hl => by
    simp only [List.map_cons, validFrom, Bool.and_eq_true, decide_eq_true_eq] at h
    obtain ⟨hk, hv⟩ := h
    obtain ⟨a, b⟩ := flatMap_position env n d y.1.2 hv (fun x hx => hp x (by simp [hx]))
      (fun x hx => hl x (by simp [hx]))
    have hy := hl y (by simp)
    have hyp := hp y (by simp)
    have hbnd := (validFrom_unique n (d.map (·.1)) y.1.2 hv (by
      intro k hk; obtain ⟨x, hx, rfl⟩ := List.mem_map.1 hk; exact hp x (by simp [hx]))).2.1
    refine ⟨?_, ?_⟩
    · simp only [List.flatMap_cons, List.length_append]
      push_cast
      omega
    · intro x hx j hj
      simp only [List.flatMap_cons]
      rcases List.mem_cons.1 hx with rfl | hx
      · have h0 : (x.1.1 - last).toNat = 0 := by omega
        rw [h0, Nat.zero_add, List.getElem?_append_left (by omega)]
      · have hge := hbnd x.1 (List.mem_map.2 ⟨x, hx, rfl⟩)
        rw [List.getElem?_append_right (by omega), ← b x hx j hj]
        congr 1
        omega

end Verif.Container
