import Verif.Spec.GroupFisher

/-! Helper lemmas for `Verif/Props/GroupFisher.lean`. -/

namespace Verif.GroupFisher
open Verif

theorem argmin_spec : ∀ l : List ℚ, l ≠ [] → ∃ x, l[argmin l]? = some x ∧ ∀ y ∈ l, x ≤ y
  | [], h => absurd rfl h
  | [x], _ => ⟨x, rfl, by simp⟩
  | x :: y :: l, _ => by
    obtain ⟨z, hz, hm⟩ := argmin_spec (y :: l) (by simp)
    rw [argmin, hz]
    simp only [Option.getD_some]
    split
    · rename_i hxz
      refine ⟨x, rfl, ?_⟩
      intro w hw
      rcases List.mem_cons.1 hw with rfl | hw
      · exact le_refl _
      · exact le_trans hxz (hm w hw)
    · rename_i hxz
      refine ⟨z, by simpa using hz, ?_⟩
      intro w hw
      rcases List.mem_cons.1 hw with rfl | hw
      · exact le_of_lt (not_le.1 hxz)
      · exact hm w hw

theorem tmax_none : ∀ l : List (Option ℚ), none ∈ l → tmax l = none
  | [], h => by simp at h
  | [x], h => by simp at h; simp [tmax, ← h]
  | x :: y :: l, h => by
    rcases List.mem_cons.1 h with rfl | h
    · simp [tmax]
    · have := tmax_none (y :: l) h
      cases x <;> simp [tmax, this]

theorem tmax_some : ∀ l : List (Option ℚ), l ≠ [] → none ∉ l → ∃ M, tmax l = some M ∧ ∀ q, some q ∈ l → q ≤ M
  | [], h, _ => absurd rfl h
  | [x], _, hn => by
    cases x with
    | none => simp at hn
    | some a => exact ⟨a, rfl, by simp⟩
  | x :: y :: l, _, hn => by
    obtain ⟨M, hM, hq⟩ := tmax_some (y :: l) (by simp) (fun h => hn (List.mem_cons_of_mem _ h))
    cases x with
    | none => simp at hn
    | some a =>
      refine ⟨max a M, by simp [tmax, hM], ?_⟩
      intro q hq'
      rcases List.mem_cons.1 hq' with h | h
      · simp at h; rw [h]; exact le_max_left _ _
      · exact le_trans (hq q h) (le_max_right _ _)

theorem imp_get (u : FUnit) (hf : Fit u) (j : Nat) (hj : j < u.mask.length) :
    u.importance[j]? = some (if u.mask[j] then u.fisher[j]'(by rw [hf]; exact hj) else (tmax u.fisher).map (· + 1)) := by
  unfold FUnit.importance
  rw [List.getElem?_eq_getElem (by simp [hf.symm ▸ hj, hj])]
  simp

theorem imp_length (u : FUnit) (hf : Fit u) : u.importance.length = u.mask.length := by
  unfold FUnit.importance
  rw [List.length_zipWith, hf]
  simp

/-- A NaN is found exactly when there is one in the information. -/
theorem imp_nan (u : FUnit) (hf : Fit u) : u.importance.any (·.isNone) = true ↔ none ∈ u.fisher := by
  constructor
  · intro h
    simp only [List.any_eq_true] at h
    obtain ⟨x, hx, hn⟩ := h
    obtain ⟨j, hj, rfl⟩ := List.getElem_of_mem hx
    have hj' : j < u.mask.length := by rw [← imp_length u hf]; exact hj
    have := imp_get u hf j hj'
    rw [List.getElem?_eq_getElem hj, Option.some.injEq] at this
    rw [this] at hn
    by_contra hno
    split at hn
    · rw [Option.isNone_iff_eq_none] at hn
      exact hno (hn ▸ List.getElem_mem _)
    · obtain ⟨M, hM, _⟩ := tmax_some u.fisher (by
        intro h0; rw [Fit, h0] at hf; simp at hf; omega) hno
      rw [hM] at hn
      simp at hn
  · intro h
    obtain ⟨j, hj, hjn⟩ := List.getElem_of_mem h
    have hj' : j < u.mask.length := hf ▸ hj
    rw [List.any_eq_true]
    refine ⟨none, ?_, rfl⟩
    have := imp_get u hf j hj'
    rw [tmax_none _ h, hjn] at this
    simp at this
    exact List.mem_of_getElem? this

/-- The first minimum of the importance is an active channel, with the smallest
information of the active channels. -/
theorem imp_min (u : FUnit) (hf : Fit u) (hn : none ∉ u.fisher) (ha : 0 < u.active) :
    let j := argmin (numbers u.importance)
    u.mask[j]? = some true ∧ u.fisher[j]? = some (some (tmin (numbers u.importance))) ∧
      ∀ (j' : Nat) (q : ℚ), u.mask[j']? = some true → u.fisher[j']? = some (some q) → tmin (numbers u.importance) ≤ q := by
  intro j
  have ha' : true ∈ u.mask := List.count_pos_iff.1 ha
  obtain ⟨k, hk, hkt⟩ := List.getElem_of_mem ha'
  have hne : numbers u.importance ≠ [] := by
    intro h
    have := congrArg List.length h
    simp [numbers, imp_length u hf] at this
    rw [this] at hk; simp at hk
  obtain ⟨x, hx, hmin⟩ := argmin_spec _ hne
  obtain ⟨M, hM, hMax⟩ := tmax_some u.fisher (by
    intro h0; rw [Fit, h0] at hf; simp at hf; omega) hn
  have htm : tmin (numbers u.importance) = x := by unfold tmin; rw [hx]; rfl
  have hle : ∀ (j' : Nat) (q : ℚ), u.mask[j']? = some true → u.fisher[j']? = some (some q) → x ≤ q := by
    intro j' q h1 h2
    obtain ⟨hl, h1'⟩ := List.getElem?_eq_some_iff.1 h1
    obtain ⟨hl2, h2'⟩ := List.getElem?_eq_some_iff.1 h2
    have := imp_get u hf j' hl
    rw [h1', h2'] at this
    simp at this
    apply hmin
    unfold numbers
    rw [List.mem_map]
    exact ⟨some q, List.mem_of_getElem? this, rfl⟩
  -- the chosen index
  obtain ⟨hjl, hjx⟩ := List.getElem?_eq_some_iff.1 hx
  have hjl' : j < u.mask.length := by
    have : j < (numbers u.importance).length := hjl
    simpa [numbers, imp_length u hf] using this
  have hjf : j < u.fisher.length := by rw [hf]; exact hjl'
  have hget := imp_get u hf j hjl'
  have hxj : (numbers u.importance)[j]? = some x := hx
  unfold numbers at hxj
  rw [List.getElem?_map, hget, Option.map_some, Option.some.injEq] at hxj
  have hmask : u.mask[j] = true := by
    by_contra hm
    rw [if_neg hm, hM] at hxj
    simp at hxj
    have hkf : k < u.fisher.length := by rw [hf]; exact hk
    cases hq : u.fisher[k] with
    | none => exact hn (hq ▸ List.getElem_mem _)
    | some q =>
      have h1 := hle k q (List.getElem?_eq_some_iff.2 ⟨hk, hkt⟩) (List.getElem?_eq_some_iff.2 ⟨hkf, hq⟩)
      have h2 := hMax q (hq ▸ List.getElem_mem _)
      linarith
  rw [if_pos hmask] at hxj
  refine ⟨List.getElem?_eq_some_iff.2 ⟨hjl', hmask⟩, ?_, ?_⟩
  · rw [List.getElem?_eq_some_iff]
    refine ⟨hjf, ?_⟩
    rw [htm]
    cases hq : u.fisher[j] with
    | none => exact absurd (hq ▸ List.getElem_mem _) hn
    | some q => rw [hq] at hxj; simpa using hxj
  · rw [htm]; exact hle

/-- What the loop chooses. -/
theorem choose_spec : ∀ (us : List FUnit) (mi : ℚ) (mu i : Nat), (∀ u ∈ us, Fit u) →
    (choose mi mu i us = none ↔ ¬ Clean us) ∧
    ∀ r, choose mi mu i us = some r →
      ((r = mu ∧ ∀ (k : Nat) (u : FUnit), us[k]? = some u → 1 < u.active → mi ≤ tmin (numbers u.importance)) ∨
       ∃ (k : Nat) (u : FUnit), r = i + k ∧ us[k]? = some u ∧ 1 < u.active ∧ tmin (numbers u.importance) < mi ∧
        ∀ (k' : Nat) (u' : FUnit), us[k']? = some u' → 1 < u'.active → tmin (numbers u.importance) ≤ tmin (numbers u'.importance))
  | [], mi, mu, i, _ => by
    refine ⟨by simp [choose, Clean], ?_⟩
    intro r hr
    simp [choose] at hr
    exact Or.inl ⟨hr.symm, by simp⟩
  | u :: us, mi, mu, i, hf => by
    have hfu := hf u (by simp)
    have ih := fun mi mu i => choose_spec us mi mu i (fun v hv => hf v (by simp [hv]))
    have hclean : Clean (u :: us) ↔ (1 < u.active → none ∉ u.fisher) ∧ Clean us := by
      simp [Clean]
    have hshift : ∀ {P : Nat → FUnit → Prop}, (∀ k v, (u :: us)[k]? = some v → P k v) ↔ P 0 u ∧ ∀ k v, us[k]? = some v → P (k+1) v := by
      intro P
      constructor
      · intro h
        exact ⟨h 0 u (by simp), fun k v hv => h (k + 1) v (by simpa using hv)⟩
      · rintro ⟨h0, hs⟩ k v hv
        cases k with
        | zero => simp at hv; subst hv; exact h0
        | succ k => exact hs k v (by simpa using hv)
    by_cases ha : 1 < u.active
    · by_cases hnan : u.importance.any (·.isNone) = true
      · have h0 : choose mi mu i (u :: us) = none := by rw [choose, if_pos ha, if_pos hnan]
        rw [h0]
        refine ⟨⟨fun _ hc => (hclean.1 hc).1 ha ((imp_nan u hfu).1 hnan), fun _ => rfl⟩, by simp⟩
      · have hno : none ∉ u.fisher := fun h => hnan ((imp_nan u hfu).2 h)
        by_cases hlt : tmin (numbers u.importance) < mi
        · have h0 : choose mi mu i (u :: us) = choose (tmin (numbers u.importance)) i (i + 1) us := by
            rw [choose, if_pos ha, if_neg hnan, if_pos hlt]
          rw [h0]
          obtain ⟨ih1, ih2⟩ := ih (tmin (numbers u.importance)) i (i + 1)
          refine ⟨by rw [ih1, hclean]; tauto, ?_⟩
          intro r hr
          right
          rcases ih2 r hr with ⟨rfl, hall⟩ | ⟨k, v, rfl, hv, hva, hvlt, hvall⟩
          · refine ⟨0, u, by omega, by simp, ha, hlt, ?_⟩
            rw [hshift (P := fun _ v => 1 < v.active → tmin (numbers u.importance) ≤ tmin (numbers v.importance))]
            exact ⟨fun _ => le_refl _, hall⟩
          · refine ⟨k + 1, v, by omega, by simpa using hv, hva, lt_trans hvlt hlt, ?_⟩
            rw [hshift (P := fun _ w => 1 < w.active → tmin (numbers v.importance) ≤ tmin (numbers w.importance))]
            exact ⟨fun _ => le_of_lt hvlt, hvall⟩
        · have h0 : choose mi mu i (u :: us) = choose mi mu (i + 1) us := by
            rw [choose, if_pos ha, if_neg hnan, if_neg hlt]
          rw [h0]
          obtain ⟨ih1, ih2⟩ := ih mi mu (i + 1)
          refine ⟨by rw [ih1, hclean]; tauto, ?_⟩
          intro r hr
          rcases ih2 r hr with ⟨rfl, hall⟩ | ⟨k, v, rfl, hv, hva, hvlt, hvall⟩
          · left
            refine ⟨rfl, ?_⟩
            rw [hshift (P := fun _ v => 1 < v.active → mi ≤ tmin (numbers v.importance))]
            exact ⟨fun _ => not_lt.1 hlt, hall⟩
          · right
            refine ⟨k + 1, v, by omega, by simpa using hv, hva, hvlt, ?_⟩
            rw [hshift (P := fun _ w => 1 < w.active → tmin (numbers v.importance) ≤ tmin (numbers w.importance))]
            exact ⟨fun _ => le_of_lt (lt_of_lt_of_le hvlt (not_lt.1 hlt)), hvall⟩
    · have h0 : choose mi mu i (u :: us) = choose mi mu (i + 1) us := by rw [choose, if_neg ha]
      rw [h0]
      obtain ⟨ih1, ih2⟩ := ih mi mu (i + 1)
      refine ⟨by rw [ih1, hclean]; tauto, ?_⟩
      intro r hr
      rcases ih2 r hr with ⟨rfl, hall⟩ | ⟨k, v, rfl, hv, hva, hvlt, hvall⟩
      · left
        refine ⟨rfl, ?_⟩
        rw [hshift (P := fun _ v => 1 < v.active → mi ≤ tmin (numbers v.importance))]
        exact ⟨fun h => absurd h ha, hall⟩
      · right
        refine ⟨k + 1, v, by omega, by simpa using hv, hva, hvlt, ?_⟩
        rw [hshift (P := fun _ w => 1 < w.active → tmin (numbers v.importance) ≤ tmin (numbers w.importance))]
        exact ⟨fun h => absurd h ha, hvall⟩

theorem modify_drop (us : List FUnit) (i : Nat) (u : FUnit) (hu : us[i]? = some u) (ha : 1 < u.active) :
    us.modify i FUnit.tryPrune = drop us i (argmin (numbers u.importance)) := by
  unfold drop
  apply List.ext_getElem?
  intro k
  rw [List.getElem?_modify, List.getElem?_modify]
  by_cases hk : i = k
  · subst hk
    simp [hu, FUnit.tryPrune, ha]
  · simp [hk]

theorem modify_same (us : List FUnit) (i : Nat) (h : ∀ u, us[i]? = some u → ¬ 1 < u.active) :
    us.modify i FUnit.tryPrune = us := by
  apply List.ext_getElem?
  intro k
  rw [List.getElem?_modify]
  by_cases hk : i = k
  · subst hk
    cases hu : us[i]? with
    | none => simp
    | some u => simp [FUnit.tryPrune, h u hu]
  · simp [hk]

theorem tryPrune_step (us us' : List FUnit) (hf : ∀ u ∈ us, Fit u) (h : tryPrune us = .ok us') :
    us' = us ∨ ∃ i j q, Prunable us i j q ∧ us' = drop us i j := by
  unfold tryPrune at h
  split at h
  · simp at h
  · split at h
    · simp at h; exact Or.inl h.symm
    · rename_i r hr
      simp at h
      have hcl : Clean us := by
        by_contra hc
        rw [((choose_spec us 100000 0 0 hf).1).2 hc] at hr
        simp at hr
      by_cases hu : ∃ u, us[r]? = some u ∧ 1 < u.active
      · obtain ⟨u, hu, ha⟩ := hu
        right
        have hmem := List.mem_of_getElem? hu
        obtain ⟨h1, h2, _⟩ := imp_min u (hf u hmem) (hcl u hmem ha) (by omega)
        refine ⟨r, argmin (numbers u.importance), _, ⟨u, hu, ha, h1, h2⟩, ?_⟩
        rw [← h, modify_drop us r u hu ha]
      · left
        rw [← h]
        apply modify_same
        intro u hu' ha
        exact hu ⟨u, hu', ha⟩

theorem kept_refl (u : FUnit) : Kept u u := ⟨rfl, fun _ h => h, id⟩

theorem kept_trans {u v w : FUnit} (h : Kept u v) (h' : Kept v w) : Kept u w :=
  ⟨h'.1.trans h.1, fun j hj => h.2.1 j (h'.2.1 j hj), fun h0 => h'.2.2 (h.2.2 h0)⟩

theorem count_set (l : List Bool) (j : Nat) (h : l[j]? = some true) : (l.set j false).count true + 1 = l.count true := by
  induction l generalizing j with
  | nil => simp at h
  | cons a l ih =>
    cases j with
    | zero => simp at h; subst h; simp
    | succ j =>
      have := ih j (by simpa using h)
      simp only [List.set_cons_succ, List.count_cons]
      omega

theorem set_get_true (l : List Bool) (j k : Nat) (h : (l.set j false)[k]? = some true) : l[k]? = some true := by
  rw [List.getElem?_set] at h
  split at h
  · split at h
    · simp at h
    · simp at h
  · exact h

theorem drop_kept (us : List FUnit) (i j : Nat) (q : ℚ) (h : Prunable us i j q) :
    List.Forall₂ Kept us (drop us i j) := by
  rw [List.forall₂_iff_get]
  refine ⟨by simp [drop], ?_⟩
  intro k h1 h2
  simp only [List.get_eq_getElem, drop, List.getElem_modify]
  split
  · rename_i hik
    subst hik
    obtain ⟨u, hu, ha, hm, _⟩ := h
    obtain ⟨hl, hu'⟩ := List.getElem?_eq_some_iff.1 hu
    rw [hu']
    refine ⟨by simp, fun j' hj' => set_get_true _ _ _ hj', ?_⟩
    intro _
    have := count_set u.mask j hm
    unfold FUnit.active at ha ⊢
    simp only
    omega
  · exact kept_refl _

theorem forall₂_kept_trans : ∀ {a b c : List FUnit}, List.Forall₂ Kept a b → List.Forall₂ Kept b c → List.Forall₂ Kept a c
  | [], _, _, .nil, .nil => .nil
  | _ :: _, _, _, .cons h t, .cons h' t' => .cons (kept_trans h h') (forall₂_kept_trans t t')

theorem forall₂_kept_refl : ∀ us : List FUnit, List.Forall₂ Kept us us
  | [] => .nil
  | u :: us => .cons (kept_refl u) (forall₂_kept_refl us)

theorem update_kept : ∀ (us : List FUnit) (b : List (List (Option ℚ))), (∀ u ∈ us, Fit u) → FitBatch us b →
    List.Forall₂ Kept us (List.zipWith FUnit.update us b) ∧ (∀ u ∈ List.zipWith FUnit.update us b, Fit u) ∧
    total (List.zipWith FUnit.update us b) = total us
  | [], [], _, _ => ⟨.nil, by simp, rfl⟩
  | u :: us, x :: b, hf, .cons hx hb => by
    obtain ⟨h1, h2, h3⟩ := update_kept us b (fun v hv => hf v (by simp [hv])) hb
    have hu := hf u (by simp)
    refine ⟨.cons ⟨rfl, fun _ h => h, id⟩ h1, ?_, ?_⟩
    · intro v hv
      rw [List.zipWith_cons_cons] at hv
      rcases List.mem_cons.1 hv with rfl | hv
      · unfold Fit at hu ⊢
        simp [FUnit.update, hu, hx]
      · exact h2 v hv
    · simp only [total, List.zipWith_cons_cons, List.map_cons, List.sum_cons] at h3 ⊢
      rw [h3]
      rfl

theorem reset_kept (us : List FUnit) (hf : ∀ u ∈ us, Fit u) :
    List.Forall₂ Kept us (us.map FUnit.reset) ∧ (∀ u ∈ us.map FUnit.reset, Fit u) ∧ total (us.map FUnit.reset) = total us := by
  refine ⟨?_, ?_, ?_⟩
  · rw [List.forall₂_map_right_iff]
    exact List.forall₂_same.2 (fun u _ => ⟨rfl, fun _ h => h, id⟩)
  · intro v hv
    obtain ⟨u, hu, rfl⟩ := List.mem_map.1 hv
    have := hf u hu
    unfold Fit at this ⊢
    simp [FUnit.reset, this]
  · unfold total
    rw [List.map_map]
    rfl

theorem drop_total (us : List FUnit) (i j : Nat) (q : ℚ) (h : Prunable us i j q) : total (drop us i j) + 1 = total us := by
  obtain ⟨u, hu, ha, hm, _⟩ := h
  clear ha
  induction us generalizing i with
  | nil => simp at hu
  | cons v us ih =>
    cases i with
    | zero =>
      simp at hu
      subst hu
      have := count_set v.mask j hm
      simp only [total, drop, List.modify_zero_cons, List.map_cons, List.sum_cons, FUnit.active]
      omega
    | succ i =>
      have := ih i (by simpa using hu)
      simp only [total, drop, List.modify_succ_cons, List.map_cons, List.sum_cons] at this ⊢
      omega

theorem drop_fit (us : List FUnit) (i j : Nat) (hf : ∀ u ∈ us, Fit u) : ∀ u ∈ drop us i j, Fit u := by
  intro v hv
  obtain ⟨k, hk, rfl⟩ := List.getElem_of_mem hv
  have hk' : k < us.length := by simpa [drop] using hk
  have := hf us[k] (List.getElem_mem hk')
  simp only [drop, List.getElem_modify]
  split
  · unfold Fit at this ⊢
    simpa using this
  · exact this

/-- One training iteration: no reactivation, no unit emptied, at most one channel fewer,
and none outside of the multiples of the interval. -/
theorem trainStep_kept (interval it : Nat) (b : List (List (Option ℚ))) (us us' : List FUnit) (hf : ∀ u ∈ us, Fit u)
    (hb : FitBatch us b) (h : trainStep interval it b us = .ok us') :
    List.Forall₂ Kept us us' ∧ (∀ u ∈ us', Fit u) ∧ total us' ≤ total us ∧ total us ≤ total us' + 1 ∧
      (¬ interval ∣ it → total us' = total us) := by
  obtain ⟨k1, k2, k3⟩ := update_kept us b hf hb
  unfold trainStep at h
  dsimp only at h
  split at h
  · simp at h
  · split at h
    · rename_i hz
      cases hp : tryPrune (List.zipWith FUnit.update us b) with
      | error e => rw [hp] at h; simp [bind, Except.bind] at h
      | ok us2 =>
        rw [hp] at h
        simp only [bind, Except.bind, pure, Except.pure, Except.ok.injEq] at h
        subst h
        rcases tryPrune_step _ _ k2 hp with rfl | ⟨i, j, q, hpr, rfl⟩
        · obtain ⟨r1, r2, r3⟩ := reset_kept _ k2
          refine ⟨forall₂_kept_trans k1 r1, r2, by omega, by omega, by omega⟩
        · have d2 := drop_fit _ i j k2
          obtain ⟨r1, r2, r3⟩ := reset_kept _ d2
          have d3 := drop_total _ i j q hpr
          refine ⟨forall₂_kept_trans k1 (forall₂_kept_trans (drop_kept _ i j q hpr) r1), r2, by omega, by omega, ?_⟩
          intro hn
          exact absurd (Nat.dvd_of_mod_eq_zero hz) hn
    · simp only [Except.ok.injEq] at h
      subst h
      exact ⟨k1, k2, by omega, by omega, fun _ => k3⟩

theorem fitBatch_kept {us us' : List FUnit} {b : List (List (Option ℚ))} (h : List.Forall₂ Kept us us') (hb : FitBatch us b) : FitBatch us' b := by
  induction h generalizing b with
  | nil => exact hb
  | cons hk _ ih =>
    cases hb with
    | cons hx hb => exact .cons (by rw [hk.1]; exact hx) (ih hb)

theorem drop_excess (us : List FUnit) (i j : Nat) (q : ℚ) (h : Prunable us i j q) : excess (drop us i j) + 1 = excess us := by
  obtain ⟨u, hu, ha, hm, _⟩ := h
  induction us generalizing i with
  | nil => simp at hu
  | cons v us ih =>
    cases i with
    | zero =>
      simp at hu
      subst hu
      have := count_set v.mask j hm
      simp only [excess, drop, List.modify_zero_cons, List.map_cons, List.sum_cons, FUnit.active] at ha ⊢
      omega
    | succ i =>
      have := ih i (by simpa using hu)
      simp only [excess, drop, List.modify_succ_cons, List.map_cons, List.sum_cons] at this ⊢
      omega

theorem excess_of_active {us vs : List FUnit} (h : us.map FUnit.active = vs.map FUnit.active) : excess us = excess vs := by
  have e : ∀ l : List FUnit, excess l = ((l.map FUnit.active).map (· - 1)).sum := by intro l; simp [excess, Function.comp_def]
  rw [e, e, h]

theorem update_active : ∀ (us : List FUnit) (b : List (List (Option ℚ))), us.length = b.length →
    (List.zipWith FUnit.update us b).map FUnit.active = us.map FUnit.active
  | [], [], _ => rfl
  | u :: us, x :: b, h => by
    rw [List.zipWith_cons_cons, List.map_cons, List.map_cons, update_active us b (by simpa using h)]
    rfl

theorem update_bounded {c B : ℚ} : ∀ (us : List FUnit) (b : List (List (Option ℚ))), Bounded us c →
    (∀ r ∈ b, ∀ x ∈ r, ∃ q, x = some q ∧ q ≤ B) → Bounded (List.zipWith FUnit.update us b) (c + B)
  | [], _, _, _ => by intro u hu; simp at hu
  | _ :: _, [], _, _ => by intro u hu; simp at hu
  | u :: us, r :: b, h, hb => by
    intro v hv x hx
    rw [List.zipWith_cons_cons, List.mem_cons] at hv
    rcases hv with rfl | hv
    · unfold FUnit.update at hx
      dsimp only at hx
      obtain ⟨k, hk, rfl⟩ := List.getElem_of_mem hx
      rw [List.getElem_zipWith]
      rw [List.length_zipWith] at hk
      obtain ⟨q1, e1, l1⟩ := h u (by simp) (u.fisher[k]'(by omega)) (List.getElem_mem _)
      obtain ⟨q2, e2, l2⟩ := hb r (by simp) (r[k]'(by omega)) (List.getElem_mem _)
      rw [e1, e2]
      exact ⟨q1 + q2, rfl, by linarith⟩
    · exact update_bounded us b (fun w hw => h w (by simp [hw])) (fun w hw => hb w (by simp [hw])) v hv x hx

theorem reset_bounded (us : List FUnit) : Bounded (us.map FUnit.reset) 0 := by
  intro u hu x hx
  obtain ⟨v, _, rfl⟩ := List.mem_map.1 hu
  unfold FUnit.reset at hx
  obtain ⟨_, _, rfl⟩ := List.mem_map.1 hx
  exact ⟨0, rfl, le_refl _⟩

theorem bounded_mono {us : List FUnit} {c d : ℚ} (h : Bounded us c) (hcd : c ≤ d) : Bounded us d := fun u hu x hx => by
  obtain ⟨q, e, l⟩ := h u hu x hx
  exact ⟨q, e, le_trans l hcd⟩

theorem exists_prunable {us : List FUnit} {c : ℚ} (hf : ∀ u ∈ us, Fit u) (hb : Bounded us c) (he : 0 < excess us) :
    ∃ i j q, Prunable us i j q ∧ q ≤ c := by
  have : ∃ u ∈ us, 1 < u.active := by
    by_contra hn
    push Not at hn
    have : excess us = 0 := by
      unfold excess
      rw [List.sum_eq_zero]
      intro x hx
      obtain ⟨u, hu, rfl⟩ := List.mem_map.1 hx
      have := hn u hu
      omega
    omega
  obtain ⟨u, hu, ha⟩ := this
  obtain ⟨i, hi, rfl⟩ := List.getElem_of_mem hu
  have hm : true ∈ us[i].mask := by
    unfold FUnit.active at ha
    exact List.count_pos_iff.1 (by omega)
  obtain ⟨j, hj, hjm⟩ := List.getElem_of_mem hm
  have hjf : j < us[i].fisher.length := by rw [hf _ hu]; exact hj
  obtain ⟨q, e, l⟩ := hb _ hu _ (List.getElem_mem hjf)
  exact ⟨i, j, q, ⟨us[i], List.getElem?_eq_getElem hi, ha, by rw [List.getElem?_eq_getElem hj, hjm],
    by rw [List.getElem?_eq_getElem hjf, e]⟩, l⟩

theorem clean_of_bounded {us : List FUnit} {c : ℚ} (hb : Bounded us c) : Clean us := by
  intro u hu _ hn
  obtain ⟨q, e, _⟩ := hb u hu _ hn
  cases e

end Verif.GroupFisher
