import Verif.Lemmas.GroupFisher

namespace Verif.GroupFisher
open Verif

/-- A pruning attempt leaves everything as it is or deactivates one channel, an active one
of a unit with more than one active channel. -/
theorem C35_step (us us' : List FUnit) (hf : ∀ u ∈ us, Fit u) (h : tryPrune us = .ok us') :
    us' = us ∨ ∃ i j q, Prunable us i j q ∧ us' = drop us i j :=
  tryPrune_step us us' hf h

/-- The channel has the smallest importance over all units that may be pruned. The guard
that is needed: some importance is below 100000. Missing: larger importances, see `C35_minimum_violated`. -/
theorem C35_minimum_partial (us : List FUnit) (hf : ∀ u ∈ us, Fit u) (hc : Clean us)
    (hg : ∃ i j q, Prunable us i j q ∧ q < 100000) :
    ∃ i j q, Prunable us i j q ∧ tryPrune us = .ok (drop us i j) ∧ ∀ i' j' q', Prunable us i' j' q' → q ≤ q' := by
  obtain ⟨i0, j0, q0, ⟨u0, hu0, ha0, hm0, hf0⟩, hq0⟩ := hg
  have hne : us ≠ [] := by rintro rfl; simp at hu0
  have hsp := choose_spec us 100000 0 0 hf
  have hlow : ∀ i' j' q', Prunable us i' j' q' → ∃ u, us[i']? = some u ∧ 1 < u.active ∧ tmin (numbers u.importance) ≤ q' := by
    rintro i' j' q' ⟨u, hu, ha, hm, hq⟩
    have hmem := List.mem_of_getElem? hu
    exact ⟨u, hu, ha, (imp_min u (hf u hmem) (hc u hmem ha) (by omega)).2.2 j' q' hm hq⟩
  cases hch : choose 100000 0 0 us with
  | none => exact absurd hc (hsp.1.1 hch)
  | some r =>
    rcases hsp.2 r hch with ⟨rfl, hall⟩ | ⟨k, u, rfl, hu, ha, hlt, hall⟩
    · obtain ⟨u, hu, ha, hle⟩ := hlow i0 j0 q0 ⟨u0, hu0, ha0, hm0, hf0⟩
      have := hall i0 u hu ha
      linarith
    · have hmem := List.mem_of_getElem? hu
      obtain ⟨h1, h2, _⟩ := imp_min u (hf u hmem) (hc u hmem ha) (by omega)
      refine ⟨k, argmin (numbers u.importance), _, ⟨u, hu, ha, h1, h2⟩, ?_, ?_⟩
      · unfold tryPrune
        rw [if_neg hne, hch]
        simp only [Nat.zero_add]
        rw [modify_drop us k u hu ha]
      · intro i' j' q' hp
        obtain ⟨v, hv, hva, hle⟩ := hlow i' j' q' hp
        exact le_trans (hall i' v hv hva) hle

/-- Otherwise the first unit is pruned although another has the smallest importance, or,
if the first unit has one channel left, nothing is pruned any more. -/
theorem C35_minimum_violated :
    let big : FUnit := ⟨[true, true], [some 300000, some 400000]⟩
    let small : FUnit := ⟨[true, true], [some 200000, some 250000]⟩
    let one : FUnit := ⟨[true], [some 300000]⟩
    tryPrune [big, small] = .ok [{ big with mask := [false, true] }, small] ∧
    Prunable [big, small] 1 0 200000 ∧ Prunable [big, small] 0 0 300000 ∧
    tryPrune [one, small] = .ok [one, small] ∧ Prunable [one, small] 1 0 200000 := by
  refine ⟨by decide +kernel, ⟨_, rfl, by decide, rfl, rfl⟩, ⟨_, rfl, by decide, rfl, rfl⟩, by decide +kernel, ⟨_, rfl, by decide, rfl, rfl⟩⟩

/-- With NaN in the information of a unit that may be pruned, nothing is pruned; no unit at
all is an error. -/
theorem C35_nan (us : List FUnit) (hf : ∀ u ∈ us, Fit u) (hc : ¬ Clean us) :
    tryPrune us = .ok us ∧ tryPrune [] = .error .index := by
  refine ⟨?_, by simp [tryPrune]⟩
  have hne : us ≠ [] := by rintro rfl; exact hc (by simp [Clean])
  unfold tryPrune
  rw [if_neg hne, ((choose_spec us 100000 0 0 hf).1).2 hc]

/-- Where nothing may be pruned, nothing is. -/
theorem C35_exhausted (us : List FUnit) (hne : us ≠ []) (h : ∀ u ∈ us, u.active ≤ 1) : tryPrune us = .ok us := by
  have hch : ∀ (l : List FUnit) (mi : ℚ) (mu i : Nat), (∀ u ∈ l, u.active ≤ 1) → choose mi mu i l = some mu := by
    intro l
    induction l with
    | nil => intro _ _ _ _; rfl
    | cons u l ih =>
      intro mi mu i hl
      rw [choose, if_neg (by have := hl u (by simp); omega)]
      exact ih _ _ _ (fun v hv => hl v (by simp [hv]))
  unfold tryPrune
  rw [if_neg hne, hch us _ _ _ h]
  simp only [Except.ok.injEq]
  apply modify_same
  intro u hu
  have := h u (List.mem_of_getElem? hu)
  omega

/-- A whole run over any batches: no unit is emptied, no channel comes back, and no more
channels are lost than there are multiples of the interval. -/
theorem C35_run (interval it : Nat) (bs : List (List (List (Option ℚ)))) (us us' : List FUnit) (hf : ∀ u ∈ us, Fit u)
    (hb : ∀ b ∈ bs, FitBatch us b) (h : run interval it bs us = .ok us') :
    List.Forall₂ Kept us us' ∧
    total us ≤ total us' + ((List.range' it bs.length).filter (interval ∣ ·)).length := by
  induction bs generalizing it us with
  | nil => simp [run] at h; subst h; exact ⟨forall₂_kept_refl _, by simp⟩
  | cons b bs ih =>
    rw [run] at h
    cases hs : trainStep interval it b us with
    | error e => rw [hs] at h; simp [bind, Except.bind] at h
    | ok us1 =>
      rw [hs] at h
      simp only [bind, Except.bind] at h
      obtain ⟨t1, t2, t3, t4, t5⟩ := trainStep_kept interval it b us us1 hf (hb b (by simp)) hs
      obtain ⟨i1, i2⟩ := ih (it + 1) us1 t2 (fun c hc => fitBatch_kept t1 (hb c (by simp [hc]))) h
      refine ⟨forall₂_kept_trans t1 i1, ?_⟩
      rw [List.length_cons, List.range'_succ, List.filter_cons]
      split
      · simp only [List.length_cons]; omega
      · rename_i hd
        have := t5 (by simpa using hd)
        omega

/-- The importance that decides is what the batches since the last attempt contributed in
total, and the next attempt starts from zero. -/
theorem C35_accumulates (u : FUnit) (b : List (Option ℚ)) (j : Nat) (x y : ℚ)
    (hx : u.fisher[j]? = some (some x)) (hy : b[j]? = some (some y)) :
    (u.update b).fisher[j]? = some (some (x + y)) ∧ (u.update b).reset.fisher[j]? = some (some 0) := by
  have h1 : (u.update b).fisher[j]? = some (some (x + y)) := by
    simp [FUnit.update, List.getElem?_zipWith, hx, hy]
  refine ⟨h1, ?_⟩
  unfold FUnit.reset
  rw [List.getElem?_map, h1]
  rfl

example :
    let us : List FUnit := [⟨[true, false, true], [some 3, some 0, some 2]⟩, ⟨[true], [some 1]⟩]
    (∀ u ∈ us, Fit u) ∧ Clean us ∧ Prunable us 0 2 2 ∧
    tryPrune us = .ok [⟨[true, false, false], [some 3, some 0, some 2]⟩, ⟨[true], [some 1]⟩] := by
  refine ⟨by simp [Fit], ?_, ⟨_, rfl, by decide, rfl, rfl⟩, by decide +kernel⟩
  simp [Clean]

/-- A step is an error exactly when the interval is zero, or when it is time to prune and there is no
unit. -/
theorem C35_error (interval it : Nat) (batch : List (List (Option ℚ))) (us : List FUnit) (hlen : batch.length = us.length) :
    (∃ e, trainStep interval it batch us = .error e) ↔ interval = 0 ∨ (it % interval = 0 ∧ us = []) := by
  unfold trainStep
  dsimp only
  by_cases h0 : interval = 0
  · rw [if_pos h0]
    simp [h0]
  rw [if_neg h0]
  by_cases hm : it % interval = 0
  · rw [if_pos hm]
    have he : List.zipWith FUnit.update us batch = [] ↔ us = [] := by
      rw [List.zipWith_eq_nil_iff]
      constructor
      · rintro (h | h)
        · exact h
        · rw [h] at hlen
          exact List.eq_nil_of_length_eq_zero hlen.symm
      · exact Or.inl
    unfold tryPrune
    by_cases hu : us = []
    · rw [if_pos (he.2 hu)]
      simp [bind, Except.bind, hu, hm]
    · rw [if_neg (mt he.1 hu)]
      cases choose 100000 0 0 (List.zipWith FUnit.update us batch) <;> simp [bind, Except.bind, pure, Except.pure, hu, h0]
  · rw [if_neg hm]
    simp [h0, hm]

/-- Every attempt prunes exactly one channel, until every unit has one channel left, if the batches contribute no NaN and at most `B` to
a channel and `B` times the interval is below 100000.  Missing: larger contributions, see `C35_minimum_violated`. -/
theorem C35_progress_partial (interval it : Nat) (h0 : 0 < interval) (B : ℚ) (hB : 0 ≤ B) (hI : interval * B < 100000)
    (bs : List (List (List (Option ℚ)))) (us : List FUnit) (hne : us ≠ []) (hf : ∀ u ∈ us, Fit u) (hz : Bounded us 0)
    (hb : ∀ b ∈ bs, FitBatch us b ∧ ∀ r ∈ b, ∀ x ∈ r, ∃ q, x = some q ∧ q ≤ B) :
    ∃ us', run interval it bs us = .ok us' ∧
      excess us' = excess us - ((List.range' it bs.length).filter (interval ∣ ·)).length := by
  have key : ∀ (bs : List (List (List (Option ℚ)))) (it : Nat) (us : List FUnit), us ≠ [] → (∀ u ∈ us, Fit u) →
      Bounded us (((it + interval - 1) % interval : Nat) * B) →
      (∀ b ∈ bs, FitBatch us b ∧ ∀ r ∈ b, ∀ x ∈ r, ∃ q, x = some q ∧ q ≤ B) →
      ∃ us', run interval it bs us = .ok us' ∧
        excess us' = excess us - ((List.range' it bs.length).filter (interval ∣ ·)).length := by
    intro bs
    induction bs with
    | nil => intro it us _ _ _ _; exact ⟨us, rfl, by simp⟩
    | cons b bs ih =>
      intro it us hne hf hz hb
      obtain ⟨hfb, hbb⟩ := hb b (by simp)
      obtain ⟨k1, k2, k3⟩ := update_kept us b hf hfb
      have hlen : us.length = b.length := hfb.length_eq
      have hub := update_bounded us b hz hbb
      have hact := update_active us b hlen
      have hex := excess_of_active hact
      have hc : Bounded (List.zipWith FUnit.update us b) (interval * B) := by
        refine bounded_mono hub ?_
        have h1 : (it + interval - 1) % interval + 1 ≤ interval := Nat.mod_lt _ h0
        have h2 : (((it + interval - 1) % interval : Nat) : ℚ) + 1 ≤ interval := by exact_mod_cast h1
        nlinarith
      have hne1 : List.zipWith FUnit.update us b ≠ [] := by
        intro h
        have : (List.zipWith FUnit.update us b).length = 0 := by rw [h]; rfl
        rw [List.length_zipWith, ← hlen, Nat.min_self] at this
        exact hne (List.length_eq_zero_iff.1 this)
      rw [List.length_cons, List.range'_succ, List.filter_cons]
      by_cases hd : interval ∣ it
      · have hmod : it % interval = 0 := Nat.mod_eq_zero_of_dvd hd
        have hstep : ∃ us2, tryPrune (List.zipWith FUnit.update us b) = .ok us2 ∧ (∀ u ∈ us2, Fit u) ∧
            List.Forall₂ Kept (List.zipWith FUnit.update us b) us2 ∧ excess us2 = excess us - 1 := by
          by_cases he : 0 < excess (List.zipWith FUnit.update us b)
          · obtain ⟨i, j, q, hp, hq⟩ := exists_prunable k2 hc he
            obtain ⟨i', j', q', hp', ht, _⟩ := C35_minimum_partial _ k2 (clean_of_bounded hc) ⟨i, j, q, hp, by linarith⟩
            have hde := drop_excess _ _ _ _ hp'
            exact ⟨_, ht, drop_fit _ _ _ k2, drop_kept _ _ _ _ hp', by omega⟩
          · refine ⟨_, C35_exhausted _ hne1 ?_, k2, forall₂_kept_refl _, by omega⟩
            intro u hu
            by_contra hu1
            apply he
            unfold excess
            have : u.active - 1 ≤ ((List.zipWith FUnit.update us b).map fun u => u.active - 1).sum :=
              List.single_le_sum (by simp) _ (List.mem_map_of_mem hu)
            omega
        obtain ⟨us2, ht, hf2, hk2, he2⟩ := hstep
        obtain ⟨r1, r2, r3⟩ := reset_kept us2 hf2
        have hs : trainStep interval it b us = .ok (us2.map FUnit.reset) := by
          unfold trainStep
          dsimp only
          rw [if_neg (by omega), if_pos hmod, ht]
          rfl
        have hkk := forall₂_kept_trans k1 (forall₂_kept_trans hk2 r1)
        have hne2 : us2.map FUnit.reset ≠ [] := by
          intro h
          have := hkk.length_eq
          rw [h] at this
          exact hne (List.length_eq_zero_iff.1 this)
        obtain ⟨us', g1, g2⟩ := ih (it + 1) (us2.map FUnit.reset) hne2 r2 (bounded_mono (reset_bounded us2) (by positivity))
          fun c hc => ⟨fitBatch_kept hkk (hb c (by simp [hc])).1, (hb c (by simp [hc])).2⟩
        refine ⟨us', by rw [run, hs]; exact g1, ?_⟩
        have hre : excess (us2.map FUnit.reset) = excess us2 := by
          apply excess_of_active
          rw [List.map_map]
          rfl
        rw [g2, hre, he2, if_pos (by simpa using hd), List.length_cons]
        omega
      · have hmod : it % interval ≠ 0 := fun h => hd (Nat.dvd_of_mod_eq_zero h)
        have hs : trainStep interval it b us = .ok (List.zipWith FUnit.update us b) := by
          unfold trainStep
          dsimp only
          rw [if_neg (by omega), if_neg hmod]
        have hnext : (it + interval - 1) % interval + 1 = (it + 1 + interval - 1) % interval := by
          have hsplit := Nat.div_add_mod it interval
          have hlt := Nat.mod_lt it h0
          have e1 : it + interval - 1 = (it % interval - 1) + interval * (it / interval + 1) := by
            rw [Nat.mul_add]; omega
          have e2 : it + 1 + interval - 1 = it % interval + interval * (it / interval + 1) := by
            rw [Nat.mul_add]; omega
          rw [e1, e2, Nat.add_mul_mod_self_left, Nat.add_mul_mod_self_left, Nat.mod_eq_of_lt (by omega), Nat.mod_mod]
          omega
        obtain ⟨us', g1, g2⟩ := ih (it + 1) _ hne1 k2 (by
            rw [← hnext]
            refine bounded_mono hub ?_
            push_cast
            linarith)
          fun c hc => ⟨fitBatch_kept k1 (hb c (by simp [hc])).1, (hb c (by simp [hc])).2⟩
        refine ⟨us', by rw [run, hs]; exact g1, ?_⟩
        rw [g2, hex, if_neg (by simpa using hd)]
  exact key bs it us hne hf (bounded_mono hz (by positivity)) hb

/-- Two units, an interval of two and seven batches: four attempts, of which three find something to prune. -/
example :
    let us : List FUnit := [⟨[true, true, true], [some 0, some 0, some 0]⟩, ⟨[true, true], [some 0, some 0]⟩]
    let b : List (List (Option ℚ)) := [[some 3, some 1, some 2], [some 4, some 5]]
    excess us = 3 ∧ (run 2 0 (List.replicate 7 b) us).toOption.map excess = some 0 ∧
      (run 2 0 (List.replicate 4 b) us).toOption.map excess = some 1 := by
  decide +kernel

/-- An interval of zero iterations is a `ZeroDivisionError` at the first step. -/
theorem C35_interval (interval it : Nat) (batch : List (List (Option ℚ))) (us : List FUnit) :
    trainStep interval it batch us = .error .zeroDivision ↔ interval = 0 := by
  unfold trainStep tryPrune
  by_cases h : interval = 0
  · simp [h]
  · rw [if_neg h]
    refine iff_of_false ?_ h
    by_cases h1 : it % interval = 0
    · rw [if_pos h1]
      by_cases h2 : List.zipWith FUnit.update us batch = []
      · simp only [if_pos h2]
        simp [bind, Except.bind]
      · simp only [if_neg h2]
        cases choose 100000 0 0 (List.zipWith FUnit.update us batch) <;> simp [bind, Except.bind, pure, Except.pure]
    · rw [if_neg h1]
      simp

example : trainStep 0 7 [] [] = .error .zeroDivision := (C35_interval _ _ _ _).2 rfl

end Verif.GroupFisher
