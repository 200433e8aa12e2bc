import Verif.Lemmas.FisherRun

/-! ## Property C114: pruning with group Fisher information down to a resource threshold -/

namespace Verif.FisherRun
open Verif GroupFisher Thresholds

/-- Training never fails for trainable units of positive resource, also with NaN contributions.  Every threshold is left or has one
checkpoint, from big to small; a checkpoint is written in a checked iteration, holds the units pruned by the batches up to this
iteration, and needs less than its share of the original resource.  The final units are those pruned until the end of training. -/
theorem C114_saves (cost : List Nat → ℚ) (c : Cfg) (hi : 0 < c.interval) (interval : Nat) (h0 : 0 < interval) (thr : List ℚ)
    (bs : List (List (List (Option ℚ)))) (us : List FUnit) (hr : Ready us bs) (hc : 0 < cost (widths us)) :
    ∃ d, train cost c interval thr bs us = .ok d ∧
      (d.saves.map (·.thr) ++ d.left).Perm thr ∧ Down (d.saves.map (·.thr) ++ d.left) ∧
      (d.saves.map (·.it)).Pairwise (· < ·) ∧
      (∀ s ∈ d.saves, c.interval ∣ s.it ∧ s.it < bs.length ∧ UnitsAfter interval bs us (s.it + 1) s.units ∧
        cost (widths s.units) < s.thr * cost (widths us)) ∧
      match d.ended with
      | none => UnitsAfter interval bs us bs.length d.units
      | some k => k < bs.length ∧ UnitsAfter interval bs us (k + 1) d.units := by
  obtain ⟨d, l, sts, g1, g2, g3, g4, g5, g6, g7, g8, g9⟩ := sim h0 cost c hi hc.ne' bs 0 us (initial thr) hr
  obtain ⟨l', k1, k2, k3, k4, k5⟩ := C36_saves c hi thr (sts.map (pct cost (cost (widths us))))
  rw [g3] at k1
  cases k1
  have m1 : d.saves.map (·.thr) = l.saves.map (·.2) := by rw [← g4, List.map_map]; rfl
  have m2 : d.saves.map (·.it) = l.saves.map (·.1) := by rw [← g4, List.map_map]; rfl
  refine ⟨d, g1, ?_, ?_, ?_, ?_, ?_⟩
  · rw [m1, g6]; exact k2
  · rw [m1, g6]; exact k3
  · rw [m2]; exact k4
  · intro s hs
    obtain ⟨_, hst⟩ := g7 s hs
    rw [Nat.sub_zero] at hst
    obtain ⟨hd, p, hp, hlt⟩ := k5 (s.it, s.thr) (by rw [← g4]; exact List.mem_map_of_mem (f := fun s : Save => (s.it, s.thr)) hs)
    dsimp only at hd hp hlt
    rw [List.getElem?_map, hst] at hp
    simp only [Option.map_some, Option.some.injEq] at hp
    obtain ⟨hl, _⟩ := List.getElem?_eq_some_iff.1 hst
    refine ⟨hd, by rw [← g2.1]; exact hl, g2.2 _ _ hst, ?_⟩
    rw [← hp] at hlt
    exact (div_lt_iff₀ hc).1 hlt
  · cases he : d.ended with
    | none =>
      rw [he] at g9
      exact g9
    | some k =>
      have := g8 k he
      rw [he] at g9
      exact ⟨by omega, g9⟩

/-- Checkpoints only lose channels: all units of a checkpoint are units of the network with possibly fewer active channels, none loses
its last one, and a network saved in iteration `it` has lost at most one channel for every multiple of the interval up to `it`. -/
theorem C114_kept (cost : List Nat → ℚ) (c : Cfg) (hi : 0 < c.interval) (interval : Nat) (h0 : 0 < interval) (thr : List ℚ)
    (bs : List (List (List (Option ℚ)))) (us : List FUnit) (hr : Ready us bs) (hc : 0 < cost (widths us)) (d : Done)
    (h : train cost c interval thr bs us = .ok d) :
    ∀ s ∈ d.saves, List.Forall₂ Kept us s.units ∧
      total us ≤ total s.units + ((List.range' 0 (s.it + 1)).filter (interval ∣ ·)).length := by
  obtain ⟨d', h1, _, _, _, h2, _⟩ := C114_saves cost c hi interval h0 thr bs us hr hc
  rw [h] at h1
  cases h1
  intro s hs
  obtain ⟨_, hl, hu, _⟩ := h2 s hs
  have := run_take_kept hr _ hu
  rw [List.length_take, Nat.min_eq_left (by omega)] at this
  exact this

/-- A checkpoint is not late: in every earlier checked iteration the network still needed at least the share of the threshold, or that
check wrote the checkpoint of a threshold that is not smaller. -/
theorem C114_first (cost : List Nat → ℚ) (c : Cfg) (hi : 0 < c.interval) (interval : Nat) (h0 : 0 < interval) (thr : List ℚ)
    (bs : List (List (List (Option ℚ)))) (us : List FUnit) (hr : Ready us bs) (hc : 0 < cost (widths us)) (d : Done)
    (h : train cost c interval thr bs us = .ok d) (s : Save) (hs : s ∈ d.saves) (k : Nat) (hk : k < s.it) (hd : c.interval ∣ k)
    (vs : List FUnit) (hv : UnitsAfter interval bs us (k + 1) vs) :
    s.thr * cost (widths us) ≤ cost (widths vs) ∨ ∃ s' ∈ d.saves, s'.it = k ∧ s.thr ≤ s'.thr := by
  obtain ⟨d', l, sts, g1, g2, g3, g4, g5, g6, g7, g8, g9⟩ := sim h0 cost c hi hc.ne' bs 0 us (initial thr) hr
  have hh : d' = d := by
    unfold train at h
    rw [h] at g1
    cases g1
    rfl
  subst hh
  obtain ⟨_, hst⟩ := g7 s hs
  obtain ⟨hl, _⟩ := List.getElem?_eq_some_iff.1 hst
  have hkl : k < bs.length := by
    have := g2.1
    omega
  rcases C36_first c hi thr _ l g3 (s.it, s.thr)
    (by rw [← g4]; exact List.mem_map_of_mem (f := fun s : Save => (s.it, s.thr)) hs) k hk hd with q | ⟨e, he, q1, q2⟩
  · left
    have := q (pct cost (cost (widths us)) vs) (by rw [List.getElem?_map, trace_run g2 hkl hv]; rfl)
    exact (le_div_iff₀ hc).1 this
  · right
    rw [← g4] at he
    obtain ⟨s', hs', rfl⟩ := List.mem_map.1 he
    exact ⟨s', hs', q1, q2⟩

/-- Every threshold is reached: if the batches contribute no NaN and at most `B` to a channel, with `B` times the interval below 100000,
the network with one channel in every unit needs less than the share of every threshold, and there are enough iterations, then every
threshold gets its checkpoint, and with early stopping training ends.  Missing: larger contributions, see `C35_minimum_violated`. -/
theorem C114_reached_partial (cost : List Nat → ℚ) (c : Cfg) (hi : 0 < c.interval) (interval : Nat) (h0 : 0 < interval) (thr : List ℚ)
    (bs : List (List (List (Option ℚ)))) (us : List FUnit) (hr : Ready us bs) (hc : 0 < cost (widths us))
    (B : ℚ) (hB : 0 ≤ B) (hI : interval * B < 100000) (hz : Bounded us 0) (hb : AtMost B bs)
    (ht : ∀ t ∈ thr, cost ((widths us).map (min 1)) < t * cost (widths us))
    (hn : interval * excess us + c.interval * thr.length ≤ bs.length) :
    ∃ d, train cost c interval thr bs us = .ok d ∧ (d.saves.map (·.thr)).Perm thr ∧ d.left = [] ∧
      (c.stop = true → thr ≠ [] → d.ended.isSome = true) := by
  obtain ⟨d, l, sts, g1, g2, g3, g4, g5, g6, g7, g8, g9⟩ := sim h0 cost c hi hc.ne' bs 0 us (initial thr) hr
  have hlow : ∀ (k : Nat) (v : List FUnit), interval * excess us ≤ k → sts[k]? = some v → widths v = (widths us).map (min 1) := by
    intro k v hk hv
    obtain ⟨hl, _⟩ := List.getElem?_eq_some_iff.1 hv
    have hrun := g2.2 k v hv
    obtain ⟨v', e1, e2⟩ := C35_progress_partial interval 0 h0 B hB hI (bs.take (k + 1)) us hr.some_unit hr.fit hz
      (fun b hb' => ⟨hr.batches b (List.mem_of_mem_take hb'), hb b (List.mem_of_mem_take hb')⟩)
    rw [hrun] at e1
    cases e1
    obtain ⟨k1, _⟩ := run_take_kept hr (k + 1) hrun
    apply floor_widths k1
    rw [e2, List.length_take, Nat.min_eq_left (by rw [← g2.1]; omega)]
    have := multiples_ge interval (k + 1) h0 (excess us) 0 (by omega)
    omega
  by_cases hthr : thr = []
  · subst hthr
    refine ⟨d, g1, ?_, ?_, fun _ h => absurd rfl h⟩
    · obtain ⟨l', k1, k2, _⟩ := C36_saves c hi [] (sts.map (pct cost (cost (widths us))))
      rw [g3] at k1
      cases k1
      rw [List.perm_nil, List.append_eq_nil_iff] at k2
      rw [← g4, List.map_map] at k2
      exact List.Perm.of_eq k2.1
    · obtain ⟨l', k1, k2, _⟩ := C36_saves c hi [] (sts.map (pct cost (cost (widths us))))
      rw [g3] at k1
      cases k1
      rw [List.perm_nil, List.append_eq_nil_iff] at k2
      rw [g6]
      exact k2.2
  · obtain ⟨t, htm, htl⟩ : ∃ t ∈ thr, ∀ x ∈ thr, t ≤ x := by
      have h1 : thr.toFinset.Nonempty := by simpa using hthr
      refine ⟨thr.toFinset.min' h1, by simpa using thr.toFinset.min'_mem h1, fun x hx => Finset.min'_le _ _ (by simpa using hx)⟩
    have hcb : thr.length ≤ checksBelow c t 0 (sts.map (pct cost (cost (widths us)))) := by
      have hN : interval * excess us ≤ bs.length := by omega
      unfold checksBelow
      have hm := multiples_ge c.interval (bs.length - interval * excess us) hi thr.length (interval * excess us) (by omega)
      refine le_trans hm ?_
      have hsub : List.Sublist (((List.range' (interval * excess us) (bs.length - interval * excess us)).filter (c.interval ∣ ·)))
          ((((sts.map (pct cost (cost (widths us)))).zipIdx 0).filter fun e => decide (e.2 % c.interval = 0 ∧ e.1 < t)).map (·.2)) := by
        have hz : (sts.map (pct cost (cost (widths us)))).zipIdx 0 =
            (sts.map (pct cost (cost (widths us)))).zip (List.range' 0 bs.length) := by
          rw [List.zipIdx_eq_zip_range', List.length_map, g2.1]
        have hsplit : (sts.map (pct cost (cost (widths us)))).zipIdx 0 =
            ((sts.take (interval * excess us)).map (pct cost (cost (widths us)))).zipIdx 0 ++
            ((sts.drop (interval * excess us)).map (pct cost (cost (widths us)))).zipIdx (interval * excess us) := by
          conv_lhs => rw [← List.take_append_drop (interval * excess us) sts]
          rw [List.map_append, List.zipIdx_append, List.length_map, List.length_take, g2.1, Nat.min_eq_left hN, Nat.zero_add]
        rw [hsplit, List.filter_append, List.map_append]
        refine List.Sublist.trans ?_ (List.sublist_append_right _ _)
        have hall : (((sts.drop (interval * excess us)).map (pct cost (cost (widths us)))).zipIdx (interval * excess us)).filter
            (fun e => decide (e.2 % c.interval = 0 ∧ e.1 < t)) =
            (((sts.drop (interval * excess us)).map (pct cost (cost (widths us)))).zipIdx (interval * excess us)).filter
            (fun e => decide (c.interval ∣ e.2)) := by
          apply List.filter_congr
          intro e he
          obtain ⟨hj1, hj2, hj3⟩ := List.mem_zipIdx he
          rw [List.length_map, List.length_drop] at hj2
          rw [List.getElem_map, List.getElem_drop] at hj3
          have hlt : e.1 < t := by
            rw [hj3]
            unfold pct
            rw [hlow (interval * excess us + (e.2 - interval * excess us)) _ (by omega) (List.getElem?_eq_getElem (by omega)), div_lt_iff₀ hc]
            exact ht t htm
          simp [hlt, Nat.dvd_iff_mod_eq_zero]
        rw [hall]
        have hmap := List.filter_map (f := fun e : ℚ × Nat => e.2) (p := fun n => decide (c.interval ∣ n))
          (l := ((sts.drop (interval * excess us)).map (pct cost (cost (widths us)))).zipIdx (interval * excess us))
        have hsnd : (((sts.drop (interval * excess us)).map (pct cost (cost (widths us)))).zipIdx (interval * excess us)).map (fun e => e.2) =
            List.range' (interval * excess us) (bs.length - interval * excess us) := by
          rw [List.zipIdx_map_snd, List.length_map, List.length_drop, g2.1]
        rw [← hsnd, hmap]
        exact List.Sublist.refl _
      have := hsub.length_le
      rw [List.length_map] at this
      exact this
    obtain ⟨l', k1, k2⟩ := C36_all_partial c hi thr _ t htl hcb
    rw [g3] at k1
    cases k1
    have m1 : d.saves.map (·.thr) = l.saves.map (·.2) := by rw [← g4, List.map_map]; rfl
    refine ⟨d, g1, by rw [m1]; exact k2, ?_, ?_⟩
    · obtain ⟨l', j1, j2, _⟩ := C36_saves c hi thr (sts.map (pct cost (cost (widths us))))
      rw [g3] at j1
      cases j1
      have := j2.length_eq
      rw [List.length_append, k2.length_eq] at this
      rw [g6]
      exact List.length_eq_zero_iff.1 (by omega)
    · intro hstop _
      rw [g5]
      exact ((C36_stop c hi thr _ hthr l g3).1).2 ⟨hstop, k2⟩

/-- Nothing is saved and training fails in the first check when the original network needs nothing. -/
theorem C114_zero (cost : List Nat → ℚ) (c : Cfg) (hi : 0 < c.interval) (interval : Nat) (h0 : 0 < interval) (thr : List ℚ) (hne : thr ≠ [])
    (b : List (List (Option ℚ))) (bs : List (List (List (Option ℚ)))) (us : List FUnit) (hr : Ready us (b :: bs)) (hc : cost (widths us) = 0) :
    train cost c interval thr (b :: bs) us = .error .zeroDivision := by
  obtain ⟨us1, h1, _⟩ := step_ok h0 0 hr
  have hin : initial thr ≠ [] := by
    intro h
    have := (initial_spec thr).1
    rw [h] at this
    exact hne (List.nil_perm.1 this)
  unfold train
  rw [loop, h1]
  have : check cost c (cost (widths us)) 0 us1 (initial thr) = .error .zeroDivision := by
    unfold check
    rw [if_neg hi.ne', if_pos ⟨Nat.zero_mod _, hin, hc⟩]
  simp only [Bind.bind, Except.bind, this]

/-- DISAGREEMENT: the checkpoint of a threshold does not hold the first network below it.  One checkpoint at most is written in a check,
so when a pruning passes two thresholds, the second checkpoint is written in a later check, after further channels are gone.  Here the
network of widths 2 and 2 is below both thresholds in iteration 0, and the checkpoint of the second holds widths 1 and 2. -/
theorem C114_skip_violated :
    (train chain ⟨1, true⟩ 1 [95 / 100, 93 / 100] (List.replicate 5 exBatch) exUnits2).toOption.map
        (fun d => (d.saves.map fun s => (s.it, s.thr, widths s.units), d.ended)) =
      some ([(0, 95 / 100, [2, 2]), (1, 93 / 100, [1, 2])], some 1) ∧
    chain [2, 2] < 93 / 100 * chain (widths exUnits2) := by
  decide +kernel

/-- The units and batches of the example meet the hypotheses of the theorems above, and the thresholds are reached. -/
example : Ready exUnits2 (List.replicate 5 exBatch) := by
  refine ⟨by decide, ?_, ?_⟩
  · intro u hu
    simp only [exUnits2, List.mem_cons, List.not_mem_nil, or_false] at hu
    rcases hu with rfl | rfl <;> rfl
  · intro b hb
    rw [List.eq_of_mem_replicate hb]
    exact .cons rfl (.cons rfl .nil)

example : 0 < chain (widths exUnits2) ∧ Bounded exUnits2 0 ∧ AtMost 5 (List.replicate 5 exBatch) ∧
    (∀ t ∈ [(9 : ℚ) / 10, 4 / 5], chain ((widths exUnits2).map (min 1)) < t * chain (widths exUnits2)) ∧
    1 * excess exUnits2 + 1 * [(9 : ℚ) / 10, 4 / 5].length ≤ (List.replicate 5 exBatch).length ∧
    (train chain ⟨1, true⟩ 1 [9 / 10, 4 / 5] (List.replicate 5 exBatch) exUnits2).toOption.map
        (fun d => (d.saves.map fun s => (s.it, s.thr, widths s.units), d.ended)) =
      some ([(1, 9 / 10, [1, 2]), (2, 4 / 5, [1, 1])], some 2) := by
  refine ⟨by decide +kernel, ?_, ?_, by decide +kernel, by decide, by decide +kernel⟩
  · intro u hu x hx
    simp only [exUnits2, List.mem_cons, List.not_mem_nil, or_false] at hu
    rcases hu with rfl | rfl <;> simp at hx <;> exact ⟨0, hx, le_refl _⟩
  · intro b hb r hr x hx
    rw [List.eq_of_mem_replicate hb] at hr
    simp only [exBatch, List.mem_cons, List.not_mem_nil, or_false] at hr
    rcases hr with rfl | rfl
    · simp only [List.mem_cons, List.not_mem_nil, or_false] at hx
      rcases hx with rfl | rfl | rfl <;> exact ⟨_, rfl, by norm_num⟩
    · simp only [List.mem_cons, List.not_mem_nil, or_false] at hx
      rcases hx with rfl | rfl <;> exact ⟨_, rfl, by norm_num⟩

end Verif.FisherRun
