import Verif.Spec.Hooks

/-! Helper lemmas for `Verif/Props/Hooks.lean`. -/

namespace Verif.Hooks
open Verif

/-! ### Helpers -/

def Dump.step (h : Dump) (last : Nat) (s : DumpSt) (x : Nat) : DumpSt := if h.due last x then s.save h x else s

theorem step_fold (h : Dump) (last : Nat) (xs : List Nat) : ∀ s : DumpSt,
    xs.foldl (h.step last) s = { s with
      draws := s.draws + (xs.filter (h.due last)).length
      files := s.files ++ h.files (s.out.getD []) (xs.filter (h.due last)) s.draws } := by
  induction xs with
  | nil => intro s; simp [Dump.files]
  | cons x xs ih =>
    intro s
    rw [List.foldl_cons, ih]
    unfold Dump.step
    by_cases hx : h.due last x = true
    · rw [if_pos hx, List.filter_cons, if_pos hx]
      simp [DumpSt.save, Dump.files]
      omega
    · rw [if_neg hx, List.filter_cons, if_neg hx]

theorem everyN_iff (x : Nat) (n : Int) : everyN x n = (decide (0 < n) && decide (n ∣ ((x + 1 : Nat) : Int))) := by
  unfold everyN
  by_cases hn : 0 < n
  · simp only [hn, decide_true, Bool.true_and]
    rw [Bool.eq_iff_iff]
    simp only [beq_iff_eq, decide_eq_true_eq]
    rw [show ((x + 1 : Nat) : Int) = (x : Int) + 1 by push_cast; rfl, Int.dvd_iff_emod_eq_zero]
  · simp [hn]

theorem call_val (h : Dump) (t : Train) (work : Path) (s : DumpSt) (e : Nat) :
    (if t.validates (e + 1) then
      (List.range t.valBatches).map (Moment.valIter (e + 1) ((e + 1) * t.iters)) ++ [.valEpoch (e + 1) ((e + 1) * t.iters)]
    else []).foldl (h.call t work) s = s := by
  have : ∀ l : List Nat, (l.map (Moment.valIter (e + 1) ((e + 1) * t.iters))).foldl (h.call t work) s = s := by
    intro l
    induction l with
    | nil => rfl
    | cons x l ih => exact ih
  by_cases hv : t.validates (e + 1) = true
  · rw [if_pos hv, List.foldl_append, this]; rfl
  · rw [if_neg hv]; rfl

theorem epoch_fold (h : Dump) (hb : h.byEpoch = true) (t : Train) (work : Path) (s : DumpSt) (e : Nat) :
    (t.epoch e).foldl (h.call t work) s = h.step t.maxEpochs s (e + 1) := by
  unfold Train.epoch
  rw [List.foldl_append, List.foldl_append, call_val]
  have : ∀ l : List Nat, (l.map Moment.afterIter).foldl (h.call t work) s = s := by
    intro l
    induction l with
    | nil => rfl
    | cons x l ih =>
      rw [List.map_cons, List.foldl_cons]
      have : h.call t work s (.afterIter x) = s := by unfold Dump.call; simp [hb]
      rw [this, ih]
  rw [this]
  show h.call t work s (.afterEpoch e) = _
  unfold Dump.call Dump.step Dump.due
  simp only [everyN_iff, hb, Bool.not_true, Bool.false_eq_true, if_false]

theorem iter_fold (h : Dump) (hb : h.byEpoch = false) (t : Train) (work : Path) (e : Nat) (s : DumpSt) :
    (t.epoch e).foldl (h.call t work) s = (List.range' (e * t.iters + 1) t.iters).foldl (h.step (t.maxEpochs * t.iters)) s := by
  unfold Train.epoch
  rw [List.foldl_append, List.foldl_append, call_val]
  have h1 : ∀ s, [Moment.afterEpoch e].foldl (h.call t work) s = s := by
    intro s
    show h.call t work s (.afterEpoch e) = s
    unfold Dump.call
    simp [hb]
  rw [h1, List.foldl_map]
  have h2 : List.range' (e * t.iters + 1) t.iters = (List.range' (e * t.iters) t.iters).map (· + 1) := by
    rw [Nat.add_comm (e * t.iters) 1, ← List.map_add_range' (a := 1)]
    refine List.map_congr_left fun x _ => by omega
  rw [h2, List.foldl_map]
  have h3 : ∀ (s : DumpSt) (i : Nat), h.call t work s (.afterIter i) = h.step (t.maxEpochs * t.iters) s (i + 1) := by
    intro s i
    unfold Dump.call Dump.step Dump.due
    simp only [hb, Bool.false_eq_true, if_false, everyN_iff]
  simp only [h3]

theorem numbers (a : Nat) : ∀ (k start : Nat), (List.range' start k).flatMap (fun e => List.range' (e * a + 1) a) = List.range' (start * a + 1) (k * a)
  | 0, start => by simp
  | k + 1, start => by
    rw [List.range'_succ, List.flatMap_cons, numbers a k (start + 1), Nat.succ_mul k a, Nat.add_comm (k * a) a, ← List.range'_append_1]
    congr 2
    ring

theorem part_epoch (h : Dump) (hb : h.byEpoch = true) (t : Train) (work : Path) (start stop : Nat) (s : DumpSt) :
    (t.part start stop).foldl (h.call t work) s =
      (List.range' (start + 1) (stop - start)).foldl (h.step t.maxEpochs) (s.beforeTrain work) := by
  unfold Train.part
  rw [List.foldl_cons]
  show List.foldl _ (s.beforeTrain work) _ = _
  generalize s.beforeTrain work = s
  generalize stop - start = k
  induction k generalizing start s with
  | zero => rfl
  | succ k ih =>
    rw [List.range'_succ, List.flatMap_cons, List.foldl_append, ih, epoch_fold h hb, List.range'_succ, List.foldl_cons]

theorem part_iter (h : Dump) (hb : h.byEpoch = false) (t : Train) (work : Path) (start stop : Nat) (s : DumpSt) :
    (t.part start stop).foldl (h.call t work) s =
      (List.range' (start * t.iters + 1) ((stop - start) * t.iters)).foldl (h.step (t.maxEpochs * t.iters)) (s.beforeTrain work) := by
  unfold Train.part
  rw [List.foldl_cons]
  show List.foldl _ (s.beforeTrain work) _ = _
  generalize s.beforeTrain work = s
  generalize stop - start = k
  rw [← numbers]
  induction k generalizing start s with
  | zero => rfl
  | succ k ih =>
    rw [List.range'_succ, List.flatMap_cons, List.foldl_append, ih, iter_fold h hb, List.flatMap_cons, List.foldl_append]

theorem beforeTrain_start (h : Dump) (work : Path) : h.start.beforeTrain work = { h.start with out := some (h.folder work) } := by
  unfold Dump.start DumpSt.beforeTrain Dump.folder
  cases h.outDir with
  | none => simp
  | some o =>
    by_cases ho : o = work
    · simp [ho]
    · simp [ho]

theorem estimate_part (n : Int) (t : Train) (start k : Nat) :
    ((List.range' start k).flatMap t.epoch).filter (estimates n true) =
      ((List.range' (start + 1) k).filter fun e => t.validates e && (decide (0 < n) && decide (n ∣ ((e + 1 : Nat) : Int)))).map
        fun e => .valEpoch e (e * t.iters) := by
  induction k generalizing start with
  | zero => rfl
  | succ k ih =>
    rw [List.range'_succ, List.flatMap_cons, List.filter_append, ih, List.range'_succ, List.filter_cons]
    have e1 : ∀ l : List Nat, (l.map Moment.afterIter).filter (estimates n true) = [] := by
      intro l; rw [List.filter_map]; simp [Function.comp_def, estimates]
    have e2 : ∀ (l : List Nat) a b, (l.map (Moment.valIter a b)).filter (estimates n true) = [] := by
      intro l a b; rw [List.filter_map]; simp [Function.comp_def, estimates]
    have e3 : (t.epoch start).filter (estimates n true) =
        if (t.validates (start + 1) && (decide (0 < n) && decide (n ∣ ((start + 1 + 1 : Nat) : Int)))) = true
        then [.valEpoch (start + 1) ((start + 1) * t.iters)] else [] := by
      unfold Train.epoch
      rw [List.filter_append, List.filter_append, e1]
      by_cases hv : t.validates (start + 1) = true
      · rw [if_pos hv, List.filter_append, e2, ← everyN_iff, hv]
        simp only [Bool.true_and, List.nil_append]
        by_cases he : everyN (start + 1) n = true <;> simp [estimates, he]
      · rw [if_neg hv]
        simp [estimates, hv]
    rw [e3]
    by_cases hc : (t.validates (start + 1) && (decide (0 < n) && decide (n ∣ ((start + 1 + 1 : Nat) : Int)))) = true
    · rw [if_pos hc, if_pos hc, List.map_cons]; rfl
    · rw [if_neg hc, if_neg hc]; rfl

theorem estimate_run (n : Int) (t : Train) (start : Nat) : (t.run start).filter (estimates n true) =
      ((List.range' (start + 1) (t.maxEpochs - start)).filter fun e => t.validates e && (decide (0 < n) && decide (n ∣ ((e + 1 : Nat) : Int)))).map
        fun e => .valEpoch e (e * t.iters) := by
  unfold Train.run Train.part
  rw [List.filter_cons]
  exact estimate_part n t start _

theorem off_near (t f : ℚ) : off t f = !decide (Near t f) := by
  unfold off
  rw [Bool.eq_iff_iff]
  simp only [Bool.or_eq_true, decide_eq_true_eq, Bool.not_eq_true']
  rw [decide_eq_false_iff_not]
  unfold Near
  rw [not_and_or, not_le, not_le]
  tauto

/-- The search ends at the first subnet near the target. -/
theorem search_spec (flops : Nat → ℚ) (t : ℚ) : ∀ (fuel : Nat) (cur : ℚ) (d d' : Nat), ¬ Near t cur →
    search flops t fuel cur d = some d' → d < d' ∧ Near t (flops (d' - 1)) ∧ ∀ k, d ≤ k → k < d' - 1 → ¬ Near t (flops k)
  | 0, _, _, _, _, h => by cases h
  | fuel + 1, cur, d, d', hc, h => by
    unfold search at h
    rw [off_near, if_pos (by simpa using hc)] at h
    by_cases hn : Near t (flops d)
    · cases fuel with
      | zero => cases h
      | succ fuel =>
        unfold search at h
        rw [off_near, if_neg (by simpa using hn)] at h
        obtain rfl : d + 1 = d' := by simpa using h
        exact ⟨by omega, hn, fun k h1 h2 => by omega⟩
    · obtain ⟨h1, h2, h3⟩ := search_spec flops t fuel (flops d) (d + 1) d' hn h
      refine ⟨by omega, h2, fun k hk1 hk2 => ?_⟩
      by_cases he : k = d
      · exact he ▸ hn
      · exact h3 k (by omega) hk2

theorem search_ends (flops : Nat → ℚ) (t : ℚ) (m : Nat) (hm : Near t (flops m)) : ∀ (fuel : Nat) (cur : ℚ) (d : Nat), ¬ Near t cur →
    d ≤ m → m - d + 2 ≤ fuel → ∃ d', search flops t fuel cur d = some d' ∧ d' ≤ m + 1
  | 0, _, _, _, _, hf => by omega
  | fuel + 1, cur, d, hc, hd, hf => by
    unfold search
    rw [off_near, if_pos (by simpa using hc)]
    by_cases hn : Near t (flops d)
    · obtain ⟨f, rfl⟩ : ∃ f, fuel = f + 1 := ⟨fuel - 1, by omega⟩
      unfold search
      rw [off_near, if_neg (by simpa using hn)]
      exact ⟨d + 1, rfl, by omega⟩
    · have hne : d ≠ m := fun e => hn (e ▸ hm)
      exact search_ends flops t m hm fuel (flops d) (d + 1) hn (by omega) (by omega)

theorem search_mono (flops : Nat → ℚ) (t : ℚ) : ∀ (fuel fuel' : Nat) (cur : ℚ) (d d' : Nat), fuel ≤ fuel' →
    search flops t fuel cur d = some d' → search flops t fuel' cur d = some d'
  | 0, _, _, _, _, _, h => by cases h
  | fuel + 1, fuel', cur, d, d', hf, h => by
    obtain ⟨f, rfl⟩ : ∃ f, fuel' = f + 1 := ⟨fuel' - 1, by omega⟩
    unfold search at h ⊢
    by_cases ho : off t cur = true
    · rw [if_pos ho] at h ⊢
      exact search_mono flops t fuel f _ _ _ (by omega) h
    · rw [if_neg ho] at h ⊢
      exact h

theorem not_near_start {t : ℚ} (ht : 0 < t) : ¬ Near t (t * 10) := by
  rintro ⟨_, h⟩
  nlinarith

/-- The turns of the loop: the hits among the subnets drawn, in order. -/
theorem turns_spec (flops : Nat → ℚ) (t : ℚ) (ht : 0 < t) (num fuel : Nat) : ∀ (is : List Nat) (d d' : Nat) (fs : List (String × Content)),
    turns flops t num fuel is d = some (fs, d') →
    d ≤ d' ∧ ∃ ks : List Nat, ks = (List.range' d (d' - d)).filter (fun k => decide (Near t (flops k))) ∧ ks.length = is.length ∧
      fs = List.zipWith (fun i k => if i = num then ("excepted_ch.json", .expected) else (s!"subnet_{i + 1}.json", .direct k)) is ks
  | [], d, d', fs, h => by
    obtain ⟨rfl, rfl⟩ : [] = fs ∧ d = d' := by simpa [turns] using h
    exact ⟨le_refl _, [], by simp, rfl, rfl⟩
  | i :: is, d, d', fs, h => by
    unfold turns turn at h
    cases hs : search flops t fuel (t * 10) d with
    | none => rw [hs] at h; cases h
    | some d1 =>
      rw [hs] at h
      obtain ⟨a1, a2, a3⟩ := search_spec flops t fuel _ _ _ (not_near_start ht) hs
      have hh : ∃ fs', turns flops t num fuel is d1 = some (fs', d') ∧
          fs = (if i = num then ("excepted_ch.json", .expected) else (s!"subnet_{i + 1}.json", .direct (d1 - 1))) :: fs' := by
        by_cases hi : i = num
        · simp only [if_pos hi] at h ⊢
          cases ht : turns flops t num fuel is d1 with
          | none => rw [ht] at h; cases h
          | some p =>
            rw [ht] at h
            obtain ⟨h1, h2⟩ : _ ∧ _ := by simpa using h
            exact ⟨p.1, by rw [← h2], h1.symm⟩
        · simp only [if_neg hi] at h ⊢
          cases ht : turns flops t num fuel is d1 with
          | none => rw [ht] at h; cases h
          | some p =>
            rw [ht] at h
            obtain ⟨h1, h2⟩ : _ ∧ _ := by simpa using h
            exact ⟨p.1, by rw [← h2], h1.symm⟩
      obtain ⟨fs', h1, rfl⟩ := hh
      obtain ⟨b0, ks, b1, b2, b3⟩ := turns_spec flops t ht num fuel is d1 d' fs' h1
      refine ⟨by omega, (d1 - 1) :: ks, ?_, by simp [b2], ?_⟩
      · have e1 : List.range' d (d' - d) = List.range' d (d1 - 1 - d) ++ ((d1 - 1) :: List.range' d1 (d' - d1)) := by
          have : List.range' d (d' - d) = List.range' d (d1 - 1 - d) ++ List.range' (d + (d1 - 1 - d)) (d' - d1 + 1) := by
            rw [List.range'_append_1]; congr 1; omega
          rw [this, show d + (d1 - 1 - d) = d1 - 1 by omega, List.range'_succ, show d1 - 1 + 1 = d1 by omega]
        rw [e1, List.filter_append, List.filter_cons, if_pos (by simpa using a2), ← b1]
        have : (List.range' d (d1 - 1 - d)).filter (fun k => decide (Near t (flops k))) = [] := by
          rw [List.filter_eq_nil_iff]
          intro k hk
          have := List.mem_range'_1.1 hk
          simpa using a3 k this.1 (by omega)
        rw [this]
        rfl
      · rw [b3]
        rfl

theorem turns_mono (flops : Nat → ℚ) (t : ℚ) (num fuel fuel' : Nat) (hf : fuel ≤ fuel') : ∀ (is : List Nat) (d : Nat) (r : List (String × Content) × Nat),
    turns flops t num fuel is d = some r → turns flops t num fuel' is d = some r
  | [], d, r, h => h
  | i :: is, d, r, h => by
    unfold turns turn at h ⊢
    cases hs : search flops t fuel (t * 10) d with
    | none => rw [hs] at h; cases h
    | some d1 =>
      rw [hs] at h
      rw [search_mono flops t fuel fuel' _ _ _ hf hs]
      by_cases hi : i = num
      all_goals
        simp only [hi, if_true, if_false] at h ⊢
        cases ht : turns flops t num fuel is d1 with
        | none => rw [ht] at h; cases h
        | some p =>
          rw [turns_mono flops t num fuel fuel' hf is d1 p ht]
          rw [ht] at h
          exact h

theorem turns_ends (flops : Nat → ℚ) (t : ℚ) (ht : 0 < t) (num : Nat) : ∀ (is : List Nat) (d m : Nat),
    is.length ≤ ((List.range' d m).filter fun k => decide (Near t (flops k))).length →
    ∃ fuel r, turns flops t num fuel is d = some r
  | [], d, m, _ => ⟨0, _, rfl⟩
  | i :: is, d, m, h => by
    set l := (List.range' d m).filter fun k => decide (Near t (flops k)) with hl
    obtain ⟨k, ks, hk⟩ : ∃ k ks, l = k :: ks := by
      cases hc : l with
      | nil => rw [hc] at h; simp at h
      | cons k ks => exact ⟨k, ks, rfl⟩
    have hmem : k ∈ l := by rw [hk]; simp
    rw [hl, List.mem_filter, List.mem_range'_1] at hmem
    have hn : Near t (flops k) := by simpa using hmem.2
    obtain ⟨d1, hs, hd1⟩ := search_ends flops t k hn (k - d + 2) (t * 10) d (not_near_start ht) hmem.1.1 (le_refl _)
    obtain ⟨a1, a2, a3⟩ := search_spec flops t _ _ _ _ (not_near_start ht) hs
    -- the remaining hits
    have hrest : is.length ≤ ((List.range' d1 (d + m - d1)).filter fun k => decide (Near t (flops k))).length := by
      have e1 : List.range' d m = List.range' d (d1 - 1 - d) ++ ((d1 - 1) :: List.range' d1 (d + m - d1)) := by
        have : List.range' d m = List.range' d (d1 - 1 - d) ++ List.range' (d + (d1 - 1 - d)) (d + m - d1 + 1) := by
          rw [List.range'_append_1]; congr 1; omega
        rw [this, show d + (d1 - 1 - d) = d1 - 1 by omega, List.range'_succ, show d1 - 1 + 1 = d1 by omega]
      have e2 : (List.range' d (d1 - 1 - d)).filter (fun k => decide (Near t (flops k))) = [] := by
        rw [List.filter_eq_nil_iff]
        intro k hk
        have := List.mem_range'_1.1 hk
        simpa using a3 k this.1 (by omega)
      rw [hl, e1, List.filter_append, e2, List.nil_append, List.filter_cons, if_pos (by simpa using a2)] at h
      simpa using h
    obtain ⟨fuel, r, hr⟩ := turns_ends flops t ht num is d1 _ hrest
    refine ⟨max (k - d + 2) fuel, ?_⟩
    unfold turns turn
    rw [search_mono flops t _ (max (k - d + 2) fuel) _ _ _ (le_max_left _ _) hs]
    by_cases hi : i = num
    all_goals
      simp only [hi, if_true, if_false]
      rw [turns_mono flops t num fuel _ (le_max_right _ _) is d1 r hr]
      exact ⟨_, rfl⟩

end Verif.Hooks
