import Verif.Lemmas.BnSearch

namespace Verif.BnSearch
open Verif DynamicOps DynamicNorm

variable {X : Type}

/-- What calibration does to a layer with any mask: with `c` active channels, the first `c`
entries of the statistics become the averages of the first, second, … active channel, a
later entry of an inactive channel is as before, and a later entry of an active channel has
made the steps of training with momentum. The candidate is scored with the entries of its
mask. Nothing else of the layer changes. -/
theorem C108_stored (o : Ops X) (b : BN) (h : b.WF) (d : List Pair) (hd : b.stats = some d) (m : List Bool)
    (hm : m.length = b.num) (xs : List (Nat × List X)) (hx : Batches b.num xs) (n : Int) (hn : 0 < n) :
    ∃ (b' : BN) (d' : List Pair), trial o n b ⟨m, passed m xs⟩ = .ok (b', some (active m d')) ∧
      b'.stats = some d' ∧ d'.length = b.num ∧
      (∀ j < count m, d'[j]? = some (averages o j (passed m xs))) ∧
      (∀ i : Nat, count m ≤ i → m[i]? = some false → d'[i]? = d[i]?) ∧
      (∀ f, b.momentum = some f → ∀ (i : Nat) s, count m ≤ i → d[i]? = some s →
        d'[i]? = some (channelHistory o f i (xs.map fun p => (m, p.2)) s)) ∧
      b'.affine = b.affine ∧ b'.num = b.num ∧ b'.momentum = b.momentum ∧ b'.mask = some m ∧ b'.training = false := by
  obtain ⟨t, d0, d', e1, e2, e3, e4, e5⟩ := trial_ok o b h d hd m hm xs hx n hn
  have hc := count_le m
  have hlate : ∀ i : Nat, count m ≤ i → d'[i]? = d0[i]? := by
    intro i hi
    rw [e2, List.getElem?_append_right (by simpa using hi), List.getElem?_drop]
    simp only [List.length_map, List.length_range]
    congr 1; omega
  refine ⟨_, d', e1, rfl, by rw [e2]; simp; omega, ?_, ?_, ?_, rfl, rfl, rfl, rfl, rfl⟩
  · intro j hj
    rw [e2, List.getElem?_append_left (by simpa using hj)]
    simp [hj]
  · intro i hi hf
    rw [hlate i hi, e4 i hf]
  · intro f hf i s hi hs
    rw [hlate i hi, e5 f hf i s hs]

example : ∃ b' d', trial numOps 10 bn3 ⟨[true, false, true], passed [true, false, true] [(2, [4, 5, 6]), (1, [7, 8, 9])]⟩ =
      .ok (b', some (active [true, false, true] d')) ∧ b'.stats = some d' ∧ d'[1]? = some (7, 1) := by
  obtain ⟨b', d', h1, h2, _, h4, _⟩ := C108_stored numOps bn3 ⟨by decide +kernel, by decide +kernel, nofun⟩ _ rfl
    [true, false, true] rfl [(2, [4, 5, 6]), (1, [7, 8, 9])] ⟨by decide +kernel, by decide +kernel⟩ 10 (by decide)
  exact ⟨b', d', h1, h2, by rw [h4 1 (by decide)]; decide +kernel⟩

/-- With the first `k` channels active (as slimmable units choose), a calibrated candidate
is scored with exactly the averages over its own batches, whatever was evaluated or
trained before; the other channels keep their statistics. (Partial: not for other masks,
see `C108_mask_violated`.) -/
theorem C108_calibrated_partial (o : Ops X) (b : BN) (h : b.WF) (d : List Pair) (hd : b.stats = some d) (k : Nat)
    (hk : k ≤ b.num) (xs : List (Nat × List X)) (hx : Batches b.num xs) (n : Int) (hn : 0 < n) :
    ∃ b' : BN, trial o n b (slim b.num (k, xs)) = .ok (b', some ((List.range k).map fun j => averages o j xs)) ∧
      b'.stats = some ((List.range k).map (fun j => averages o j xs) ++ d.drop k) ∧
      b'.WF ∧ b'.affine = b.affine ∧ b'.num = b.num := by
  have hml := first_length hk
  obtain ⟨t, d0, d', e1, e2, e3, e4, e5⟩ := trial_ok o b h d hd (firstChannels k b.num) hml xs hx n hn
  rw [count_first] at e2
  have hav : ∀ j < k, averages o j (passed (firstChannels k b.num) xs) = averages o j xs := by
    intro j hj
    have hs : samples (passed (firstChannels k b.num) xs) = samples xs := by simp [samples, passed, Function.comp_def]
    have hp : ∀ x : List X, (active (firstChannels k b.num) x)[j]? = x[j]? := by
      intro x
      rw [firstChannels, active_first, List.getElem?_take]
      simp [hj]
    simp only [averages, average, hs]
    simp only [passed, List.map_map, Function.comp_def, hp]
  have hmap : (List.range k).map (fun j => averages o j (passed (firstChannels k b.num) xs)) =
      (List.range k).map fun j => averages o j xs :=
    List.map_congr_left fun j hj => hav j (by simpa using hj)
  rw [hmap] at e2
  have hdl := h.stats d hd
  have hdrop : d0.drop k = d.drop k := by
    apply List.ext_getElem?
    intro i
    simp only [List.getElem?_drop]
    by_cases hi : k + i < b.num
    · exact e4 _ (first_get (by omega) hi)
    · rw [List.getElem?_eq_none (by omega), List.getElem?_eq_none (by omega)]
  rw [hdrop] at e2
  have hact : active (firstChannels k b.num) d' = (List.range k).map fun j => averages o j xs := by
    rw [firstChannels, active_first, e2, List.take_append_of_le_length (by simp), List.take_of_length_le (by simp)]
  refine ⟨{ b with tracked := t, stats := some d', mask := some (firstChannels k b.num), training := false }, ?_, by rw [← e2],
    ⟨h.affine, ?_, ?_⟩, rfl, rfl⟩
  · rw [← hact]; exact e1
  · intro ps hps
    simp only [Option.some.injEq] at hps
    rw [← hps, e2]; simp; omega
  · intro m' hm'
    simp only [Option.some.injEq] at hm'
    rw [← hm']; exact hml

example : ∃ b' : BN, trial numOps 10 bn3 (slim 3 (2, [(2, [4, 5, 6]), (1, [7, 8, 9])])) = .ok (b', some [(5, 1), (6, 1)]) ∧
    b'.stats = some [(5, 1), (6, 1), (0, 1)] := by
  obtain ⟨b', h1, h2, _⟩ := C108_calibrated_partial numOps bn3 ⟨by decide +kernel, by decide +kernel, nofun⟩ _ rfl 2 (by decide)
    [(2, [4, 5, 6]), (1, [7, 8, 9])] ⟨by decide +kernel, by decide +kernel⟩ 10 (by decide)
  refine ⟨b', h1.trans ?_, h2.trans ?_⟩
  · exact congrArg (fun q => Except.ok (b', some q)) (by decide +kernel)
  · exact congrArg some (by decide +kernel)

/-- DISAGREEMENT: with a mask whose active channels are not the first ones (as units of
`L1MutableChannelUnit` or one hot choices give), calibration writes the averages to the
wrong entries. An active channel at a position not below the number of active channels
keeps statistics that depend on what came before (for a momentum below 1): two layers that
differ there only are scored differently after the same calibration; and the entry of an
inactive leading channel is replaced by the averages of another channel. -/
theorem C108_mask_violated (o : Ops X) (b : BN) (h : b.WF) (d : List Pair) (hd : b.stats = some d) (m : List Bool)
    (hm : m.length = b.num) (xs : List (Nat × List X)) (hx : Batches b.num xs) (n : Int) (hn : 0 < n) (f : ℚ)
    (hf : b.momentum = some f) (hf1 : f ≠ 1) (i : Nat) (hi : count m ≤ i) (d2 : List Pair) (hl : d2.length = d.length)
    (s s2 : Pair) (hs : d[i]? = some s) (hs2 : d2[i]? = some s2) (hne : s ≠ s2) :
    ∃ (b1 b2 : BN) (e1 e2 : List Pair), trial o n b ⟨m, passed m xs⟩ = .ok (b1, some (active m e1)) ∧
      trial o n { b with stats := some d2 } ⟨m, passed m xs⟩ = .ok (b2, some (active m e2)) ∧
      b1.stats = some e1 ∧ b2.stats = some e2 ∧ e1[i]? ≠ e2[i]? ∧
      (∀ j < count m, e1[j]? = some (averages o j (passed m xs))) := by
  have hw2 : ({ b with stats := some d2 } : BN).WF :=
    ⟨h.affine, fun ps hps => by
      simp only [Option.some.injEq] at hps
      rw [← hps, hl]; exact h.stats d hd, h.mask⟩
  obtain ⟨b1, e1, p1, p2, _, p4, _, p6, _⟩ := C108_stored o b h d hd m hm xs hx n hn
  obtain ⟨b2, e2, q1, q2, _, _, _, q6, _⟩ := C108_stored o { b with stats := some d2 } hw2 d2 rfl m hm xs hx n hn
  refine ⟨b1, b2, e1, e2, p1, q1, p2, q2, ?_, p4⟩
  rw [p6 f hf i s hi hs, q6 f hf i s2 hi hs2]
  intro hc
  simp only [Option.some.injEq] at hc
  exact hne (history_inj o f hf1 i _ s s2 hc)

example :
    (trial numOps 10 bn3 ⟨[false, false, true], passed [false, false, true] [(2, [4, 5, 6])]⟩).toOption.map
      (fun r => (r.1.stats, r.2)) = some (some [(6, 1), (0, 1), (3, 1)], some [(3, 1)]) ∧
    (trial numOps 10 { bn3 with stats := some [(0, 1), (0, 1), (8, 1)] }
      ⟨[false, false, true], passed [false, false, true] [(2, [4, 5, 6])]⟩).toOption.map (·.2) = some (some [(7, 1)]) := by
  decide +kernel

/-- Candidates of widths validated one after the other: each is scored with the averages
over its own batches, and at the end every channel holds the averages of the last candidate
it took part in (or what it had before, if in none). Missing: masks that do not keep the first channels, see
`C108_mask_violated`. -/
theorem C108_search_partial (o : Ops X) (n : Int) (hn : 0 < n) : ∀ (ts : List (Nat × List (Nat × List X))) (b : BN), b.WF →
    ∀ (d : List Pair), b.stats = some d → (∀ t ∈ ts, t.1 ≤ b.num ∧ Batches b.num t.2) →
    ∃ (b' : BN) (d' : List Pair), search o n b (ts.map (slim b.num)) =
        .ok (b', ts.map fun t => some ((List.range t.1).map fun j => averages o j t.2)) ∧
      b'.stats = some d' ∧ b'.WF ∧ b'.num = b.num ∧ b'.affine = b.affine ∧
      ∀ i < b.num, d'[i]? = match lastWith i ts with
        | some t => some (averages o i t.2)
        | none => d[i]? := by
  intro ts
  induction ts with
  | nil => intro b h d hd _; exact ⟨b, d, rfl, hd, h, rfl, rfl, fun i _ => rfl⟩
  | cons t ts ih =>
    intro b h d hd ht
    obtain ⟨k, xs⟩ := t
    obtain ⟨hk, hx⟩ := ht (k, xs) (by simp)
    obtain ⟨b1, a1, a2, a3, a4, a5⟩ := C108_calibrated_partial o b h d hd k hk xs hx n hn
    obtain ⟨b', d', c1, c2, c3, c4, c5, c6⟩ := ih b1 a3 _ a2 (fun t h' => by rw [a5]; exact ht t (by simp [h']))
    rw [a5] at c1
    refine ⟨b', d', ?_, c2, c3, by rw [c4, a5], by rw [c5, a4], ?_⟩
    · simp only [List.map_cons, search, a1, c1, Bind.bind, Except.bind, pure, Except.pure]
    · intro i hi
      rw [c6 i (by omega)]
      simp only [lastWith, List.reverse_cons, List.find?_append]
      cases hl : ts.reverse.find? fun t => decide (i < t.1) with
      | some t => simp
      | none =>
        have hdl := h.stats d hd
        by_cases hik : i < k
        · rw [List.getElem?_append_left (by simpa using hik)]
          simp [List.find?, hik]
        · rw [List.getElem?_append_right (by simp; omega), List.getElem?_drop]
          have : k + (i - k) = i := by omega
          simp [List.find?, hik, this]

example : (search numOps 10 bn3 ([(2, [(1, [4, 5, 6])]), (1, [(1, [7, 8, 9])])].map (slim 3))).toOption.map
      (fun r => (r.1.stats, r.2)) = some (some [(7, 1), (5, 1), (0, 1)], [some [(4, 1), (5, 1)], some [(7, 1)]]) := by
  decide +kernel

/-- If the best candidate was the last one validated, the saved model has the statistics it
was scored with. Missing: a best candidate that was not the last one, see `C108_saved_violated`. -/
theorem C108_saved_partial (o : Ops X) (n : Int) (hn : 0 < n) (ts : List (Nat × List (Nat × List X)))
    (t : Nat × List (Nat × List X)) (b : BN) (h : b.WF) (d : List Pair) (hd : b.stats = some d)
    (ht : ∀ u ∈ ts ++ [t], u.1 ≤ b.num ∧ Batches b.num u.2) :
    ∃ (b' s : BN) (scores : List (Option (List Pair))), search o n b ((ts ++ [t]).map (slim b.num)) = .ok (b', scores) ∧
      saved b' (firstChannels t.1 b.num) = .ok s ∧ scores.getLast? = some s.stats ∧
      s.stats = some ((List.range t.1).map fun j => averages o j t.2) ∧ s.num = t.1 := by
  obtain ⟨b', d', c1, c2, c3, c4, c5, c6⟩ := C108_search_partial o n hn (ts ++ [t]) b h d hd ht
  obtain ⟨s, e1, e2, e3⟩ := saved_first b' c3 d' c2 t.1 (by rw [c4]; exact (ht t (by simp)).1)
  rw [c4] at e1
  have htk := (ht t (by simp)).1
  have hd' : d'.take t.1 = (List.range t.1).map fun j => averages o j t.2 := by
    have hdl' := c3.stats d' c2
    apply List.ext_getElem?
    intro i
    rw [List.getElem?_take]
    by_cases hi : i < t.1
    · rw [if_pos hi, c6 i (by omega)]
      simp [lastWith, hi]
    · rw [if_neg hi, List.getElem?_eq_none (by simp; omega)]
  exact ⟨b', s, _, c1, e1, by rw [e2, hd']; simp, by rw [e2, hd'], e3⟩

example : ((search numOps 10 bn3 ([(1, [(1, [7, 8, 9])]), (2, [(1, [4, 5, 6])])].map (slim 3))).toOption.bind
      (fun r => (saved r.1 [true, true, false]).toOption.map (·.stats))) = some (some [(4, 1), (5, 1)]) := by
  decide +kernel

/-- DISAGREEMENT: the search saves the weights of the best candidate without calibrating it
again. If any candidate with at least one channel is validated after it, the first channel
of the saved model has the averages of the last such candidate, not those the best one was
scored with. -/
theorem C108_saved_violated (o : Ops X) (n : Int) (hn : 0 < n) (before after : List (Nat × List (Nat × List X)))
    (t last : Nat × List (Nat × List X)) (b : BN) (h : b.WF) (d : List Pair) (hd : b.stats = some d)
    (ht : ∀ u ∈ before ++ t :: after ++ [last], u.1 ≤ b.num ∧ Batches b.num u.2) (h1 : 0 < t.1) (h2 : 0 < last.1)
    (hne : averages o 0 t.2 ≠ averages o 0 last.2) :
    ∃ (b' s : BN) (scores : List (Option (List Pair))),
      search o n b ((before ++ t :: after ++ [last]).map (slim b.num)) = .ok (b', scores) ∧
      saved b' (firstChannels t.1 b.num) = .ok s ∧
      scores[before.length]? = some (some ((List.range t.1).map fun j => averages o j t.2)) ∧
      (∃ q, s.stats = some q ∧ q.length = t.1 ∧ q[0]? = some (averages o 0 last.2)) ∧
      scores[before.length]? ≠ some s.stats := by
  obtain ⟨b', d', c1, c2, c3, c4, c5, c6⟩ := C108_search_partial o n hn (before ++ t :: after ++ [last]) b h d hd ht
  have htk := (ht t (by simp)).1
  obtain ⟨s, e1, e2, e3⟩ := saved_first b' c3 d' c2 t.1 (by rw [c4]; exact htk)
  rw [c4] at e1
  have hdl' := c3.stats d' c2
  have h0 : (d'.take t.1)[0]? = some (averages o 0 last.2) := by
    rw [List.getElem?_take, if_pos h1, c6 0 (by omega)]
    simp [lastWith, h2]
  have hsc : ((before ++ t :: after ++ [last]).map fun t => some ((List.range t.1).map fun j => averages o j t.2))[before.length]? =
      some (some ((List.range t.1).map fun j => averages o j t.2)) := by
    rw [List.getElem?_map, List.append_assoc, List.getElem?_append_right (le_refl _)]
    simp
  refine ⟨b', s, _, c1, e1, hsc, ⟨_, e2, by simp; omega, h0⟩, ?_⟩
  rw [hsc, e2]
  intro hc
  simp only [Option.some.injEq] at hc
  rw [← hc] at h0
  rw [List.getElem?_map, List.getElem?_range h1] at h0
  exact hne (by simpa using h0)

example : ((search numOps 10 bn3 ([(2, [(1, [4, 5, 6])]), (1, [(1, [7, 8, 9])])].map (slim 3))).toOption.bind
      (fun r => (saved r.1 [true, true, false]).toOption.map (·.stats))) = some (some [(7, 1), (5, 1)]) := by
  decide +kernel

/-- Without calibration nothing is changed by validating candidates: each is scored with,
and saved with, the statistics of the trained network. -/
theorem C108_uncalibrated (o : Ops X) (n : Int) (hn : n ≤ 0) (ts : List (Trial X)) : ∀ (b : BN), b.WF →
    ∀ (d : List Pair), b.stats = some d → (∀ t ∈ ts, t.mask.length = b.num) →
    ∃ b' : BN, search o n b ts = .ok (b', ts.map fun t => some (active t.mask d)) ∧ b'.stats = some d ∧ b'.WF ∧
      b'.num = b.num ∧ b'.tracked = b.tracked ∧
      ∀ t ∈ ts, ∃ s, saved b' t.mask = .ok s ∧ s.stats = some (active t.mask d) := by
  have key : ∀ b : BN, b.WF → ∀ d, b.stats = some d → (∀ t ∈ ts, t.mask.length = b.num) →
      ∃ b' : BN, search o n b ts = .ok (b', ts.map fun t => some (active t.mask d)) ∧ b'.stats = some d ∧ b'.WF ∧
        b'.num = b.num ∧ b'.tracked = b.tracked := by
    induction ts with
    | nil => intro b h d hd _; exact ⟨b, rfl, hd, h, rfl, rfl⟩
    | cons t ts ih =>
      intro b h d hd ht
      have hml := ht t (by simp)
      have hdl := h.stats d hd
      have hw : ({ b with mask := some t.mask, training := false } : BN).WF :=
        ⟨h.affine, h.stats, fun m' hm' => by simp only [Option.some.injEq] at hm'; rw [← hm']; exact hml⟩
      obtain ⟨b', e1, e2, e3, e4, e5⟩ := ih _ hw d hd (fun t h' => ht t (by simp [h']))
      refine ⟨b', ?_, e2, e3, e4, e5⟩
      have htr : trial o n b t = .ok ({ b with mask := some t.mask, training := false }, some (active t.mask d)) := by
        simp only [trial, prepare, if_neg (show ¬ 0 < n by omega), Bind.bind, Except.bind, BN.outMask, Option.getD_some, hd]
        rw [sliceOpt_ok _ _ (by intro q hq; simp only [Option.some.injEq] at hq; rw [← hq]; omega)]
        simp [pure, Except.pure, select_eq_active]
      simp only [search, htr, Bind.bind, Except.bind, e1, pure, Except.pure, List.map_cons]
  intro b h d hd ht
  obtain ⟨b', e1, e2, e3, e4, e5⟩ := key b h d hd ht
  refine ⟨b', e1, e2, e3, e4, e5, fun t ht' => ?_⟩
  obtain ⟨s, s1, s2, _⟩ := saved_ok b' e3 d e2 t.mask (by rw [e4]; exact ht t ht')
  exact ⟨s, s1, s2⟩

example : ∃ b' : BN, (search numOps 0 bn3 [⟨[true, false, true], [(1, [4, 6])]⟩]) = .ok (b', [some [(0, 1), (0, 1)]]) :=
  ⟨_, rfl⟩

/-- A layer no batch reaches under the candidate (its branch is not chosen) keeps everything. -/
theorem C108_skipped (o : Ops X) (b : BN) (h : b.WF) (d : List Pair) (hd : b.stats = some d) (m : List Bool)
    (hm : m.length = b.num) (n : Int) :
    trial o n b ⟨m, []⟩ = .ok ({ b with mask := some m, training := false }, some (active m d)) := by
  have hdl := h.stats d hd
  have hsl : sliceOpt m (some d) = .ok (some (active m d)) := by
    rw [sliceOpt_ok _ _ (by intro q hq; simp only [Option.some.injEq] at hq; rw [← hq]; omega)]
    simp [select_eq_active]
  by_cases hn : 0 < n
  · simp [trial, prepare, if_pos hn, calibrate, observe, storeMeter, Meter.avg, Bind.bind, Except.bind, BN.outMask, hd, hsl,
      pure, Except.pure]
  · simp [trial, prepare, if_neg hn, Bind.bind, Except.bind, BN.outMask, hd, hsl, pure, Except.pure]

example : (trial numOps 10 bn3 ⟨[true, true, false], []⟩).toOption.map (·.2) = some (some [(0, 1), (0, 1)]) := by decide +kernel

/-- A layer without running statistics through which at least one sample goes cannot be
calibrated: its missing statistics are indexed. -/
theorem C108_untracked (o : Ops X) (b : BN) (h : b.WF) (hd : b.stats = none) (m : List Bool)
    (hm : m.length = b.num) (xs : List (Nat × List X)) (hx : Batches b.num xs) (n : Int) (hn : 0 < n) :
    trial o n b ⟨m, passed m xs⟩ = .error .type := by
  have hw : ({ b with mask := some m, training := true } : BN).WF :=
    ⟨h.affine, h.stats, fun m' hm' => by simp only [Option.some.injEq] at hm'; rw [← hm']; exact hm⟩
  obtain ⟨b', e1, e2⟩ := observe_none o m xs { b with mask := some m, training := true } ⟨none, 0⟩ hw hd rfl hx.1
  simp [trial, prepare, if_pos hn, calibrate, e1, Bind.bind, Except.bind, storeMeter, passed_avg o m b.num hm xs hx, store, e2]

example : trial numOps 10 { bn3 with stats := none } ⟨[true, true, false], passed [true, true, false] [(1, [4, 5, 6])]⟩ =
    .error .type :=
  C108_untracked numOps _ ⟨by decide +kernel, fun _ h => by simp at h, fun _ h => by simp [bn3] at h⟩ rfl _ rfl [(1, [4, 5, 6])] ⟨by decide +kernel, by decide⟩ 10
    (by decide)

/-- DISAGREEMENT: calibrating a switchable layer at a slim width stores the averages not
only in the layer of that width (all of its statistics become the averages) but also in
the first channels of the layer of the full width, through which no sample went. The layers
of the other widths keep their statistics. -/
theorem C108_switch_violated (o : Ops X) (s : Switch) (d : List Pair) (ho : s.own.WF) (hd : s.own.stats = some d)
    (hk : count s.own.outMask ≠ s.own.num) (c : BN) (hc : s.cands.lookup (count s.own.outMask) = some c) (hw : c.WF)
    (hn : c.num = count s.own.outMask) (hm : c.mask = none) (dc : List Pair) (hdc : c.stats = some dc)
    (xs : List (Nat × List X)) (hx : Batches c.num xs) :
    ∃ s' : Switch, calibrateSwitch o s xs = .ok s' ∧
      s'.own.stats = some ((List.range c.num).map (fun j => averages o j xs) ++ d.drop c.num) ∧
      (∃ c', s'.cands.lookup c.num = some c' ∧ c'.stats = some ((List.range c.num).map fun j => averages o j xs)) ∧
      ∀ j, j ≠ c.num → (s'.cands.lookup j).map (·.stats) = (s.cands.lookup j).map (·.stats) := by
  have hml := outMask_length ho
  have hcl := count_le s.own.outMask
  have hdl := ho.stats d hd
  have hdcl := hw.stats dc hdc
  have hpt := passed_true c.num xs hx.1
  have hlk : (trainSwitch s).cands.lookup (count (trainSwitch s).own.outMask) = some (toTrain c) := by
    have : (trainSwitch s).own.outMask = s.own.outMask := rfl
    rw [this, trainSwitch, lookup_tr toTrain, hc]; rfl
  obtain ⟨t, d', e1, e2, _⟩ := observe_ok o (List.replicate c.num true) xs (toTrain c) ⟨none, 0⟩ dc
    ⟨hw.affine, hw.stats, hw.mask⟩ rfl hdc (by simp [BN.outMask, hm, toTrain]) hx.1
  rw [hpt] at e1
  have hav := meters_avg o c.num xs hx.1 hx.2
  have eS := observeSwitch_ok o xs (trainSwitch s) ⟨none, 0⟩ _ _ _ hk hlk e1
  have e2' : d'.length = c.num := e2
  generalize hc1 : ({ toTrain c with tracked := t, stats := some d' } : BN) = c1 at eS
  have hst1 : c1.stats = some d' := by rw [← hc1]
  have hl2 := lookup_setCand_self _ c1 _ _ hlk
  obtain ⟨own, hown⟩ : ∃ own : BN, own = { (trainSwitch s).own with
      stats := some ((List.range c.num).map (fun j => averages o j xs) ++ d.drop c.num) } := ⟨_, rfl⟩
  have hso : storeMeter (meters o ⟨none, 0⟩ xs) (trainSwitch s).own = .ok own := by
    have hd2 : (trainSwitch s).own.stats = some d := hd
    simp only [storeMeter, hav, store, hd2, List.length_map, List.length_range]
    rw [if_neg (by omega), hown]
  have hom : count own.outMask = count (trainSwitch s).own.outMask := by rw [hown]; rfl
  have hnum : own.num = s.own.num := by rw [hown]; rfl
  have hos : (trainSwitch s).own.outMask = s.own.outMask := rfl
  have hsc : storeMeter (meters o ⟨none, 0⟩ xs) c1 =
      .ok { c1 with stats := some ((List.range c.num).map fun j => averages o j xs) } := by
    simp only [storeMeter, hav, store, hst1, List.length_map, List.length_range]
    rw [if_neg (by omega), List.drop_of_length_le (by omega), List.append_nil]
  simp only [calibrateSwitch, eS, Bind.bind, Except.bind, hso, hom, hl2, hsc]
  rw [hos, hnum, if_neg hk]
  refine ⟨_, rfl, by rw [hown], ⟨{ c1 with stats := some ((List.range c.num).map fun j => averages o j xs) }, ?_, ?_⟩, ?_⟩
  · rw [hn]
    rw [hos] at hl2
    exact lookup_setCand_self _ _ _ _ hl2
  · rfl
  · intro j hj
    rw [hn] at hj
    rw [lookup_setCand _ _ _ _ hj, lookup_setCand _ _ _ _ hj, trainSwitch, lookup_tr toTrain]
    cases s.cands.lookup j <;> rfl

example : (calibrateSwitch numOps ⟨{ bn3 with mask := some [true, true, false] }, [(2, bn2 none), (1, ⟨1, none, some [(9, 1)], 0, none, none, true⟩)]⟩
      [(1, [4, 5])]).toOption.map (fun s => (s.own.stats, s.cands.map (·.2.stats))) =
    some (some [(4, 1), (5, 1), (0, 1)], [some [(4, 1), (5, 1)], some [(9, 1)]]) := by
  decide +kernel

/-- Statistics of more features than the layer keeps cannot be stored; a layer without statistics cannot take any. -/
theorem C108_refused (avg : List Pair) (b : BN) :
    (store avg b = .error .type ↔ b.stats = none) ∧
    (store avg b = .error .runtime ↔ ∃ d, b.stats = some d ∧ d.length < avg.length) := by
  unfold store
  cases h : b.stats with
  | none => simp
  | some d => by_cases h1 : d.length < avg.length <;> simp [h1]

end Verif.BnSearch
