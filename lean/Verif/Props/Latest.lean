import Verif.Lemmas.Latest

/-! C51: the latest checkpoint and the frames per second. -/
namespace Verif.Latest

/-- C51: an explicit `latest` file is the answer. -/
theorem C51_explicit (suffix : Name) (d : Dir) (hp : d.present = true)
    (h : explicitName suffix ∈ d.names) :
    findLatest suffix d = .ok (some (explicitName suffix)) := by
  simp only [findLatest, hp, Bool.not_true, Bool.false_eq_true, if_false, if_pos h]

/-- C51: nothing is found in a missing directory, and in one without files of
that kind. -/
theorem C51_nothing (suffix : Name) (d : Dir)
    (h : d.present = false ∨ ∀ f ∈ d.names, ¬ ('.' :: suffix) <:+ f) :
    findLatest suffix d = .ok none := by
  rcases h with h | h
  · simp [findLatest, h]
  · have h1 : explicitName suffix ∉ d.names := fun hm =>
      h _ hm ⟨['l', 'a', 't', 'e', 's', 't'], rfl⟩
    have h2 : matching suffix d = [] := by
      rw [matching, List.filter_eq_nil_iff]
      intro f hf
      have := h f hf
      rw [← List.isSuffixOf_iff_suffix] at this
      simp [this]
    by_cases hp : d.present = true
    · simp only [findLatest, hp, Bool.not_true, Bool.false_eq_true, if_false, if_neg h1, if_pos h2]
    · simp [findLatest, hp]

/-- C51, where it holds: if every visible file of that kind is named after a
step, the file with the largest step is found, in whatever order the directory
is listed. Missing: other files of that kind, see `C51_foreign_violated` and `C51_negative_violated`. -/
theorem C51_latest_partial (suffix : Name) (d : Dir) (hs : '_' ∉ suffix)
    (hp : d.present = true) (hno : explicitName suffix ∉ d.names)
    (hv : ∀ f ∈ d.names, f.head? ≠ some '.')
    (hall : ∀ f ∈ d.names, ('.' :: suffix) <:+ f → ∃ pre n, f = stepName suffix pre n)
    (hne : ∃ f ∈ d.names, ('.' :: suffix) <:+ f) :
    ∃ f, findLatest suffix d = .ok (some f) ∧ IsLatest suffix d f := by
  have hmem : ∀ f, f ∈ matching suffix d ↔ f ∈ d.names ∧ ('.' :: suffix) <:+ f := by
    intro f
    rw [matching, List.mem_filter, Bool.and_eq_true, List.isSuffixOf_iff_suffix]
    constructor
    · intro h; exact ⟨h.1, h.2.1⟩
    · intro h; exact ⟨h.1, h.2, by simpa using hv f h.1⟩
  have hcnt : ∀ f ∈ matching suffix d, ∃ n : Nat, count f = .ok (n : Int) ∧
      ∃ pre, f = stepName suffix pre n := by
    intro f hf
    obtain ⟨pre, n, e⟩ := hall f ((hmem f).1 hf).1 ((hmem f).1 hf).2
    exact ⟨n, by rw [e, count_stepName _ _ _ hs], pre, e⟩
  let cnt : Name → Int := fun f => match count f with
    | .ok n => n
    | .error _ => 0
  have hok : ∀ g ∈ matching suffix d, count g = .ok (cnt g) := by
    intro g hg
    obtain ⟨n, e, _⟩ := hcnt g hg
    simp [cnt, e]
  obtain ⟨st', e, h1, h2, h3⟩ := scan (matching suffix d) cnt hok (-1, none)
  obtain ⟨f0, hf0, hfs⟩ := hne
  have hm0 := (hmem f0).2 ⟨hf0, hfs⟩
  have hnn : matching suffix d ≠ [] := List.ne_nil_of_mem hm0
  have hfind : findLatest suffix d = .ok st'.2 := by
    simp only [findLatest, hp, Bool.not_true, Bool.false_eq_true, if_false, if_neg hno,
      if_neg hnn, e, bind, Except.bind, pure, Except.pure]
  rcases h3 with h3 | ⟨f, hf, h3, _⟩
  · have := h2 f0 hm0
    obtain ⟨n, en, _⟩ := hcnt f0 hm0
    rw [h3] at this
    simp only [cnt, en] at this
    omega
  · obtain ⟨n, en, pre, ef⟩ := hcnt f hf
    refine ⟨f, by rw [hfind, h3], ((hmem f).1 hf).1, pre, n, ef, ?_⟩
    intro g hg pre' n' eg
    have hgm : g ∈ matching suffix d :=
      (hmem g).2 ⟨hg, by rw [eg, ← List.isSuffixOf_iff_suffix]; exact stepName_matches _ _ _⟩
    have hle := h2 g hgm
    have c1 : cnt g = (n' : Int) := by
      simp only [cnt, eg, count_stepName _ _ _ hs]
    have c2 : cnt f = (n : Int) := by simp only [cnt, en]
    rw [h3] at hle
    simp only [c1, c2] at hle
    omega

/-- C51 fails: one file of that kind that is not named after a step, and the
search raises, however many checkpoints there are. -/
theorem C51_foreign_violated (suffix : Name) (d : Dir) (g : Name)
    (hp : d.present = true) (hno : explicitName suffix ∉ d.names)
    (hg : g ∈ d.names) (hgs : ('.' :: suffix) <:+ g) (hgh : g.head? ≠ some '.')
    (hbad : parseInt (firstPiece '.' (lastPiece '_' g)) = none) :
    findLatest suffix d = .error .value := by
  have hm : g ∈ matching suffix d := by
    rw [matching, List.mem_filter, Bool.and_eq_true, List.isSuffixOf_iff_suffix]
    exact ⟨hg, hgs, by simpa using hgh⟩
  have hnn : matching suffix d ≠ [] := List.ne_nil_of_mem hm
  have he := scan_error (matching suffix d) (-1, none) ⟨g, hm, by simp [count, hbad]⟩
  simp only [findLatest, hp, Bool.not_true, Bool.false_eq_true, if_false, if_neg hno,
    if_neg hnn, he, bind, Except.bind]

/-- A best checkpoint beside two step checkpoints. -/
example :
    findLatest "pth".toList ⟨true, ["iter_1000.pth".toList, "best_top1.pth".toList,
      "iter_2000.pth".toList]⟩ = .error .value := by decide +kernel

example :
    findLatest "pth".toList ⟨true, ["iter_9000.pth".toList, "iter_10000.pth".toList,
      "iter_2000.pth".toList, "log.json".toList]⟩ = .ok (some "iter_10000.pth".toList) ∧
    stepName "pth".toList "iter".toList 10000 = "iter_10000.pth".toList := by decide +kernel

/-! ### Frames per second -/

/-- C51: with at least one round of warm-up, the frames per second are the
number of timed rounds over their total time. Missing: no warm-up, see `C51_no_warmup_violated`, and only warm-up, see
`C51_all_warmup_violated`. -/
theorem C51_fps_partial (maxIter warmup logInterval : Int) (elapsed : Nat → ℚ)
    (he : ∀ i, 0 < elapsed i) (hlog : logInterval ≠ 0) (h1 : 1 ≤ warmup) (hw : warmup < maxIter) :
    fps true maxIter warmup logInterval elapsed =
      .ok (((timedRounds maxIter warmup).length : ℚ) /
        ((timedRounds maxIter warmup).map elapsed).sum) := by
  rw [fps_eq maxIter warmup logInterval elapsed he hlog (by omega) hw]
  congr 2
  have := length_timed warmup (maxIter.toNat - 1)
  have hl : ((timedRounds maxIter warmup).length : Int) = maxIter - warmup := by
    rw [timedRounds, this]; omega
  rw [← hl]; simp

/-- C51 fails without warm-up: one round more is counted than is timed, so the
speed reported is too high, for every machine. -/
theorem C51_no_warmup_violated (maxIter logInterval : Int) (elapsed : Nat → ℚ)
    (he : ∀ i, 0 < elapsed i) (hlog : logInterval ≠ 0) (h2 : 2 ≤ maxIter) :
    ∃ v, fps true maxIter 0 logInterval elapsed = .ok v ∧
      ((timedRounds maxIter 0).length : ℚ) / ((timedRounds maxIter 0).map elapsed).sum < v := by
  refine ⟨_, fps_eq maxIter 0 logInterval elapsed he hlog h2 (by omega), ?_⟩
  have hl : ((timedRounds maxIter 0).length : Int) = maxIter - 1 := by
    rw [timedRounds, length_timed]; omega
  have hp : 0 < ((timedRounds maxIter 0).map elapsed).sum :=
    timed_pos elapsed 0 (maxIter.toNat - 1) he (by omega) (by omega)
  apply div_lt_div_of_pos_right _ hp
  have : ((timedRounds maxIter 0).length : ℚ) = ((maxIter - 1 : Int) : ℚ) := by
    rw [← hl]; simp
  rw [this]
  exact_mod_cast (by omega : maxIter - 1 < maxIter - 0)

/-- C51 fails when every round is warm-up: the measurement divides by zero. -/
theorem C51_all_warmup_violated (maxIter warmup logInterval : Int) (elapsed : Nat → ℚ)
    (h2 : 2 ≤ maxIter) (hw : maxIter ≤ warmup) :
    fps true maxIter warmup logInterval elapsed = .error .zeroDivision := by
  have hst : ∀ n : Nat, (n : Int) + 1 < maxIter →
      (List.range' 1 n).foldlM (round maxIter warmup logInterval elapsed) (0, 0) = .ok (0, 0) := by
    intro n
    induction n with
    | zero => intro _; rfl
    | succ n ih =>
      intro hn
      rw [List.range'_concat, List.foldlM_append, ih (by omega)]
      rw [show 1 + 1 * n = n + 1 by omega]
      have a1 : ¬ (((n + 1 : Nat) : Int) ≥ warmup) := by push_cast; omega
      have a2 : ¬ (((n + 1 : Nat) : Int) + 1 = maxIter) := by push_cast; omega
      simp only [bind, Except.bind, List.foldlM_cons, List.foldlM_nil, round, timed, if_neg a1,
        if_neg a2, pure, Except.pure]
  obtain ⟨m, rfl⟩ : ∃ m : Nat, maxIter = (m : Int) + 2 := ⟨(maxIter - 2).toNat, by omega⟩
  have hr : (((m : Int) + 2).toNat - 1) = m + 1 := by omega
  have a1 : ¬ (((m + 1 : Nat) : Int) ≥ warmup) := by push_cast; omega
  have a2 : (((m + 1 : Nat) : Int) + 1 = (m : Int) + 2) := by push_cast; omega
  simp only [fps, Bool.not_true, Bool.false_eq_true, if_false, hr]
  rw [List.range'_concat, List.foldlM_append, hst m (by omega)]
  rw [show 1 + 1 * m = m + 1 by omega]
  simp only [bind, Except.bind, List.foldlM_cons, List.foldlM_nil, round, timed, if_neg a1,
    if_pos a2, report, pdiv, if_true]

/-- C51, the latency of one measurement is the rounded time per frame. Missing: a single iteration, see
`C51_one_iteration_violated`. -/
theorem C51_latency_partial (round1 : ℚ → ℚ) (maxIter warmup logInterval : Int)
    (elapsed : Nat → Nat → ℚ) (he : ∀ r i, 0 < elapsed r i) (hlog : logInterval ≠ 0)
    (h1 : 1 ≤ warmup) (hw : warmup < maxIter) :
    latency round1 true maxIter warmup logInterval 1 elapsed =
      .ok (round1 (1000 * ((timedRounds maxIter warmup).map (elapsed 0)).sum /
        (timedRounds maxIter warmup).length)) := by
  have hf := C51_fps_partial maxIter warmup logInterval (elapsed 0) (he 0) hlog h1 hw
  have hp : 0 < ((timedRounds maxIter warmup).map (elapsed 0)).sum :=
    timed_pos (elapsed 0) warmup (maxIter.toNat - 1) (he 0) (by omega) (by omega)
  have hl : ((timedRounds maxIter warmup).length : Int) = maxIter - warmup := by
    rw [timedRounds, length_timed]; omega
  have hlp : (0 : ℚ) < ((timedRounds maxIter warmup).length : ℚ) := by
    exact_mod_cast (by omega : 0 < (timedRounds maxIter warmup).length)
  have hr : List.range (1 : Int).toNat = [0] := by decide
  simp only [latency, hr, List.mapM_cons, List.mapM_nil, hf, bind, Except.bind, pure, Except.pure,
    List.headD_cons, perImage, pdiv_ok _ _ (div_pos hlp hp)]
  simp
  congr 1
  field_simp

/-- C51, refusals: a model that is not on a GPU, and no repetition. -/
theorem C51_refused (round1 : ℚ → ℚ) (cuda : Bool) (maxIter warmup logInterval repeatNum : Int)
    (elapsed : Nat → Nat → ℚ) :
    (cuda = false → fps cuda maxIter warmup logInterval (elapsed 0) = .error .notImplemented) ∧
    (repeatNum < 1 → latency round1 cuda maxIter warmup logInterval repeatNum elapsed =
      .error .assertion) := by
  constructor
  · rintro rfl; rfl
  · intro h; rw [latency, if_pos (by omega)]

/-- C51 fails for one iteration: nothing is measured, the speed is reported as
zero and the latency divides by it. -/
theorem C51_one_iteration_violated (round1 : ℚ → ℚ) (maxIter warmup logInterval : Int)
    (elapsed : Nat → Nat → ℚ) (h : maxIter ≤ 1) :
    fps true maxIter warmup logInterval (elapsed 0) = .ok 0 ∧
    latency round1 true maxIter warmup logInterval 1 elapsed = .error .zeroDivision := by
  have hr : maxIter.toNat - 1 = 0 := by omega
  have hf : fps true maxIter warmup logInterval (elapsed 0) = .ok 0 := by
    simp only [fps, hr, List.range'_zero]; rfl
  refine ⟨hf, ?_⟩
  have hr : List.range (1 : Int).toNat = [0] := by decide
  simp only [latency, hr, List.mapM_cons, List.mapM_nil, hf, bind, Except.bind, pure, Except.pure,
    List.headD_cons, perImage, pdiv]
  simp

/-- Twelve rounds of which two warm up: nine or ten are timed. -/
example : (timedRounds 12 2).length = 10 ∧ (timedRounds 12 0).length = 11 ∧
    fps true 12 2 100 (fun _ => 1 / 20) = .ok 20 ∧
    fps true 12 0 100 (fun _ => 1 / 20) = .ok (240 / 11) := by decide +kernel

/-- C51 fails for numbers below zero: a directory whose only checkpoint has one seems empty. -/
theorem C51_negative_violated (suffix pre : Name) (n : Nat) (hs : '_' ∉ suffix) (hn : 0 < n)
    (hh : (negativeName suffix pre n).head? ≠ some '.') (hl : negativeName suffix pre n ≠ explicitName suffix) :
    findLatest suffix ⟨true, [negativeName suffix pre n]⟩ = .ok none := by
  have hm : matching suffix ⟨true, [negativeName suffix pre n]⟩ = [negativeName suffix pre n] := by
    rw [matching, List.filter_eq_self]
    intro a ha
    rw [List.mem_singleton.1 ha, Bool.and_eq_true]
    refine ⟨?_, by simpa using hh⟩
    rw [List.isSuffixOf_iff_suffix]
    exact ⟨pre ++ '_' :: '-' :: Nat.toDigits 10 n, by simp [negativeName]⟩
  unfold findLatest
  rw [hm]
  simp only [Bool.not_true, Bool.false_eq_true, if_false, List.mem_singleton]
  rw [if_neg (fun h => hl h.symm), if_neg (by simp)]
  simp only [List.foldlM_cons, List.foldlM_nil, look, count_negative suffix pre n hs, bind, Except.bind]
  rw [if_neg (by omega)]
  rfl

/-- C51, several repetitions: the mean of their rounded times per frame. Missing: a single iteration, see
`C51_one_iteration_violated`. -/
theorem C51_repeated_partial (round1 : ℚ → ℚ) (maxIter warmup logInterval repeatNum : Int)
    (elapsed : Nat → Nat → ℚ) (he : ∀ r i, 0 < elapsed r i) (hlog : logInterval ≠ 0)
    (h1 : 1 ≤ warmup) (hw : warmup < maxIter) (hr : 1 < repeatNum) :
    latency round1 true maxIter warmup logInterval repeatNum elapsed =
      .ok (((List.range repeatNum.toNat).map fun r => round1 (perFrame maxIter warmup (elapsed r))).sum / repeatNum) := by
  have hl : ((timedRounds maxIter warmup).length : Int) = maxIter - warmup := by
    rw [timedRounds, length_timed]; omega
  have hlp : (0 : ℚ) < ((timedRounds maxIter warmup).length : ℚ) := by
    exact_mod_cast (by omega : 0 < (timedRounds maxIter warmup).length)
  have hp : ∀ r, 0 < ((timedRounds maxIter warmup).map (elapsed r)).sum := fun r =>
    timed_pos (elapsed r) warmup (maxIter.toNat - 1) (he r) (by omega) (by omega)
  have hone : ∀ r, perImage round1 (((timedRounds maxIter warmup).length : ℚ) / ((timedRounds maxIter warmup).map (elapsed r)).sum) =
      .ok (round1 (perFrame maxIter warmup (elapsed r))) := by
    intro r
    simp only [perImage, pdiv_ok _ _ (div_pos hlp (hp r)), bind, Except.bind, pure, Except.pure, perFrame]
    congr 2
    field_simp
  have hall : ∀ l : List Nat, (l.mapM fun r => fps true maxIter warmup logInterval (elapsed r)) =
      .ok (l.map fun r => ((timedRounds maxIter warmup).length : ℚ) / ((timedRounds maxIter warmup).map (elapsed r)).sum) := by
    intro l
    induction l with
    | nil => rfl
    | cons r l ih =>
      rw [List.mapM_cons, C51_fps_partial maxIter warmup logInterval (elapsed r) (he r) hlog h1 hw, ih]
      rfl
  have hall2 : ∀ l : List Nat, ((l.map fun r => ((timedRounds maxIter warmup).length : ℚ) / ((timedRounds maxIter warmup).map (elapsed r)).sum).mapM
      (perImage round1)) = .ok (l.map fun r => round1 (perFrame maxIter warmup (elapsed r))) := by
    intro l
    induction l with
    | nil => rfl
    | cons r l ih =>
      rw [List.map_cons, List.mapM_cons, hone, ih]
      rfl
  obtain ⟨k, hk⟩ : ∃ k, repeatNum.toNat = k + 1 := ⟨repeatNum.toNat - 1, by omega⟩
  unfold latency
  rw [if_neg (by omega), hall]
  simp only [bind, Except.bind]
  have hhead : perImage round1 (((List.range repeatNum.toNat).map fun r =>
      ((timedRounds maxIter warmup).length : ℚ) / ((timedRounds maxIter warmup).map (elapsed r)).sum).headD 0) =
      .ok (round1 (perFrame maxIter warmup (elapsed 0))) := by
    rw [hk, List.range_succ_eq_map, List.map_cons, List.headD_cons, hone]
  rw [hhead]
  dsimp only
  rw [if_pos hr, hall2]
  simp only [pure, Except.pure, List.length_map, List.length_range]
  congr 2
  have : ((repeatNum.toNat : Int) : ℚ) = (repeatNum : ℚ) := by rw [Int.toNat_of_nonneg (by omega)]
  exact_mod_cast this

example : findLatest ['p', 't'] ⟨true, [['a', '_', '-', '3', '.', 'p', 't']]⟩ = .ok none := by decide +kernel

example : latency (fun x => x) true 3 1 10 2 (fun r i => r + i) = .ok 2000 := by decide +kernel

end Verif.Latest
