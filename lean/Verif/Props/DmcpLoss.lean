import Verif.Lemmas.DmcpLoss

/-! C50: the FLOPs loss of DMCP. -/
namespace Verif.DmcpLoss

/-- C50, what the loss is: in the raw interval `[0.95 target, target)` it is
zero, and for every FLOPs count of at least `target` — that is 150 FLOPs for a
target of 150 MFLOPs — it is the logarithm of the distance from `0.95 target`. -/
theorem C50_values (target expected : ℝ) (ht : 0 < target) :
    (target * (95 / 100) ≤ expected → expected < target → logL1 target expected = some 0) ∧
    (target ≤ expected → ∃ r : ℝ, (r = 1 / 10 ∨ r = 1) ∧
      logL1 target expected = some (Real.log (r * (expected - target * (95 / 100))) : EReal)) := by
  constructor
  · intro h1 h2
    simp only [logL1, if_neg (not_lt.mpr h1), if_pos (And.intro h1 h2)]
  · intro h
    refine ⟨_, ?_, logL1_above target expected ht h⟩
    split
    · exact .inl rfl
    · exact .inr rfl

/-- C50 fails: nowhere in the documented band is the loss zero, for every
target of at least 100 FLOPs. -/
theorem C50_band_violated (target expected : ℝ) (ht : 1 / 10000 ≤ target)
    (hb : Band target expected) :
    ∃ v : ℝ, logL1 target expected = some (v : EReal) ∧ 0 < v := by
  obtain ⟨h1, h2⟩ := hb
  have hpos : 0 < target := by linarith
  have hge : target ≤ expected := by nlinarith
  refine ⟨_, logL1_above target expected hpos hge, ?_⟩
  apply Real.log_pos
  split <;> nlinarith

/-- C50 fails at the target: the loss there is positive and grows with the
target. -/
theorem C50_target_violated (target : ℝ) (ht : 1 / 10000 ≤ target) :
    ∃ v : ℝ, logL1 target (target * 1000000) = some (v : EReal) ∧ 0 < v := by
  have hpos : 0 < target := by linarith
  refine ⟨_, logL1_above target _ hpos (by nlinarith), ?_⟩
  apply Real.log_pos
  split <;> nlinarith

/-- C50 fails in direction: below the target, moving away from the target makes
the loss smaller. -/
theorem C50_direction_violated (target e e' : ℝ) (ht : 0 < target) (h0 : target ≤ e)
    (h1 : e < e') (h2 : e' < target * 1000000 - 200) :
    |flopsError target e'| < |flopsError target e| ∧
    ∃ v v' : ℝ, logL1 target e = some (v : EReal) ∧ logL1 target e' = some (v' : EReal) ∧
      v < v' := by
  have f1 : flopsError target e < -200 := by unfold flopsError; linarith
  have f2 : flopsError target e' < -200 := by unfold flopsError; linarith
  have a1 : |flopsError target e| = -flopsError target e := abs_of_neg (by linarith)
  have a2 : |flopsError target e'| = -flopsError target e' := abs_of_neg (by linarith)
  refine ⟨?_, _, _, logL1_above target e ht h0, logL1_above target e' ht (by linarith), ?_⟩
  · rw [a1, a2]; unfold flopsError; linarith
  · rw [if_pos (by rw [a1]; linarith), if_pos (by rw [a2]; linarith)]
    apply Real.log_lt_log
    · nlinarith
    · nlinarith

/-- C50, where it holds: above the target (by more than 200 FLOPs) the loss
increases with the distance. Missing: FLOPs within 200 of the target or below it, see `C50_band_violated` and
`C50_direction_violated`. -/
theorem C50_increases_partial (target e e' : ℝ) (ht : 0 < target)
    (h0 : target * 1000000 + 200 < e) (h1 : e < e') :
    ∃ v v' : ℝ, logL1 target e = some (v : EReal) ∧ logL1 target e' = some (v' : EReal) ∧
      v < v' := by
  have f1 : 200 < flopsError target e := by unfold flopsError; linarith
  have f2 : 200 < flopsError target e' := by unfold flopsError; linarith
  refine ⟨_, _, logL1_above target e ht (by nlinarith), logL1_above target e' ht (by nlinarith), ?_⟩
  rw [if_pos (by rw [abs_of_pos (by linarith)]; linarith),
    if_pos (by rw [abs_of_pos (by linarith)]; linarith)]
  apply Real.log_lt_log
  · nlinarith
  · nlinarith

/-- C50, the loss jumps when the distance from the target passes 200 FLOPs:
a point further above the target has the smaller loss. -/
theorem C50_jump_violated (target : ℝ) (ht : 1 ≤ target) :
    ∃ (e e' : ℝ) (v v' : ℝ), target * 1000000 < e ∧ e < e' ∧
      logL1 target e = some (v : EReal) ∧ logL1 target e' = some (v' : EReal) ∧ v' < v := by
  refine ⟨target * 1000000 + 100, target * 1000000 + 300, _, _, by linarith, by linarith,
    logL1_above target _ (by linarith) (by nlinarith),
    logL1_above target _ (by linarith) (by nlinarith), ?_⟩
  have e1 : flopsError target (target * 1000000 + 100) = 100 := by unfold flopsError; ring
  have e2 : flopsError target (target * 1000000 + 300) = 300 := by unfold flopsError; ring
  rw [e1, e2]
  norm_num
  apply Real.log_lt_log
  · nlinarith
  · nlinarith

/-- C50, the other losses: `l1` and `l2` are zero exactly at the target and
increase with the distance from it. -/
theorem C50_l1_l2 (target e e' : ℝ) (kind : Kind) (hk : kind = .l1 ∨ kind = .l2) :
    (flopsLoss kind target e = .ok (some 0) ↔ e = target * 1000000) ∧
    (|flopsError target e| < |flopsError target e'| →
      ∃ v v' : ℝ, flopsLoss kind target e = .ok (some (v : EReal)) ∧
        flopsLoss kind target e' = .ok (some (v' : EReal)) ∧ v < v') := by
  have hz : ∀ x : ℝ, ((x : EReal) = 0 ↔ x = 0) := fun x => by
    rw [← EReal.coe_zero, EReal.coe_eq_coe_iff]
  rcases hk with rfl | rfl
  · constructor
    · simp only [flopsLoss, Except.ok.injEq, Option.some.injEq, hz, abs_eq_zero, flopsError]
      constructor <;> intro h <;> linarith
    · intro h; exact ⟨_, _, rfl, rfl, h⟩
  · constructor
    · simp only [flopsLoss, Except.ok.injEq, Option.some.injEq, hz, flopsError]
      rw [pow_eq_zero_iff (by norm_num)]
      constructor <;> intro h <;> linarith
    · intro h
      exact ⟨_, _, rfl, rfl, sq_lt_sq.mpr h⟩

/-- C50, the inverted loss is not a number for every network below the target
by more than `1e-5` FLOPs. -/
theorem C50_inverted_violated (target e : ℝ) (h : e < target * 1000000 - 1 / 100000) :
    flopsLoss .invertedLogL1 target e = .ok none := by
  have hd : flopsError target e + 1 / 100000 < 0 := by unfold flopsError; linarith
  simp only [flopsLoss, invertedLogL1, if_neg (ne_of_lt hd), tlog,
    if_pos (one_div_neg.mpr hd), Option.map_none]

/-- C50, an unknown loss is refused. -/
theorem C50_unknown (target e : ℝ) : flopsLoss .unknown target e = .error .notImplemented := rfl

/-- A target of 150 MFLOPs: the band, a direction, an increase. -/
example : Band 150 149000000 ∧ (1 : ℝ) / 10000 ≤ 150 ∧
    ((150 : ℝ) ≤ 100000000 ∧ (100000000 : ℝ) < 120000000 ∧
      (120000000 : ℝ) < 150 * 1000000 - 200) ∧
    ((150 : ℝ) * 1000000 + 200 < 160000000) := by
  norm_num [Band]

/-- C50, below the small band: the logarithm of the distance to the target, a tenth of it when it is
more than 200. -/
theorem C50_below (target e : ℝ) (h : e < target * (95 / 100)) (hd : e ≠ target * 1000000) :
    (200 < |e - target * 1000000| → logL1 target e = some (Real.log (|e - target * 1000000| / 10) : EReal)) ∧
    (|e - target * 1000000| ≤ 200 → logL1 target e = some (Real.log |e - target * 1000000| : EReal)) := by
  have hpos : 0 < |e - target * 1000000| := abs_pos.2 (sub_ne_zero.2 hd)
  constructor
  · intro h2
    have h3 : |flopsError target e| > 200 := h2
    simp only [logL1, if_pos h, if_pos h3]
    unfold flopsError
    rw [tlog_pos _ (by positivity)]
    congr 3
    ring
  · intro h2
    have h3 : ¬ |flopsError target e| > 200 := not_lt.2 h2
    simp only [logL1, if_pos h, if_neg h3]
    unfold flopsError
    rw [one_mul, tlog_pos _ hpos]

/-- C50, the inverted loss above the target: it grows with the logarithm of the distance. Missing: FLOPs below the target, see
`C50_inverted_violated`. -/
theorem C50_inverted_partial (target e : ℝ) (h : target * 1000000 ≤ e) :
    flopsLoss .invertedLogL1 target e = .ok (some (Real.log (e - target * 1000000 + 1 / 100000) : EReal)) := by
  have hd : 0 < flopsError target e + 1 / 100000 := by unfold flopsError; linarith
  have he : e - target * 1000000 = flopsError target e := rfl
  rw [he]
  simp only [flopsLoss, invertedLogL1, if_neg hd.ne']
  rw [tlog_pos _ (one_div_pos.2 hd), Option.map_some, one_div (flopsError target e + 1 / 100000), Real.log_inv, ← EReal.coe_neg, neg_neg]

example : (100 : ℝ) < 150 * (95 / 100) ∧ (200 : ℝ) < |100 - 150 * 1000000| := by
  refine ⟨by norm_num, ?_⟩
  rw [abs_of_neg] <;> norm_num

/-- C50, the loss of the kind `log_l1`, for the target and the expected FLOPs of the model: 0 from 95 percent of the target
up to the target, and for all FLOPs of at least the target the logarithm of what lies above 95 percent of it, divided by
10 when the FLOPs differ by more than 200 from a million times the target. -/
theorem C50_log_kind (target expected : ℝ) (ht : 0 < target) :
    (target * (95 / 100) ≤ expected → expected < target → flopsLoss .logL1 target expected = .ok (some 0)) ∧
    (target ≤ expected → ∃ r : ℝ, (r = 1 / 10 ↔ 200 < |expected - target * 1000000|) ∧ (r = 1 / 10 ∨ r = 1) ∧
      flopsLoss .logL1 target expected = .ok (some (Real.log (r * (expected - target * (95 / 100))) : EReal))) := by
  refine ⟨fun h1 h2 => congrArg Except.ok ((C50_values target expected ht).1 h1 h2), fun h => ?_⟩
  have hpos : 0 < expected - target * (95 / 100) := by linarith
  refine ⟨if |expected - target * 1000000| > 200 then 1 / 10 else 1, ?_, ?_, ?_⟩
  · split
    · rename_i h'
      exact ⟨fun _ => h', fun _ => rfl⟩
    · rename_i h'
      exact ⟨fun h1 => by norm_num at h1, fun h1 => absurd h1 h'⟩
  · split
    · exact Or.inl rfl
    · exact Or.inr rfl
  · unfold flopsLoss logL1
    dsimp only
    rw [if_neg (by linarith), if_neg (by intro h'; linarith [h'.2]), abs_of_pos hpos]
    unfold flopsError tlog
    have hr : 0 < (if |expected - target * 1000000| > 200 then (1 / 10 : ℝ) else 1) := by split <;> norm_num
    have := mul_pos hr hpos
    rw [if_neg (not_lt.2 this.le), if_neg this.ne']

end Verif.DmcpLoss
