import Verif.Lemmas.Observers

/-! Property C116: what the observers of quantisation record over a calibration and what the scales and zero points they
give do to the values they have seen. -/

namespace Verif.Observers
open Verif Deploy GptqQuantizer

/-- After any batches the recorded range consists of the smallest and the largest of all values seen so far. -/
theorem C116_running (bs : List (List ℚ)) (h : bs.flatten ≠ []) :
    ∃ m M, (observeAll new bs).range = some (m, M) ∧ Extremes bs.flatten m M := by
  have := knows_all bs new [] knows_new
  simp only [List.nil_append] at this
  exact this.2 h

example : (observeAll new [[3, -1], [], [2, 5]]).range = some (-1, 5) := by decide +kernel

/-- Without any value nothing is recorded: the min-max observer answers scale one and zero point zero, the LSQ observer
fails. -/
theorem C116_nothing (c : Cfg) (root : ℚ) (bs : List (List ℚ)) (h : bs.flatten = []) :
    minMaxParams c (observeAll new bs) = (1, 0) ∧ lsqParams c root (observeAll new bs) = .error .type := by
  have := knows_all bs new [] knows_new
  simp only [List.nil_append] at this
  rw [this.1 h]
  exact ⟨rfl, rfl⟩

example : ([[], []] : List (List ℚ)).flatten = [] := rfl

/-- The scale and zero point of the min-max observer are those of all values at once: neither the sizes of the batches
nor their order nor repetitions matter. -/
theorem C116_grouping (c : Cfg) (as bs : List (List ℚ)) (h : ∀ v, v ∈ as.flatten ↔ v ∈ bs.flatten) :
    minMaxParams c (observeAll new as) = minMaxParams c (observeAll new bs) := by
  by_cases ha : as.flatten = []
  · have hb : bs.flatten = [] := by
      apply List.eq_nil_iff_forall_not_mem.2
      intro v hv
      have := (h v).2 hv
      rw [ha] at this
      simp at this
    rw [(C116_nothing c 1 as ha).1, (C116_nothing c 1 bs hb).1]
  · have hb : bs.flatten ≠ [] := by
      intro e
      apply ha
      apply List.eq_nil_iff_forall_not_mem.2
      intro v hv
      have := (h v).1 hv
      rw [e] at this
      simp at this
    obtain ⟨m, M, hr, he⟩ := C116_running as ha
    obtain ⟨m', M', hr', he'⟩ := C116_running bs hb
    obtain ⟨rfl, rfl⟩ := extremes_unique h he he'
    simp only [minMaxParams, hr, hr']

example : minMaxParams exAffine (observeAll new [[3, -1], [2, 5]]) = minMaxParams exAffine (observeAll new [[5], [2, -1, 3, 3]]) := by
  decide +kernel

/-- They are the scale and zero point that are computed anew for the same values when a quantised model is exported. -/
theorem C116_exported (c : Cfg) (bs : List (List ℚ)) (h : bs.flatten ≠ []) :
    minMaxParams c (observeAll new bs) = c.qparams bs.flatten := by
  obtain ⟨m, M, hr, he⟩ := C116_running bs h
  exact params_qparams c hr he

example : minMaxParams exAffine (observeAll new [[3, -1], [2, 4]]) = (5 / 255, 51) := by decide +kernel

/-- Fake quantisation with the parameters of the min-max observer moves no value seen during calibration by more than
half a scale, whatever the scheme: nothing seen is clipped. -/
theorem C116_half (c : Cfg) (hu : Usable c) (bs : List (List ℚ)) (x : ℚ) (hx : x ∈ bs.flatten) :
    |fq c.lo c.hi (minMaxParams c (observeAll new bs)) x - x| ≤ (minMaxParams c (observeAll new bs)).1 / 2 := by
  obtain ⟨m, M, hr, he⟩ := C116_running bs (List.ne_nil_of_mem hx)
  exact params_near hu hr (he.least.2 x hx) (he.largest.2 x hx)

example : Usable exAffine ∧ Usable exSymmetric ∧ fq exAffine.lo exAffine.hi (minMaxParams exAffine (observeAll new [[3, -1], [2, 4]])) 3 = 3 ∧
    fq exAffine.lo exAffine.hi (minMaxParams exAffine (observeAll new [[3, -1], [2, 4]])) (1 / 200) = 0 :=
  ⟨⟨by decide, by decide, by decide +kernel⟩, ⟨by decide, by decide, by decide +kernel⟩, by decide +kernel, by decide +kernel⟩

/-- The scale is not larger than needed: it is the least one with which the range of the values seen and zero fits into
the levels, or the given smallest scale. For the affine scheme the levels cover exactly the range. -/
theorem C116_tight (c : Cfg) (hc : c.symmetric = false) (bs : List (List ℚ)) (h : bs.flatten ≠ []) (m M : ℚ)
    (he : Extremes (0 :: bs.flatten) m M) :
    (minMaxParams c (observeAll new bs)).1 = max ((M - m) / ((c.hi - c.lo : ℤ) : ℚ)) c.eps := by
  obtain ⟨m', M', hr, he'⟩ := C116_running bs h
  have e1 : min m' 0 = m := by
    apply le_antisymm
    · rcases List.mem_cons.1 he.least.1 with e | e
      · rw [e]; exact min_le_right _ _
      · exact (min_le_left _ _).trans (he'.least.2 _ e)
    · exact le_min (he.least.2 _ (List.mem_cons_of_mem _ he'.least.1)) (he.least.2 0 (by simp))
  have e2 : max M' 0 = M := by
    apply le_antisymm
    · exact max_le (he.largest.2 _ (List.mem_cons_of_mem _ he'.largest.1)) (he.largest.2 0 (by simp))
    · rcases List.mem_cons.1 he.largest.1 with e | e
      · rw [e]; exact le_max_right _ _
      · exact (he'.largest.2 _ e).trans (le_max_left _ _)
  simp [minMaxParams, hr, hc, e1, e2]

example : Extremes (0 :: [[(3 : ℚ)], [1, 2]].flatten) 0 3 :=
  ⟨⟨by simp, by simp⟩, ⟨by simp, by simp; norm_num⟩⟩

/-- For a symmetric scheme the scale puts the largest magnitude seen at half the number of steps. -/
theorem C116_tight_symmetric (c : Cfg) (hc : c.symmetric = true) (bs : List (List ℚ)) (A : ℚ)
    (hA : ∃ v ∈ bs.flatten, |v| = A) (hmax : ∀ v ∈ bs.flatten, |v| ≤ A) :
    (minMaxParams c (observeAll new bs)).1 = max (A / (((c.hi - c.lo : ℤ) : ℚ) / 2)) c.eps := by
  obtain ⟨v, hv, rfl⟩ := hA
  obtain ⟨m, M, hr, he⟩ := C116_running bs (List.ne_nil_of_mem hv)
  have e : max (-min m 0) (max M 0) = |v| := by
    apply le_antisymm
    · have h1 := abs_le.1 (hmax m he.least.1)
      have h2 := abs_le.1 (hmax M he.largest.1)
      have h3 := abs_nonneg v
      apply max_le
      · rcases min_choice m 0 with e | e <;> rw [e] <;> linarith
      · exact max_le h2.2 h3
    · have h1 := he.least.2 v hv
      have h2 := he.largest.2 v hv
      apply abs_le.2
      constructor
      · have := le_max_left (-min m 0) (max M 0)
        have := min_le_left m 0
        linarith
      · exact (h2.trans (le_max_left _ _)).trans (le_max_right _ _)
  simp [minMaxParams, hr, hc, e]

example : (minMaxParams exSymmetric (observeAll new [[3, -5], [4]])).1 = 5 / 127 := by decide +kernel

/-- Zero is represented exactly, before and after any calibration and with any scale (so also with the scale of LSQ or a
learned one): padding and rectified values stay zero. -/
theorem C116_zero (c : Cfg) (hu : Usable c) (bs : List (List ℚ)) (s : ℚ) :
    fq c.lo c.hi (s, (minMaxParams c (observeAll new bs)).2) 0 = 0 := by
  have h := zp_range hu (observeAll new bs)
  have h0 : rhe ((0 : ℚ) / s) = 0 := by rw [zero_div]; exact rhe_zero
  simp only [fq, h0]
  generalize (minMaxParams c (observeAll new bs)).2 = z at *
  have : min (max (0 + z) c.lo) c.hi - z = 0 := by omega
  rw [this]
  simp

example : (minMaxParams exAffine (observeAll new [[3, -1], [2, 4]])).2 = 51 := by decide +kernel

/-- One output of a linear layer whose weights were observed: with fake-quantised weights it differs from the ordinary
output by at most half a scale times the magnitudes of the inputs. -/
theorem C116_layer (c : Cfg) (hu : Usable c) (ws xs : List ℚ) :
    |((ws.zip xs).map fun p => fq c.lo c.hi (minMaxParams c (observeAll new [ws])) p.1 * p.2).sum -
        ((ws.zip xs).map fun p => p.1 * p.2).sum| ≤
      (minMaxParams c (observeAll new [ws])).1 / 2 * ((ws.zip xs).map fun p => |p.2|).sum := by
  have key : ∀ w ∈ ws, |fq c.lo c.hi (minMaxParams c (observeAll new [ws])) w - w| ≤
      (minMaxParams c (observeAll new [ws])).1 / 2 := fun w hw => C116_half c hu [ws] w (by simpa using hw)
  generalize minMaxParams c (observeAll new [ws]) = q at *
  have : ∀ (l : List (ℚ × ℚ)), (∀ p ∈ l, p.1 ∈ ws) →
      |(l.map fun p => fq c.lo c.hi q p.1 * p.2).sum - (l.map fun p => p.1 * p.2).sum| ≤
        q.1 / 2 * (l.map fun p => |p.2|).sum := by
    intro l
    induction l with
    | nil => simp
    | cons p l ih =>
      intro h
      have h1 := ih fun r hr => h r (by simp [hr])
      have h2 := key p.1 (h p (by simp))
      simp only [List.map_cons, List.sum_cons]
      have e : fq c.lo c.hi q p.1 * p.2 + (l.map fun p => fq c.lo c.hi q p.1 * p.2).sum -
          (p.1 * p.2 + (l.map fun p => p.1 * p.2).sum) = (fq c.lo c.hi q p.1 - p.1) * p.2 +
          ((l.map fun p => fq c.lo c.hi q p.1 * p.2).sum - (l.map fun p => p.1 * p.2).sum) := by ring
      rw [e, mul_add]
      refine (abs_add_le _ _).trans (add_le_add ?_ h1)
      rw [abs_mul]
      exact mul_le_mul_of_nonneg_right h2 (abs_nonneg _)
  exact this _ fun p hp => (List.of_mem_zip hp).1

example : (([1, -2, 1 / 3].zip [3, 4, 5] : List (ℚ × ℚ)).map fun p =>
    fq exSymmetric.lo exSymmetric.hi (minMaxParams exSymmetric (observeAll new [[1, -2, 1 / 3]])) p.1 * p.2).sum = -422 / 127 := by
  decide +kernel

/-- The scale of LSQ is twice the mean magnitude of the last batch that was not empty over the root of the largest
level; nothing seen before matters. -/
theorem C116_lsq_last (c : Cfg) (root : ℚ) (pre post : List (List ℚ)) (x : List ℚ) (hx : x ≠ []) (hp : ∀ y ∈ post, y = []) :
    ∃ z, lsqParams c root (observeAll new (pre ++ x :: post)) =
        .ok (2 * ((x.map fun v => |v|).sum / x.length) / root, z) ∧
      z = (minMaxParams c (observeAll new (pre ++ x :: post))).2 := by
  refine ⟨_, ?_, rfl⟩
  simp only [lsqParams, lsqScale, norm_last new pre post x hx hp]
  rfl

example : (lsqParams exSymmetric 4 (observeAll new [[100], [1, -3], []])).toOption = some (1, 0) := by decide +kernel

/-- DISAGREEMENT: the docstring of `_calculate_scale` says that the scale of activations is computed on the first batch.
Whenever a later batch has another mean magnitude, the scale is that of the later batch and not that of the first. -/
theorem C116_lsq_first_violated (root : ℚ) (hr : root ≠ 0) (first last : List ℚ) (mid : List (List ℚ)) (hl : last ≠ [])
    (h : (first.map fun v => |v|).sum / first.length ≠ (last.map fun v => |v|).sum / last.length) :
    lsqScale root (observeAll new (first :: mid ++ [last])) ≠
      .ok (2 * ((first.map fun v => |v|).sum / first.length) / root) := by
  have := norm_last new (first :: mid) [] last hl (by simp)
  simp only [lsqScale, this]
  intro e
  have e := Except.ok.inj e
  rw [div_left_inj' hr, mul_right_inj' (by norm_num)] at e
  exact h e.symm

example : (lsqScale 4 (observeAll new [[8], [1, -3]])).toOption = some 1 := by decide +kernel

/-- With the scale of LSQ a value is within half a scale of its fake quantisation as long as it lies between the
outermost levels, half a step included.
Missing: values further out are clipped, also when they were seen during calibration
(`C116_lsq_unbounded_violated`). -/
theorem C116_lsq_half_partial (c : Cfg) (hu : Usable c) (root : ℚ) (bs : List (List ℚ)) (s : ℚ) (z : ℤ)
    (h : lsqParams c root (observeAll new bs) = .ok (s, z)) (hs : 0 < s) (x : ℚ)
    (h1 : ((c.lo - z : ℤ) : ℚ) * s - s / 2 ≤ x) (h2 : x ≤ ((c.hi - z : ℤ) : ℚ) * s + s / 2) :
    |fq c.lo c.hi (s, z) x - x| ≤ s / 2 := by
  apply fq_near hs hu.levels.le
  · rw [le_div_iff₀ hs]; linarith
  · rw [div_le_iff₀ hs]; linarith

example : (lsqParams exSymmetric 4 (observeAll new [[1, -3]])).toOption = some (1, 0) ∧
    fq exSymmetric.lo exSymmetric.hi (1, 0) (-27 / 10) = -3 := by decide +kernel

/-- DISAGREEMENT: with the LSQ observer no bound on the error holds for values seen during calibration: for every
symmetric signed scheme and every bound there are two batches after which a value of the first batch is moved by more
than the bound, because the scale only fits the second one. -/
theorem C116_lsq_unbounded_violated (c : Cfg) (hu : Usable c) (hc : c.symmetric = true) (hsg : c.scheme.signed = true)
    (root : ℚ) (hr : 0 < root) (B : ℚ) :
    ∃ (x y : ℚ) (s : ℚ) (z : ℤ), lsqParams c root (observeAll new [[x], [y]]) = .ok (s, z) ∧ 0 < s ∧
      B < |fq c.lo c.hi (s, z) x - x| := by
  refine ⟨c.hi + |B| + 1, root / 2, 1, 0, ?_, one_pos, ?_⟩
  · have hn := norm_last new [[(c.hi : ℚ) + |B| + 1]] [] [root / 2] (by simp) (by simp)
    simp only [List.cons_append, List.nil_append] at hn
    have hm : absMean [root / 2] = root / 2 := by
      simp [absMean]; positivity
    have hsc : lsqScale root (observeAll new [[(c.hi : ℚ) + |B| + 1], [root / 2]]) = .ok 1 := by
      simp only [lsqScale, hn, hm]
      congr 1
      field_simp
    have hz : (minMaxParams c (observeAll new [[(c.hi : ℚ) + |B| + 1], [root / 2]])).2 = 0 := by
      simp [minMaxParams, observeAll, observe, new, widen, hc, hsg]
    simp only [lsqParams, hsc, hz]
  · have h1 : fq c.lo c.hi (1, 0) ((c.hi : ℚ) + |B| + 1) ≤ c.hi := by
      simp only [fq, mul_one]
      exact_mod_cast (by omega : min (max (rhe (((c.hi : ℚ) + |B| + 1) / 1) + 0) c.lo) c.hi - 0 ≤ c.hi)
    rw [abs_sub_comm]
    have := le_abs_self ((c.hi : ℚ) + |B| + 1 - fq c.lo c.hi (1, 0) (c.hi + |B| + 1))
    have := le_abs_self B
    linarith

example : exSymmetric.symmetric = true ∧ exSymmetric.scheme.signed = true := by decide

/-- In a distributed run every process gets the same scale, the mean of the scales of all processes. -/
theorem C116_sync (c : Cfg) (root : ℚ) (os : List Obs) (norms : List ℚ) (h : os.map (·.norm) = norms.map some) :
    ∃ ps, lsqParamsAll c root os = .ok ps ∧ ps.length = os.length ∧
      ∀ (i : ℕ) (s : ℚ) (z : ℤ), ps[i]? = some (s, z) →
        s = (norms.map fun n => 2 * n / root).sum / norms.length := by
  have hm : ∀ (os : List Obs) (norms : List ℚ), os.map (·.norm) = norms.map some →
      os.mapM (lsqScale root) = .ok (norms.map fun n => 2 * n / root) := by
    intro os
    induction os with
    | nil => intro norms h; cases norms <;> simp at h; rfl
    | cons o os ih =>
      intro norms h
      cases norms with
      | nil => simp at h
      | cons n norms =>
        simp only [List.map_cons, List.cons.injEq] at h
        have h1 : lsqScale root o = .ok (2 * n / root) := by simp only [lsqScale, h.1]
        rw [List.mapM_cons, h1, ih norms h.2]
        rfl
  have hlen : os.length = norms.length := by simpa using congrArg List.length h
  refine ⟨_, by rw [lsqParamsAll, hm os norms h], by simp [syncScales, hlen], ?_⟩
  intro i s z hi
  rw [List.getElem?_zip_eq_some] at hi
  have hs := List.mem_of_getElem? hi.1
  simp only [syncScales, List.mem_map] at hs
  obtain ⟨_, _, rfl⟩ := hs
  rw [sync_scale]
  simp

example : (lsqParamsAll exSymmetric 4 [observeAll new [[1, -3]], observeAll new [[6]]]).toOption = some [(2, 0), (2, 0)] := by
  decide +kernel

/-- DISAGREEMENT: the zero points are not synchronised with the scales: with an affine scheme two processes that have seen
different values quantise with different zero points, so the same number becomes different numbers. -/
theorem C116_sync_zero_violated :
    ∃ (c : Cfg) (root : ℚ) (os : List Obs) (s : ℚ) (z z' : ℤ) (x : ℚ), Usable c ∧
      lsqParamsAll c root os = .ok [(s, z), (s, z')] ∧ z ≠ z' ∧ fq c.lo c.hi (s, z) x ≠ fq c.lo c.hi (s, z') x := by
  refine ⟨exAffine, 16, [observeAll new [[0, 4]], observeAll new [[-4, 0]]], 1 / 4, 0, 255, 4,
    ⟨by decide, by decide, by decide +kernel⟩, ?_, by decide, by decide +kernel⟩
  have : (lsqParamsAll exAffine 16 [observeAll new [[0, 4]], observeAll new [[-4, 0]]]).toOption =
      some [(1 / 4, 0), (1 / 4, 255)] := by decide +kernel
  generalize lsqParamsAll exAffine 16 [observeAll new [[0, 4]], observeAll new [[-4, 0]]] = r at this
  cases r with
  | error e => simp [Except.toOption] at this
  | ok v => simp only [Except.toOption, Option.some.injEq] at this; rw [this]

/-- The observer per channel keeps for every channel what an observer of that channel alone would have recorded over the
same batches. -/
theorem C116_channels (n : ℕ) (hn : 0 < n) (bs : List (List (List ℚ))) (hb : bs ≠ [])
    (h : ∀ x ∈ bs, x.length = n ∧ ∀ ch ∈ x, ch ≠ []) :
    ∃ os, channelsAll bs [] = .ok os ∧ os.length = n ∧
      ∀ (j : ℕ), j < n → os[j]? = some (observeAll new (bs.map fun x => x.getD j [])) := by
  have := channels_all hn bs [] h
  simp only [if_true, List.nil_append, if_neg hb] at this
  refine ⟨_, this, by simp [perChannel], ?_⟩
  intro j hj
  simp [perChannel, hj]

example : (channelsAll [[[1, 2], [-3, 0]], [[4, 0], [1, 1]]] []).toOption.map (fun os => os.map (·.range)) =
    some [some (0, 4), some (-3, 1)] := by decide +kernel

/-- A batch with another number of channels than the batches before is refused. -/
theorem C116_channels_refused (n : ℕ) (hn : 0 < n) (bs : List (List (List ℚ))) (hb : bs ≠ [])
    (h : ∀ x ∈ bs, x.length = n ∧ ∀ ch ∈ x, ch ≠ []) (x : List (List ℚ)) (hx : x.length ≠ n)
    (hne : ∃ ch ∈ x, ch ≠ []) (os : List Obs) (ho : channelsAll bs [] = .ok os) :
    observeChannels os x = .error .runtime := by
  obtain ⟨os', h1, h2, _⟩ := C116_channels n hn bs hb h
  rw [ho] at h1
  obtain rfl := Except.ok.inj h1
  unfold observeChannels
  rw [if_neg, if_neg, if_neg (by omega)]
  · intro e
    rw [e] at h2
    simp at h2
    omega
  · obtain ⟨ch, hc, hne⟩ := hne
    intro hall
    have := List.all_eq_true.1 hall ch hc
    simp at this
    exact hne this

example : (channelsAll [[[1, 2], [-3, 0]], [[4, 0]]] []).toOption = none := by decide +kernel

end Verif.Observers
