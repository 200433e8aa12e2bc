import Verif.Lemmas.Dcff

namespace Verif.Dcff
open Verif

/-! ## Specification -/

/-! ## Temperature -/

/-- The temperature falls strictly from 1 at the first iteration to 1/10000 at the last, and is given by
a ratio of hyperbolic tangents. -/
theorem C68_temperature {max : ℕ} (h : 0 < max) :
    ∃ t : ℕ → ℝ, (∀ cur, temperature cur max = .ok (t cur)) ∧ t 0 = 1 ∧ t max = 1 / 10000 ∧
      (∀ a b, a < b → t b < t a) ∧ (∀ cur, 0 < t cur) ∧
      ∀ cur, 1 / t cur = 1 + 9999 * (Real.tanh (cur / 2) / Real.tanh (max / 2)) := by
  refine ⟨fun cur => 1 / (1 + 9999 * (Real.tanh ((cur : ℝ) / 2) / Real.tanh ((max : ℝ) / 2))),
    fun cur => temperature_eq h, ?_, ?_, ?_, ?_, ?_⟩
  · simp
  · dsimp only
    rw [div_self (tanh_half_pos h).ne']
    norm_num
  · intro a b hab
    have h0 := div_nonneg (tanh_half_nonneg a) (tanh_half_nonneg max)
    have h1 := div_lt_div_of_pos_right (tanh_half_strictMono hab) (tanh_half_pos h)
    exact one_div_lt_one_div_of_lt (by linarith) (by linarith)
  · intro cur
    have h0 := div_nonneg (tanh_half_nonneg cur) (tanh_half_nonneg max)
    exact one_div_pos.2 (by linarith)
  · intro cur
    dsimp only
    rw [one_div_one_div]

example : ∃ t, temperature 3 100 = .ok t := ⟨_, (C68_temperature (by norm_num)).choose_spec.1 3⟩

/-- A run of no iterations has no temperature. -/
theorem C68_temperature_empty (cur : ℕ) : temperature cur 0 = .error .zeroDivision := by
  unfold temperature; simp

/-- DISAGREEMENT: the temperature is meant to fall over the whole training (it is computed from the
current and from the last iteration), but the rate is one per iteration: in every run, however long, it is
below 1/9000 from the fifth iteration on, where it started from 1 and ends at 1/10000. -/
theorem C68_annealing_violated {cur max : ℕ} (h : 5 ≤ cur) (hm : cur ≤ max) :
    ∃ t, temperature cur max = .ok t ∧ t < 1 / 9000 := by
  have hpos : 0 < max := by omega
  refine ⟨_, temperature_eq hpos, ?_⟩
  have h1 : (31 : ℝ) / 33 ≤ Real.tanh ((cur : ℝ) / 2) := by
    rw [tanh_half]
    have h5 : Real.exp (-(1 * (cur : ℝ))) ≤ 1 / 32 := by
      have hc : (5 : ℝ) ≤ cur := by exact_mod_cast h
      have h2 : (2 : ℝ) ≤ Real.exp 1 := by
        have := Real.add_one_le_exp (1 : ℝ); linarith
      have h3 : (32 : ℝ) ≤ Real.exp (1 * (cur : ℝ)) := by
        calc (32 : ℝ) = 2 ^ 5 := by norm_num
          _ ≤ Real.exp 1 ^ 5 := pow_le_pow_left₀ (by norm_num) h2 5
          _ = Real.exp 5 := by rw [← Real.exp_nat_mul]; norm_num
          _ ≤ Real.exp (1 * (cur : ℝ)) := Real.exp_le_exp.2 (by linarith)
      rw [Real.exp_neg, ← one_div]
      exact one_div_le_one_div_of_le (by norm_num) h3
    have := Real.exp_pos (-(1 * (cur : ℝ)))
    rw [div_le_div_iff₀ (by norm_num) (by linarith)]
    linarith
  have h2 : Real.tanh ((max : ℝ) / 2) < 1 := by
    rw [tanh_half]
    have := Real.exp_pos (-(1 * (max : ℝ)))
    rw [div_lt_one (by linarith)]; linarith
  have h3 := tanh_half_pos hpos
  have h4 : (31 : ℝ) / 33 ≤ Real.tanh ((cur : ℝ) / 2) / Real.tanh ((max : ℝ) / 2) := by
    rw [le_div_iff₀ h3]
    nlinarith
  exact one_div_lt_one_div_of_lt (by norm_num) (by linarith)

example : ∃ t, temperature 5 1000000 = .ok t ∧ t < 1 / 9000 := C68_annealing_violated (by norm_num) (by norm_num)

/-! ## Schedule -/

/-- With a step `f` and no number of prunings, in a run of `m` iterations: the filters are fused at the
multiples of `f` that leave room for a whole step. -/
theorem C68_step {f m : ℕ} (hf : 0 < f) (hm : f < m) :
    ∃ s, schedule f 0 m 1 = .ok s ∧ ∀ it, pruneTime s it = true ↔ f ∣ it ∧ it + f ≤ m := by
  have l1 : legal m f = true := legal_iff.2 ⟨by exact_mod_cast hf, by exact_mod_cast hm⟩
  have l2 : legal m 0 = false := by simp [legal]
  refine ⟨((f : ℕ), ((m / f : ℕ) : ℚ)), ?_, ?_⟩
  · unfold schedule
    simp only [ne_eq, not_true, if_false, l1, l2]
    rw [floor_div_nat]; simp only [Int.cast_natCast]; rfl
  · intro it
    rw [pruneTime_nat hf]
    refine and_congr_right fun h => ?_
    obtain ⟨q, rfl⟩ := h
    rw [Nat.mul_div_cancel_left _ hf, ← Nat.succ_le_iff, Nat.le_div_iff_mul_le hf, Nat.succ_mul, Nat.mul_comm]

example : ∃ s, schedule (7 : ℕ) 0 100 1 = .ok s ∧ (pruneTime s 91 = true ↔ 7 ∣ 91 ∧ 91 + 7 ≤ 100) := by
  obtain ⟨s, h, h2⟩ := C68_step (f := 7) (m := 100) (by norm_num) (by norm_num)
  exact ⟨s, h, h2 91⟩

/-- With a number of prunings `n` and no step: the filters are fused exactly `n` times, at iterations of
the run. -/
theorem C68_times {n m : ℕ} (hn : 0 < n) (hm : n < m) :
    ∃ s, schedule 0 n m 1 = .ok s ∧ (∀ it, pruneTime s it = true → it < m) ∧
      ((Finset.range m).filter fun it => pruneTime s it = true).card = n := by
  have l1 : legal m n = true := legal_iff.2 ⟨by exact_mod_cast hn, by exact_mod_cast hm⟩
  have l2 : legal m 0 = false := by simp [legal]
  have hd : 0 < m / n := Nat.div_pos hm.le hn
  have key : ∀ it, pruneTime ((m / n : ℕ), n) it = true ↔ (m / n) ∣ it ∧ it / (m / n) < n :=
    fun it => pruneTime_nat hd
  have hlt : ∀ q, q < n → (m / n) * q < m := fun q hq =>
    lt_of_lt_of_le (Nat.mul_lt_mul_of_pos_left hq hd) (by rw [Nat.mul_comm]; exact Nat.mul_div_le m n)
  refine ⟨(((m / n : ℕ) : ℚ), n), ?_, ?_, ?_⟩
  · unfold schedule
    simp only [ne_eq, not_true, if_false, l1, l2]
    rw [floor_div_nat]; simp only [Int.cast_natCast]; rfl
  · intro it h
    obtain ⟨⟨q, rfl⟩, h2⟩ := (key it).1 h
    rw [Nat.mul_div_cancel_left _ hd] at h2
    exact hlt q h2
  · have : ((Finset.range m).filter fun it => pruneTime (((m / n : ℕ) : ℚ), n) it = true) =
        (Finset.range n).image fun q => (m / n) * q := by
      ext it
      simp only [Finset.mem_filter, Finset.mem_range, Finset.mem_image, key]
      constructor
      · rintro ⟨_, ⟨q, rfl⟩, h2⟩
        rw [Nat.mul_div_cancel_left _ hd] at h2
        exact ⟨q, h2, rfl⟩
      · rintro ⟨q, hq, rfl⟩
        exact ⟨hlt q hq, ⟨q, rfl⟩, by rwa [Nat.mul_div_cancel_left _ hd]⟩
    rw [this, Finset.card_image_of_injective _ fun a b h => Nat.eq_of_mul_eq_mul_left hd h, Finset.card_range]

example : ∃ s, schedule (0 : ℕ) (7 : ℕ) 100 1 = .ok s := by
  obtain ⟨s, h, _⟩ := C68_times (n := 7) (m := 100) (by norm_num) (by norm_num)
  exact ⟨s, by exact_mod_cast h⟩

/-- Both settings legal, or neither: the first training step raises. -/
theorem C68_one_only (f n : ℚ) (m : ℕ)
    (h : (0 < f ∧ f < m) ↔ (0 < n ∧ n < m)) : schedule f n m 1 = .error .runtime := by
  have e : legal m f = legal m n := by
    rw [Bool.eq_iff_iff, legal_iff, legal_iff]; exact h
  unfold schedule
  simp [e]

example : schedule 1 10 100 1 = .error .runtime := C68_one_only 1 10 100 (by norm_num)

/-- In a run over epochs the step counts epochs: with `e` epochs of `l` iterations a step of `f` epochs
fuses at the starts of the epochs that are multiples of `f`. -/
theorem C68_epochs {f e l : ℕ} (hf : 0 < f) (he : f < e) (hl : 0 < l) :
    ∃ s, schedule f 0 (e * l) e = .ok s ∧
      ∀ it, pruneTime s it = true ↔ ∃ ep, f ∣ ep ∧ ep + f ≤ e ∧ it = ep * l := by
  have he1 : e ≠ 1 := by omega
  have heq : (f : ℚ) * (((e * l : ℕ) : ℚ) / e) = ((f * l : ℕ) : ℚ) := by
    have : (e : ℚ) ≠ 0 := by exact_mod_cast (by omega : e ≠ 0)
    push_cast; field_simp
  have hlt : f * l < e * l := Nat.mul_lt_mul_of_pos_right he hl
  have hpos : 0 < f * l := Nat.mul_pos hf hl
  have l1 : legal ((e * l : ℕ) : ℚ) ((f * l : ℕ) : ℚ) = true :=
    legal_iff.2 ⟨by exact_mod_cast hpos, by exact_mod_cast hlt⟩
  have l2 : legal ((e * l : ℕ) : ℚ) 0 = false := by simp [legal]
  have hdiv : e * l / (f * l) = e / f := Nat.mul_div_mul_right e f hl
  refine ⟨(((f * l : ℕ) : ℚ), ((e * l / (f * l) : ℕ) : ℚ)), ?_, ?_⟩
  · unfold schedule
    simp only [ne_eq, he1, not_false_eq_true, if_true, heq, l1, l2]
    rw [floor_div_nat]; simp only [Int.cast_natCast]; rfl
  · intro it
    rw [pruneTime_nat hpos, hdiv]
    constructor
    · rintro ⟨⟨q, rfl⟩, h2⟩
      rw [Nat.mul_div_cancel_left _ hpos] at h2
      refine ⟨f * q, ⟨q, rfl⟩, ?_, by ring⟩
      have : (q + 1) * f ≤ e := (Nat.le_div_iff_mul_le hf).1 h2
      nlinarith
    · rintro ⟨ep, ⟨q, rfl⟩, h2, rfl⟩
      have e1 : f * q * l = f * l * q := by ring
      rw [e1]
      refine ⟨⟨q, rfl⟩, ?_⟩
      rw [Nat.mul_div_cancel_left _ hpos]
      exact (Nat.le_div_iff_mul_le hf).2 (by nlinarith)

example : ∃ s, schedule (2 : ℕ) 0 (10 * 5) 10 = .ok s ∧ (pruneTime s 30 = true ↔ ∃ ep, 2 ∣ ep ∧ ep + 2 ≤ 10 ∧ 30 = ep * 5) := by
  obtain ⟨s, h, h2⟩ := C68_epochs (f := 2) (e := 10) (l := 5) (by norm_num) (by norm_num) (by norm_num)
  exact ⟨s, h, h2 30⟩

/-- DISAGREEMENT: the documentation gives `[1, max_iters]` as legal, but a step of exactly `max_iters`
(fuse once, at the start), or `max_iters` prunings, is refused, so the run raises. -/
theorem C68_legal_violated (m : ℕ) :
    schedule m 0 m 1 = .error .runtime ∧ schedule 0 m m 1 = .error .runtime := by
  constructor <;> exact C68_one_only _ _ m (by simp)

/-! ## Mixing coefficients -/

section Mixing
variable {c : ℕ} {ι : Type} [Fintype ι] (w : Fin c → ι → ℝ) {tau : ℝ}

/-- The coefficients with which the filters are mixed into the place of one of them are positive and add
up to one. The nearer a filter (in Euclidean distance), the larger its coefficient, so its own is the
largest, and the coefficient of a filter at distance `d` is at most `exp (-d / τ)`. -/
theorem C68_coefficients (ht : 0 < tau) (i : Fin c) :
    (∀ k, 0 < pooled w tau i k) ∧ ∑ k, pooled w tau i k = 1 ∧
      (∀ k l, Real.sqrt (∑ x, (w i x - w k x) ^ 2) ≤ Real.sqrt (∑ x, (w i x - w l x) ^ 2) ↔
        pooled w tau i l ≤ pooled w tau i k) ∧
      (∀ k, pooled w tau i k ≤ pooled w tau i i) ∧
      ∀ k, pooled w tau i k ≤ Real.exp (-(Real.sqrt (∑ x, (w i x - w k x) ^ 2) / tau)) := by
  refine ⟨pooled_pos w i, pooled_sum w i, fun k l => pooled_anti w ht i k l, fun k => ?_, fun k => ?_⟩
  · rw [← pooled_anti w ht, dist_self']; exact dist_nonneg' w i k
  · unfold pooled
    rw [div_le_iff₀ (denom_pos w i), show -(Real.sqrt (∑ x, (w i x - w k x) ^ 2) / tau) = -dist w i k / tau by
      rw [neg_div]; rfl]
    have h1 : (1 : ℝ) ≤ ∑ l, Real.exp (-dist w i l / tau) := by
      have := Finset.single_le_sum (f := fun l => Real.exp (-dist w i l / tau))
        (fun _ _ => (Real.exp_pos _).le) (Finset.mem_univ i)
      simpa [dist_self'] using this
    exact le_mul_of_one_le_right (Real.exp_pos _).le h1

example : ∑ k, pooled (fun i (_ : Fin 1) => ((i : Fin 3) : ℝ)) (1 / 2) 0 k = 1 :=
  (C68_coefficients _ (by norm_num) 0).2.1

end Mixing

/-! ## Choice of the filters -/

/-- As many filters take part as output channels are active; they are distinct, have the best scores, and
each contributes its row of coefficients. -/
theorem C68_kept {m : FuseConv} {topk : TopK m.cout} (ht : Picks topk) {tau : ℝ} {ch}
    (h : m.getPooled topk tau = .ok ch) :
    ∃ mask ids, m.outMask = some mask ∧ IsTopK (score (pooled m.flat tau)) (mask.count true) ids ∧
      ch.length = mask.count true ∧ ch = ids.map (pooled m.flat tau) := by
  obtain ⟨mask, h1, h2, rfl⟩ := getPooled_ok h
  have := ht (score (pooled m.flat tau)) _ h2
  exact ⟨mask, _, h1, this, by rw [List.length_map, this.length], rfl⟩

/-- It succeeds when the output channels can be pruned and the mask has one entry for each filter. -/
theorem C68_kept_succeeds {m : FuseConv} (topk : TopK m.cout) (tau : ℝ) {mask} (h : m.outMask = some mask)
    (hl : mask.length = m.cout) : ∃ ch, m.getPooled topk tau = .ok ch := getPooled_succeeds topk tau h hl

/-- The score by which filters are kept is the mean divergence of their coefficients from those of all
filters, as the comment in the code has it, when the coefficients are symmetric (for instance when all
filters are equally far from each other). Missing: any other case, see `C68_score_violated`. -/
theorem C68_score_partial {c : ℕ} (p : Fin c → Fin c → ℝ) (hp : ∀ i k, p i k = p k i) (i : Fin c) :
    score p i = meanKL p i / c := by
  unfold score meanKL
  rcases Nat.eq_zero_or_pos c with h | h
  · subst h; exact i.elim0
  have hc : (c : ℝ) ≠ 0 := by exact_mod_cast h.ne'
  refine congrArg (fun x : ℝ => x / c) ?_
  rw [Finset.sum_comm, Finset.sum_div]
  refine Finset.sum_congr rfl fun k _ => ?_
  have e : ∑ j, p i k * (Real.log (p i k + eps) - Real.log (p j k + eps)) =
      c * (p i k * Real.log (p i k + eps)) - p i k * ∑ l, Real.log (p k l + eps) := by
    simp only [mul_sub, Finset.sum_sub_distrib, Finset.sum_const, Finset.card_univ, Fintype.card_fin,
      nsmul_eq_mul, Finset.mul_sum]
    refine congrArg (fun x : ℝ => _ - x) (Finset.sum_congr rfl fun j _ => ?_)
    rw [hp j k]
  rw [e, sub_div, mul_div_cancel_left₀ _ hc, mul_div_assoc]

example : score (pooled (fun i (_ : Fin 1) => ((i : Fin 2) : ℝ)) 1) 0 =
    meanKL (pooled (fun i (_ : Fin 1) => ((i : Fin 2) : ℝ)) 1) 0 / (2 : ℕ) := by
  refine C68_score_partial _ (fun i k => ?_) 0
  fin_cases i <;> fin_cases k <;> simp [pooled, dist, Fin.sum_univ_two, add_comm]

/-- DISAGREEMENT: filters are kept by a score that is not the divergence it is documented to be: the
logarithms are averaged along the wrong dimension. At every temperature there is a layer of five filters
of which one is to be kept and where the filter whose coefficients diverge most from the others (which
would be kept) is dropped, in favour of one that has an identical twin. -/
theorem C68_score_violated {tau : ℝ} (ht : 0 < tau) :
    ∃ w : Fin 5 → Fin 1 × Fin 1 → ℝ, w 0 = w 1 ∧
      (∀ j, j ≠ 4 → meanKL (pooled w tau) j < meanKL (pooled w tau) 4) ∧
      score (pooled w tau) 4 < score (pooled w tau) 0 ∧
      ∀ ids, IsTopK (score (pooled w tau)) 1 ids → 4 ∉ ids := by
  have l2 : 0 < Real.log 2 := Real.log_pos (by norm_num)
  set w : Fin 5 → Fin 1 × Fin 1 → ℝ := fun i _ => tau * Real.log 2 * (line5 i : ℝ) with hw
  have hp : pooled w tau = fun i k => (table5 i k : ℝ) := by
    funext i k
    rw [hw, pooled_line line5 ht, table5_eq]
  obtain ⟨h1, h2⟩ := rank5 (fun i k => Real.log ((table5 i k : ℝ) + eps)) l2 log5
  have hs : score (pooled w tau) 4 < score (pooled w tau) 0 := by
    rw [hp]; exact h1
  refine ⟨w, rfl, ?_, hs, ?_⟩
  · rw [hp]; exact h2
  · intro ids hid h4
    obtain ⟨a, rfl⟩ := List.length_eq_one_iff.1 hid.length
    have ha : a = 4 := (List.mem_singleton.1 h4).symm
    subst ha
    exact absurd (hid.best 4 h4 0 (by simp)) (not_le.2 hs)

/-- DISAGREEMENT: layers whose outputs are added share a unit, so that they lose the same channels. Here
each layer ranks its own filters: two such layers keep different filters at the same place, whatever the
temperature. (Both have three filters of which one is kept; the filters of the second are those of the
first in another order.) -/
theorem C68_aligned_violated {tau : ℝ} (ht : 0 < tau) :
    ∃ w w' : Fin 3 → Fin 1 × Fin 1 → ℝ, ∀ ids ids', IsTopK (score (pooled w tau)) 1 ids →
      IsTopK (score (pooled w' tau)) 1 ids' → ids ≠ ids' := by
  set w : Fin 3 → Fin 1 × Fin 1 → ℝ := fun i _ => tau * Real.log 2 * (line3 i : ℝ) with hw
  have hp : pooled w tau = fun i k => (table3 i k : ℝ) := by
    funext i k
    rw [hw, pooled_line line3 ht, table3_eq]
  have h02 : score (pooled w tau) 0 < score (pooled w tau) 2 := by rw [hp]; exact rank3
  have h01 : score (pooled w tau) 1 = score (pooled w tau) 0 := by
    rw [hp]
    simp [score, Fin.sum_univ_three, table3]
  have h' : ∀ i, score (pooled (fun i => w (Equiv.swap 0 2 i)) tau) i = score (pooled w tau) (Equiv.swap 0 2 i) := by
    intro i
    rw [pooled_perm w tau, score_perm (pooled w tau)]
  refine ⟨w, fun i => w (Equiv.swap 0 2 i), fun ids ids' h1 h2 he => ?_⟩
  subst he
  obtain ⟨a, rfl⟩ := List.length_eq_one_iff.1 h1.length
  have ha : a = 2 := by
    by_contra hne
    have := h1.best a (by simp) 2 (by simpa using Ne.symm hne)
    have hle : score (pooled w tau) a ≤ score (pooled w tau) 0 := by
      fin_cases a
      · exact le_refl _
      · exact h01.le
      · exact absurd rfl hne
    linarith
  subst ha
  have := h2.best 2 (by simp) 0 (by simp)
  rw [h', h', Equiv.swap_apply_left, Equiv.swap_apply_right] at this
  linarith

/-! ## Forward pass -/

/-- In a pruned layer every output channel responds to the active input channels with the mixture of the
responses of all the filters, bias included. -/
theorem C68_fuse {m : FuseConv} {ch} (hch : m.choice = some ch) (hp : m.Pruned) (hg : m.Plain) :
    ∃ P, m.params = .ok P ∧ ∃ e : P.rows = ch.length, ∀ (o : Fin P.rows) (x : ℕ → ℕ → ℝ),
      P.respond o x = ∑ f, ch.get (o.cast e) f * m.respond (taking m.inMask m.inChannels) f x :=
  ⟨_, params_fused hch hp hg, rfl, fun o x => respond_fused m _ ch o x⟩

/-- After the coefficients have been computed a pruned layer has as many output channels as are active,
and each of its responses lies between the smallest and the largest response of the filters. -/
theorem C68_forward {m m' : FuseConv} {topk : TopK m.cout} (ht : Picks topk) {tau : ℝ}
    (h : m.calcInformation topk tau = .ok m') (hp : m.Pruned) (hg : m.Plain) :
    ∃ P mask, m'.params = .ok P ∧ m.outMask = some mask ∧ P.rows = mask.count true ∧
      ∀ (o : Fin P.rows) (x : ℕ → ℕ → ℝ) (lo hi : ℝ),
        (∀ f, lo ≤ m.respond (taking m.inMask m.inChannels) f x ∧
          m.respond (taking m.inMask m.inChannels) f x ≤ hi) →
        lo ≤ P.respond o x ∧ P.respond o x ≤ hi := by
  unfold FuseConv.calcInformation at h
  rcases hg' : m.getPooled topk tau with e | ch
  · simp [hg', bind, Except.bind] at h
  · simp only [hg', bind, Except.bind, Except.ok.injEq] at h
    subst h
    obtain ⟨mask, ids, h1, h2, h3, h4⟩ := C68_kept ht hg'
    refine ⟨_, mask, params_fused (m := m.setForwardArgs ch) rfl hp hg, h1, h3, fun o x lo hi hb => ?_⟩
    have e := respond_fused m (taking m.inMask m.inChannels) ch o x
    have hrow : ∃ i, ch.get o = pooled m.flat tau i := by
      have : ch.get o ∈ ids.map (pooled m.flat tau) := h4 ▸ List.get_mem ch o
      obtain ⟨i, _, hi⟩ := List.mem_map.1 this
      exact ⟨i, hi.symm⟩
    obtain ⟨i, hi'⟩ := hrow
    have hE : (Params.respond (FuseConv.fused (m.setForwardArgs ch)
        (taking (m.setForwardArgs ch).inMask (m.setForwardArgs ch).inChannels) ch) o x) =
        ∑ f, pooled m.flat tau i f * m.respond (taking m.inMask m.inChannels) f x := by
      rw [← hi']; exact e
    rw [hE]
    have hs := pooled_sum m.flat (tau := tau) i
    constructor
    · calc lo = ∑ f, pooled m.flat tau i f * lo := by rw [← Finset.sum_mul, hs, one_mul]
        _ ≤ _ := Finset.sum_le_sum fun f _ => mul_le_mul_of_nonneg_left (hb f).1 (pooled_pos _ _ _).le
    · calc _ ≤ ∑ f, pooled m.flat tau i f * hi :=
            Finset.sum_le_sum fun f _ => mul_le_mul_of_nonneg_left (hb f).2 (pooled_pos _ _ _).le
        _ = hi := by rw [← Finset.sum_mul, hs, one_mul]

/-- Before any fusion (no coefficients bound yet) the layer computes with a slice of its own parameters:
the outputs left on by the mask, in order, and, unless it is depthwise, the inputs left on by the mask. -/
theorem C68_before {m : FuseConv} (hch : m.choice = none) (hp : m.Plain) :
    ∃ (r c : ℕ) (f : Fin r → Fin m.cout) (g : Fin c → Fin m.wIn),
      m.params = .ok ⟨r, c, m.kk, fun o i => m.weight (f o) (g i), m.bias.map fun b o => b (f o)⟩ ∧
      StrictMono f ∧ StrictMono g ∧
      (∀ i, i ∈ Set.range f ↔ ∀ mask, m.outMask = some mask → mask[(i : ℕ)]? = some true) ∧
      (∀ i, i ∈ Set.range g ↔ m.groups = 1 → ∀ mask, m.inMask = some mask → mask[(i : ℕ)]? = some true) := by
  by_cases hg : m.groups = 1
  · refine ⟨_, _, (kept m.cout m.outMask).get, (kept m.wIn m.inMask).get, ?_, kept_mono _ _, kept_mono _ _,
      kept_range _ _, fun i => (kept_range _ _ i).trans ⟨fun h _ => h, fun h => h hg⟩⟩
    unfold FuseConv.params
    rw [hch]
    exact if_pos hg
  · refine ⟨_, _, (kept m.cout m.outMask).get, id, ?_, kept_mono _ _, strictMono_id, kept_range _ _,
      fun i => ⟨fun _ h => absurd h hg, fun _ => ⟨i, rfl⟩⟩⟩
    unfold FuseConv.params
    rw [hch]
    exact (if_neg hg).trans (if_pos (hp.resolve_left hg))

example : (headLayer 1 3).choice = none ∧ (headLayer 1 3).Plain := ⟨rfl, Or.inl rfl⟩

/-- A layer none of whose channels is pruned computes with its own weight and bias. -/
theorem C68_unpruned {m : FuseConv} {ch} (hch : m.choice = some ch) (hp : ¬ m.Pruned) :
    m.params = .ok ⟨m.cout, m.wIn, m.kk, m.weight, m.bias⟩ := by
  unfold FuseConv.params
  simp only [active_eq]
  rw [hch]
  exact if_pos (not_not.1 hp)

/-- Pruned layers with several groups are refused. -/
theorem C68_groups {m : FuseConv} {ch} (hch : m.choice = some ch) (hp : m.Pruned) (hg : ¬ m.Plain) :
    m.params = .error .notImplemented := by
  unfold FuseConv.Plain at hg
  push Not at hg
  unfold FuseConv.params
  simp only [active_eq]
  rw [hch]
  dsimp only
  rw [if_neg hp, if_neg hg.1, if_neg fun h => hg.2 h.1 h.2]

example : ∃ topk m' P mask, (headLayer 1 3).calcInformation topk (1 / 2) = .ok m' ∧ m'.params = .ok P ∧
    P.rows = List.count true mask := by
  obtain ⟨topk, m', h1, h2, h3, h4⟩ := headLayer_ok 1 3 (1 / 2)
  obtain ⟨P, mask, h5, _, h6, _⟩ := C68_forward (m := headLayer 1 3) h1 h2 h3 h4
  exact ⟨topk, m', P, mask, h2, h5, h6⟩

/-- DISAGREEMENT: a layer that keeps all its outputs (the last layer of a head, say) but reads pruned
inputs does not keep its filters: whatever the temperature, no output channel is left with one of the two
filters of the layer, each gets a proper mixture of both. -/
theorem C68_head_violated {a b : ℝ} (hab : a < b) {tau : ℝ} (topk : TopK 2) (ht : Picks topk) :
    ∃ m' P, (headLayer a b).calcInformation topk tau = .ok m' ∧ m'.params = .ok P ∧
      P.rows = 2 ∧ ∀ (o : Fin P.rows) (x : ℕ → ℕ → ℝ), 0 < x 0 0 →
        (headLayer a b).respond 1 (0 : Fin 2) x < P.respond o x ∧
          P.respond o x < (headLayer a b).respond 1 (1 : Fin 2) x := by
  obtain ⟨ch, hch⟩ := C68_kept_succeeds (m := headLayer a b) topk tau rfl rfl
  have hc : (headLayer a b).calcInformation topk tau = .ok ((headLayer a b).setForwardArgs ch) := by
    unfold FuseConv.calcInformation
    rw [hch]; rfl
  have hp : ((headLayer a b).setForwardArgs ch).Pruned := by
    show ¬ (taking (some [true, false]) 2 = 2 ∧ _)
    simp [taking]
  obtain ⟨mask, ids, h1, h2, h3, h4⟩ := C68_kept (m := headLayer a b) ht hch
  refine ⟨_, _, hc, params_fused (m := (headLayer a b).setForwardArgs ch) rfl hp (Or.inl rfl), ?_, fun o x hx => ?_⟩
  · have : mask = [true, true] := by simpa [headLayer] using h1.symm
    subst this
    exact h3
  · have hrow : ∃ i, ch.get o = pooled (headLayer a b).flat tau i := by
      have : ch.get o ∈ ids.map (pooled (headLayer a b).flat tau) := h4 ▸ List.get_mem ch o
      obtain ⟨i, _, hi⟩ := List.mem_map.1 this
      exact ⟨i, hi.symm⟩
    obtain ⟨i, hi⟩ := hrow
    have e := respond_fused (headLayer a b) 1 ch o x
    rw [hi] at e
    have hE : Params.respond (FuseConv.fused ((headLayer a b).setForwardArgs ch)
        (taking ((headLayer a b).setForwardArgs ch).inMask ((headLayer a b).setForwardArgs ch).inChannels) ch) o x =
        ∑ f, pooled (headLayer a b).flat tau i f * (headLayer a b).respond 1 f x := e
    rw [hE]
    have r0 : (headLayer a b).respond 1 (0 : Fin 2) x = a * x 0 0 := head_respond_0 a b x
    have r1 : (headLayer a b).respond 1 (1 : Fin 2) x = b * x 0 0 := head_respond_1 a b x
    have hs : pooled (headLayer a b).flat tau i (0 : Fin 2) + pooled (headLayer a b).flat tau i (1 : Fin 2) = 1 := by
      rw [← pooled_sum (headLayer a b).flat (tau := tau) i]
      exact (Fin.sum_univ_two _).symm
    have p0 : 0 < pooled (headLayer a b).flat tau i (0 : Fin 2) := pooled_pos _ _ _
    have p1 : 0 < pooled (headLayer a b).flat tau i (1 : Fin 2) := pooled_pos _ _ _
    have hsum : ∑ f, pooled (headLayer a b).flat tau i f * (headLayer a b).respond 1 f x =
        pooled (headLayer a b).flat tau i (0 : Fin 2) * (a * x 0 0) +
          pooled (headLayer a b).flat tau i (1 : Fin 2) * (b * x 0 0) := by
      rw [← r0, ← r1]; exact Fin.sum_univ_two _
    rw [hsum, r0, r1]
    have hab' : a * x 0 0 < b * x 0 0 := mul_lt_mul_of_pos_right hab hx
    generalize a * x 0 0 = u at *
    generalize b * x 0 0 = v at *
    have e0 : pooled (headLayer a b).flat tau i (0 : Fin 2) = 1 - pooled (headLayer a b).flat tau i (1 : Fin 2) := by linarith
    rw [e0] at p0 ⊢
    generalize pooled (headLayer a b).flat tau i (1 : Fin 2) = q at *
    constructor <;> nlinarith

example : ∃ topk, Picks topk ∧ ∃ m', (headLayer 1 3).calcInformation topk 1 = .ok m' := by
  obtain ⟨topk, ht⟩ := exists_picks 2
  obtain ⟨m', _, h, _⟩ := C68_head_violated (a := 1) (b := 3) (tau := 1) (by norm_num) topk ht
  exact ⟨topk, ht, m', h⟩

/-- DISAGREEMENT: the coefficients are bound to the module and are no part of its state. A model built anew
with the saved weights and the saved channel counts computes with a plain slice of the weights: the
output channel that was a proper mixture of both filters is now the first filter. -/
theorem C68_reload_violated {a b : ℝ} (hab : a < b) {tau : ℝ} (topk : TopK 2) (ht : Picks topk) :
    ∃ m' P Q, (headLayer a b).calcInformation topk tau = .ok m' ∧ m'.params = .ok P ∧
      ({ m' with choice := none } : FuseConv).params = .ok Q ∧ P.rows = 2 ∧ Q.rows = 2 ∧
      (∀ (o : Fin P.rows) (o' : Fin Q.rows) (x : ℕ → ℕ → ℝ), 0 < x 0 0 → P.respond o x ≠ Q.respond o' x) := by
  obtain ⟨m', P, h1, h2, h3, h4⟩ := C68_head_violated (tau := tau) hab topk ht
  have hm : ∃ ch, m' = (headLayer a b).setForwardArgs ch := by
    unfold FuseConv.calcInformation at h1
    rcases hg : (headLayer a b).getPooled topk tau with e | ch
    · simp [hg, bind, Except.bind] at h1
    · simp only [hg, bind, Except.bind, Except.ok.injEq] at h1
      exact ⟨ch, h1.symm⟩
  obtain ⟨ch, rfl⟩ := hm
  have hk2 : kept 2 (some [true, true]) = [0, 1] := by decide
  have hk1 : kept 2 (some [true, false]) = [0] := by decide
  refine ⟨_, P, ⟨2, 1, 1, fun o _ _ => if o = 0 then a else b, none⟩, h1, h2, ?_, h3, rfl, ?_⟩
  · show FuseConv.sliced (headLayer a b) = _
    have e : FuseConv.sliced (headLayer a b) = .ok ⟨[(0 : Fin 2), 1].length, [(0 : Fin 2)].length, 1,
        fun o i => (headLayer a b).weight ([(0 : Fin 2), 1].get o) ([(0 : Fin 2)].get i), none⟩ := by
      rw [← hk2, ← hk1]; rfl
    rw [e]
    refine congrArg Except.ok ?_
    show (⟨2, 1, 1, fun o i => (headLayer a b).weight ([(0 : Fin 2), 1].get o) ([(0 : Fin 2)].get i), none⟩ : Params) = _
    refine congrArg (fun w => (⟨2, 1, 1, w, none⟩ : Params)) ?_
    funext o i t
    fin_cases o <;> fin_cases i <;> rfl
  · intro o o' x hx
    obtain ⟨g1, g2⟩ := h4 o x hx
    rw [head_respond_0] at g1
    rw [head_respond_1] at g2
    have hq : Params.respond ⟨2, 1, 1, fun o _ _ => if o = 0 then a else b, none⟩ o' x = (if o' = 0 then a else b) * x 0 0 := by
      simp [Params.respond, biasAt]
    rw [hq]
    by_cases h0 : o' = 0
    · rw [if_pos h0]; exact g1.ne'
    · rw [if_neg h0]; exact g2.ne

/-- The static layer computes with the weights of the searched one, and its numbers of channels fit its
weight: for one group, and for a depthwise layer whose inputs and outputs lose the same channels. -/
theorem C68_static {m : FuseConv} {s : Static} (h : m.toStatic = .ok s) :
    m.params = .ok s.params ∧ s.outChannels = s.params.rows ∧ s.inChannels = s.params.cin * s.groups ∧
      (m.groups = 1 → m.cout ≠ 1 → s.groups = 1) ∧
      (m.groups = m.inChannels → m.inChannels = m.cout → ∀ mask, m.inMask = some mask →
        s.groups = mask.count true) := by
  unfold FuseConv.toStatic at h
  rcases hp : m.params with e | P
  · simp [hp, bind, Except.bind] at h
  · simp only [hp, bind, Except.bind, Except.ok.injEq] at h
    subst h
    refine ⟨rfl, rfl, rfl, ?_, ?_⟩
    · intro h1 h2
      have : ¬ (m.groups = m.inChannels ∧ m.inChannels = m.cout) := fun hh => h2 (by omega)
      dsimp only
      rw [if_neg this, h1]
    · intro h1 h2 mask hm
      dsimp only
      rw [if_pos ⟨h1, h2⟩, hm]

/-- Without a mutable for the output channels, or with a mask of more channels than there are, the pooling of filters fails. -/
theorem C68_pooled_refused (m : FuseConv) (topk : TopK m.cout) (tau : ℝ) (e : Err) :
    m.getPooled topk tau = .error e ↔
      (m.outMask = none ∧ e = .key) ∨ (∃ mask, m.outMask = some mask ∧ m.cout < mask.count true ∧ e = .runtime) := by
  unfold FuseConv.getPooled
  cases h : m.outMask with
  | none => simp [eq_comm (a := e)]
  | some mask => by_cases h1 : m.cout < mask.count true <;> simp [h1, eq_comm (a := e)]

end Verif.Dcff
