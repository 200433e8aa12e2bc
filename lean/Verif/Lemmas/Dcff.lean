import Verif.Spec.Dcff

/-! Helper lemmas for `Verif/Props/Dcff.lean`. -/

namespace Verif.Dcff
open Verif

/-- Five positions on a line. -/
def line5 : Fin 5 → ℤ := ![0, 0, 4, 7, 8]

/-- The coefficients for these positions. -/
def table5 : Fin 5 → Fin 5 → ℚ :=
  ![![256 / 531, 256 / 531, 16 / 531, 2 / 531, 1 / 531],
    ![256 / 531, 256 / 531, 16 / 531, 2 / 531, 1 / 531],
    ![1 / 21, 1 / 21, 16 / 21, 2 / 21, 1 / 21],
    ![1 / 210, 1 / 210, 8 / 105, 64 / 105, 32 / 105],
    ![1 / 402, 1 / 402, 8 / 201, 64 / 201, 128 / 201]]

/-- Bounds of the logarithms of the coefficients, in hundredths of `log 2`. -/
def logs5 : Fin 5 → Fin 5 → ℕ :=
  ![![106, 106, 506, 806, 906], ![106, 106, 506, 806, 906], ![440, 440, 40, 340, 440],
    ![772, 772, 372, 72, 172], ![866, 866, 466, 166, 66]]

/-- Three positions on a line. -/
def line3 : Fin 3 → ℤ := ![0, 0, 1]

/-- The coefficients for these positions. -/
def table3 : Fin 3 → Fin 3 → ℚ := ![![2 / 5, 2 / 5, 1 / 5], ![2 / 5, 2 / 5, 1 / 5], ![1 / 4, 1 / 4, 1 / 2]]

theorem exp_neg_lt_one {n : ℕ} (h : 0 < n) : Real.exp (-(1 * (n : ℝ))) < 1 := by
  have : (0 : ℝ) < n := by exact_mod_cast h
  calc Real.exp (-(1 * (n : ℝ))) < Real.exp 0 := Real.exp_lt_exp.2 (by linarith)
    _ = 1 := Real.exp_zero

theorem tanh_half (x : ℝ) : Real.tanh (x / 2) = (1 - Real.exp (-(1 * x))) / (1 + Real.exp (-(1 * x))) := by
  rw [Real.tanh_eq_sinh_div_cosh, Real.sinh_eq, Real.cosh_eq]
  have h1 : Real.exp (-(1 * x)) = Real.exp (-(x / 2)) / Real.exp (x / 2) := by
    rw [← Real.exp_sub]; congr 1; ring
  have h2 := Real.exp_pos (x / 2)
  have h3 := Real.exp_pos (-(x / 2))
  rw [h1]
  field_simp

theorem tanh_half_pos {n : ℕ} (h : 0 < n) : 0 < Real.tanh ((n : ℝ) / 2) := by
  rw [tanh_half]
  have := exp_neg_lt_one h
  have := Real.exp_pos (-(1 * (n : ℝ)))
  apply div_pos <;> linarith

theorem tanh_half_strictMono {a b : ℕ} (h : a < b) : Real.tanh ((a : ℝ) / 2) < Real.tanh ((b : ℝ) / 2) := by
  have h' : (a : ℝ) < b := by exact_mod_cast h
  rw [tanh_half, tanh_half]
  have h1 := Real.exp_pos (-(1 * (a : ℝ)))
  have h2 := Real.exp_pos (-(1 * (b : ℝ)))
  have h3 : Real.exp (-(1 * (b : ℝ))) < Real.exp (-(1 * (a : ℝ))) := Real.exp_lt_exp.2 (by linarith)
  rw [div_lt_div_iff₀ (by linarith) (by linarith)]
  nlinarith

theorem tanh_half_nonneg (n : ℕ) : 0 ≤ Real.tanh ((n : ℝ) / 2) := by
  rcases Nat.eq_zero_or_pos n with h | h
  · subst h; simp
  · exact (tanh_half_pos h).le

theorem temperature_eq {cur max : ℕ} (h : 0 < max) :
    temperature cur max = .ok (1 / (1 + 9999 * (Real.tanh ((cur : ℝ) / 2) / Real.tanh ((max : ℝ) / 2)))) := by
  have h1 := exp_neg_lt_one h
  have h2 := Real.exp_pos (-(1 * (max : ℝ)))
  have h3 := Real.exp_pos (-(1 * (cur : ℝ)))
  have e : 2 * (10000 - 1) * (1 + Real.exp (-(1 * (max : ℝ)))) / (1 - Real.exp (-(1 * (max : ℝ)))) /
      (1 + Real.exp (-(1 * (cur : ℝ)))) + 1 -
      2 * (10000 - 1) * (1 + Real.exp (-(1 * (max : ℝ)))) / (1 - Real.exp (-(1 * (max : ℝ)))) / 2 =
      1 + 9999 * (Real.tanh ((cur : ℝ) / 2) / Real.tanh ((max : ℝ) / 2)) := by
    rw [tanh_half, tanh_half]
    have d1 : 1 - Real.exp (-(1 * (max : ℝ))) ≠ 0 := by linarith
    have d2 : 1 + Real.exp (-(1 * (max : ℝ))) ≠ 0 := by linarith
    have d3 : 1 + Real.exp (-(1 * (cur : ℝ))) ≠ 0 := by linarith
    field_simp
    ring
  have hp : 0 < 1 + 9999 * (Real.tanh ((cur : ℝ) / 2) / Real.tanh ((max : ℝ) / 2)) := by
    have := div_nonneg (tanh_half_nonneg cur) (tanh_half_nonneg max)
    linarith
  unfold temperature
  dsimp only
  rw [if_neg (by linarith), e, if_neg hp.ne']

theorem legal_iff {m : ℕ} {f : ℚ} : legal m f = true ↔ 0 < f ∧ f < m := by simp [legal]

theorem floor_div_nat (a b : ℕ) : ⌊(a : ℚ) / b⌋ = ((a / b : ℕ) : ℤ) := by
  rw [Rat.floor_natCast_div_natCast]; rfl

theorem pruneTime_nat {s n it : ℕ} (hs : 0 < s) :
    pruneTime (s, n) it = true ↔ s ∣ it ∧ it / s < n := by
  have hs' : (0 : ℚ) < s := by exact_mod_cast hs
  unfold pruneTime
  dsimp only
  rw [floor_div_nat]
  simp only [Bool.and_eq_true, decide_eq_true_eq, Int.cast_natCast, Nat.cast_lt]
  refine and_congr_left fun _ => ?_
  rw [sub_eq_zero]
  constructor
  · intro h
    have h' : it = s * (it / s) := by exact_mod_cast h
    exact ⟨_, h'⟩
  · intro h
    have := Nat.mul_div_cancel' h
    exact_mod_cast this.symm

section Mixing
variable {c : ℕ} {ι : Type} [Fintype ι] (w : Fin c → ι → ℝ) {tau : ℝ}

theorem denom_pos (i : Fin c) : 0 < ∑ l, Real.exp (-dist w i l / tau) :=
  Finset.sum_pos (fun _ _ => Real.exp_pos _) ⟨i, Finset.mem_univ _⟩

theorem dist_self' (i : Fin c) : dist w i i = 0 := by simp [dist]

theorem dist_nonneg' (i k : Fin c) : 0 ≤ dist w i k := Real.sqrt_nonneg _

theorem pooled_pos (i k : Fin c) : 0 < pooled w tau i k := div_pos (Real.exp_pos _) (denom_pos w i)

theorem pooled_sum (i : Fin c) : ∑ k, pooled w tau i k = 1 := by
  unfold pooled
  rw [← Finset.sum_div, div_self (denom_pos w i).ne']

theorem pooled_anti (ht : 0 < tau) (i k l : Fin c) :
    dist w i k ≤ dist w i l ↔ pooled w tau i l ≤ pooled w tau i k := by
  unfold pooled
  rw [div_le_div_iff_of_pos_right (denom_pos w i), Real.exp_le_exp, div_le_div_iff_of_pos_right ht]
  constructor <;> intro h <;> linarith

end Mixing

/-- There is such a function: take the first ones after sorting. -/
theorem exists_picks (c : ℕ) : ∃ topk : TopK c, Picks topk := by
  classical
  refine ⟨fun s k => ((List.finRange c).mergeSort fun a b => decide (s b ≤ s a)).take k, fun s k hk => ?_⟩
  have hperm := List.mergeSort_perm (List.finRange c) fun a b => decide (s b ≤ s a)
  have hsort : ((List.finRange c).mergeSort fun a b => decide (s b ≤ s a)).Pairwise fun a b => decide (s b ≤ s a) = true :=
    List.pairwise_mergeSort
      (fun a b d h1 h2 => by simp only [decide_eq_true_eq] at *; exact le_trans h2 h1)
      (fun a b => by simp only [Bool.or_eq_true, decide_eq_true_eq]; exact le_total _ _) _
  set l := (List.finRange c).mergeSort fun a b => decide (s b ≤ s a)
  have hnd : l.Nodup := hperm.nodup_iff.2 (List.nodup_finRange c)
  refine ⟨hnd.sublist (List.take_sublist _ _), ?_, fun i hi j hj => ?_⟩
  · rw [List.length_take, hperm.length_eq, List.length_finRange, Nat.min_eq_left hk]
  · have hmem : j ∈ l := hperm.mem_iff.2 (List.mem_finRange j)
    rw [← List.take_append_drop k l] at hmem hsort
    have hd : j ∈ l.drop k := (List.mem_append.1 hmem).resolve_left hj
    have := (List.pairwise_append.1 hsort).2.2 i hi j hd
    simpa using this

theorem getPooled_succeeds {m : FuseConv} (topk : TopK m.cout) (tau : ℝ) {mask} (h : m.outMask = some mask)
    (hl : mask.length = m.cout) : ∃ ch, m.getPooled topk tau = .ok ch := by
  unfold FuseConv.getPooled
  have : mask.count true ≤ m.cout := hl ▸ List.count_le_length
  rw [h]
  exact ⟨_, if_neg (by omega)⟩

theorem getPooled_ok {m : FuseConv} {topk : TopK m.cout} {tau : ℝ} {ch} (h : m.getPooled topk tau = .ok ch) :
    ∃ mask, m.outMask = some mask ∧ mask.count true ≤ m.cout ∧
      ch = (topk (score (pooled m.flat tau)) (mask.count true)).map (pooled m.flat tau) := by
  unfold FuseConv.getPooled at h
  rcases hm : m.outMask with _ | mask
  · simp [hm] at h
  · simp only [hm] at h
    by_cases hc : m.cout < mask.count true
    · simp [hc] at h
    · simp only [hc, if_false, Except.ok.injEq] at h
      exact ⟨mask, rfl, by omega, h.symm⟩

/-- The coefficients of filters on a line at whole multiples of `τ log 2`. -/
theorem pooled_line {c : ℕ} (n : Fin c → ℤ) {tau : ℝ} (ht : 0 < tau) (i k : Fin c) :
    pooled (fun i (_ : Fin 1 × Fin 1) => tau * Real.log 2 * (n i : ℝ)) tau i k =
      (((1 / 2 : ℚ) ^ (n i - n k).natAbs / ∑ l, (1 / 2 : ℚ) ^ (n i - n l).natAbs : ℚ) : ℝ) := by
  have l2 : 0 < Real.log 2 := Real.log_pos (by norm_num)
  have key : ∀ k, Real.exp (-dist (fun i (_ : Fin 1 × Fin 1) => tau * Real.log 2 * (n i : ℝ)) i k / tau) =
      (((1 / 2 : ℚ) ^ (n i - n k).natAbs : ℚ) : ℝ) := by
    intro k
    have hd : dist (fun i (_ : Fin 1 × Fin 1) => tau * Real.log 2 * (n i : ℝ)) i k =
        tau * Real.log 2 * ((n i - n k).natAbs : ℝ) := by
      unfold dist
      rw [Fintype.sum_prod_type]
      simp only [Finset.univ_unique, Finset.sum_singleton]
      rw [← mul_sub, mul_pow, Real.sqrt_mul (by positivity), Real.sqrt_sq (by positivity)]
      refine congrArg (fun x : ℝ => tau * Real.log 2 * x) ?_
      rw [Real.sqrt_sq_eq_abs, Nat.cast_natAbs]
      push_cast; rfl
    rw [hd, show -(tau * Real.log 2 * ((n i - n k).natAbs : ℝ)) / tau = ((n i - n k).natAbs : ℝ) * -Real.log 2 by
      field_simp, Real.exp_nat_mul, Real.exp_neg, Real.exp_log (by norm_num)]
    push_cast; norm_num
  unfold pooled
  rw [key]
  simp only [key]
  push_cast; rfl

theorem table5_eq : ∀ i k, (1 / 2 : ℚ) ^ (line5 i - line5 k).natAbs / ∑ l, (1 / 2 : ℚ) ^ (line5 i - line5 l).natAbs =
    table5 i k := by decide +kernel

theorem logs5_bounds : ∀ i k, 0 < logs5 i k ∧ 0 < table5 i k + 1 / 10 ^ 7 ∧
    1 ≤ (table5 i k + 1 / 10 ^ 7) ^ 100 * 2 ^ logs5 i k ∧
    (table5 i k + 1 / 10 ^ 7) ^ 100 * 2 ^ (logs5 i k - 1) ≤ 1 := by decide +kernel

theorem log5 (i k : Fin 5) :
    -((logs5 i k : ℝ) / 100 * Real.log 2) ≤ Real.log ((table5 i k : ℝ) + eps) ∧
      Real.log ((table5 i k : ℝ) + eps) ≤ -(((logs5 i k : ℝ) - 1) / 100 * Real.log 2) := by
  obtain ⟨h0, hp, h1, h2⟩ := logs5_bounds i k
  have hx : (table5 i k : ℝ) + eps = ((table5 i k + 1 / 10 ^ 7 : ℚ) : ℝ) := by unfold eps; push_cast; rfl
  rw [hx]
  set x : ℚ := table5 i k + 1 / 10 ^ 7
  have hx0 : (0 : ℝ) < (x : ℝ) := by exact_mod_cast hp
  have h1' : (1 : ℝ) ≤ (x : ℝ) ^ 100 * 2 ^ logs5 i k := by exact_mod_cast h1
  have h2' : (x : ℝ) ^ 100 * 2 ^ (logs5 i k - 1) ≤ 1 := by exact_mod_cast h2
  have e : ∀ n : ℕ, Real.log ((x : ℝ) ^ 100 * 2 ^ n) = 100 * Real.log x + n * Real.log 2 := by
    intro n
    rw [Real.log_mul (by positivity) (by positivity), Real.log_pow, Real.log_pow]; norm_num
  have g1 := Real.log_nonneg h1'
  have g2 := Real.log_nonpos (by positivity) h2'
  rw [e] at g1 g2
  rw [Nat.cast_sub h0] at g2
  push_cast at g2
  constructor <;> linarith

theorem rank5 (L : Fin 5 → Fin 5 → ℝ) {l : ℝ} (hl : 0 < l)
    (hb : ∀ i k, -((logs5 i k : ℝ) / 100 * l) ≤ L i k ∧ L i k ≤ -(((logs5 i k : ℝ) - 1) / 100 * l)) :
    (∑ k, ((table5 4 k : ℝ) * L 4 k - table5 4 k * ((∑ l, L k l) / (5 : ℕ)))) / (5 : ℕ) <
      (∑ k, ((table5 0 k : ℝ) * L 0 k - table5 0 k * ((∑ l, L k l) / (5 : ℕ)))) / (5 : ℕ) ∧
    ∀ j, j ≠ 4 → (∑ i, ∑ k, (table5 j k : ℝ) * (L j k - L i k)) / (5 : ℕ) <
      (∑ i, ∑ k, (table5 4 k : ℝ) * (L 4 k - L i k)) / (5 : ℕ) := by
  obtain ⟨l00, u00⟩ := hb 0 0
  obtain ⟨l01, u01⟩ := hb 0 1
  obtain ⟨l02, u02⟩ := hb 0 2
  obtain ⟨l03, u03⟩ := hb 0 3
  obtain ⟨l04, u04⟩ := hb 0 4
  obtain ⟨l10, u10⟩ := hb 1 0
  obtain ⟨l11, u11⟩ := hb 1 1
  obtain ⟨l12, u12⟩ := hb 1 2
  obtain ⟨l13, u13⟩ := hb 1 3
  obtain ⟨l14, u14⟩ := hb 1 4
  obtain ⟨l20, u20⟩ := hb 2 0
  obtain ⟨l21, u21⟩ := hb 2 1
  obtain ⟨l22, u22⟩ := hb 2 2
  obtain ⟨l23, u23⟩ := hb 2 3
  obtain ⟨l24, u24⟩ := hb 2 4
  obtain ⟨l30, u30⟩ := hb 3 0
  obtain ⟨l31, u31⟩ := hb 3 1
  obtain ⟨l32, u32⟩ := hb 3 2
  obtain ⟨l33, u33⟩ := hb 3 3
  obtain ⟨l34, u34⟩ := hb 3 4
  obtain ⟨l40, u40⟩ := hb 4 0
  obtain ⟨l41, u41⟩ := hb 4 1
  obtain ⟨l42, u42⟩ := hb 4 2
  obtain ⟨l43, u43⟩ := hb 4 3
  obtain ⟨l44, u44⟩ := hb 4 4
  clear hb
  simp only [logs5, Matrix.cons_val] at *
  refine ⟨?_, fun j hj => ?_⟩
  · simp only [Fin.sum_univ_five, table5, Matrix.cons_val]
    push_cast at *
    linarith
  · fin_cases j
    · simp [Fin.sum_univ_five, table5] at *
      linarith
    · simp [Fin.sum_univ_five, table5] at *
      linarith
    · simp [Fin.sum_univ_five, table5] at *
      linarith
    · simp [Fin.sum_univ_five, table5] at *
      linarith
    · exact absurd rfl hj

theorem table3_eq : ∀ i k, (1 / 2 : ℚ) ^ (line3 i - line3 k).natAbs / ∑ l, (1 / 2 : ℚ) ^ (line3 i - line3 l).natAbs =
    table3 i k := by decide +kernel

theorem rank3 : score (fun i k => (table3 i k : ℝ)) 0 < score (fun i k => (table3 i k : ℝ)) 2 := by
  have hlt : Real.log ((2 / 5 + eps) ^ 6 * (1 / 5 + eps)) < Real.log ((1 / 4 + eps) ^ 3 * (1 / 2 + eps) ^ 4) := by
    apply Real.log_lt_log <;> unfold eps <;> norm_num
  have e0 : (0 : ℝ) < eps := by unfold eps; norm_num
  rw [Real.log_mul (by positivity) (by positivity), Real.log_mul (by positivity) (by positivity), Real.log_pow,
    Real.log_pow, Real.log_pow] at hlt
  simp [score, Fin.sum_univ_three, table3]
  norm_num at hlt ⊢
  generalize Real.log (2 / 5 + eps) = a at *
  generalize Real.log (1 / 5 + eps) = b at *
  generalize Real.log (1 / 4 + eps) = c at *
  generalize Real.log (1 / 2 + eps) = d at *
  linarith

theorem score_perm {c : ℕ} (p : Fin c → Fin c → ℝ) (σ : Equiv.Perm (Fin c)) (i : Fin c) :
    score (fun i k => p (σ i) (σ k)) i = score p (σ i) := by
  unfold score
  refine congrArg (fun x : ℝ => x / c) ?_
  rw [← Equiv.sum_comp σ fun k => p (σ i) k * Real.log (p (σ i) k + eps) -
    p (σ i) k * ((∑ l, Real.log (p k l + eps)) / c)]
  refine Finset.sum_congr rfl fun k _ => ?_
  rw [← Equiv.sum_comp σ fun l => Real.log (p (σ k) l + eps)]

theorem pooled_perm {c : ℕ} {ι : Type} [Fintype ι] (w : Fin c → ι → ℝ) (tau : ℝ) (σ : Equiv.Perm (Fin c)) :
    pooled (fun i => w (σ i)) tau = fun i k => pooled w tau (σ i) (σ k) := by
  funext i k
  unfold pooled dist
  rw [← Equiv.sum_comp σ fun l => Real.exp (-Real.sqrt (∑ x, (w (σ i) x - w l x) ^ 2) / tau)]

theorem active_eq (mask : Option (List Bool)) (full : ℕ) : active mask full = taking mask full := by
  rcases mask with _ | m
  · simp [active, taking]
  · have e : m.countP id = m.count true := by
      unfold List.count
      exact List.countP_congr fun a _ => by simp
    by_cases h : true ∈ m
    · have h0 : m.count true ≠ 0 := (List.count_pos_iff.2 h).ne'
      simp [active, taking, h, h0, e]
    · have h0 : m.count true = 0 := List.count_eq_zero.2 h
      simp [active, taking, h, h0]

theorem params_fused {m : FuseConv} {ch} (hch : m.choice = some ch) (hp : m.Pruned) (hg : m.Plain) :
    m.params = .ok (m.fused (taking m.inMask m.inChannels) ch) := by
  unfold FuseConv.params
  simp only [active_eq]
  rw [hch]
  dsimp only
  rw [if_neg hp]
  by_cases h1 : m.groups = 1
  · rw [if_pos h1]
  · rw [if_neg h1, if_pos (hg.resolve_left h1)]

theorem kept_mono (n : ℕ) (mask : Option (List Bool)) : StrictMono (kept n mask).get :=
  ((List.sortedLT_finRange n).pairwise.filter _).sortedLT.strictMono_get

theorem kept_range (n : ℕ) (mask : Option (List Bool)) (i : Fin n) :
    i ∈ Set.range (kept n mask).get ↔ ∀ l, mask = some l → l[(i : ℕ)]? = some true := by
  rw [Set.mem_range, ← List.mem_iff_get]
  unfold kept
  rw [List.mem_filter]
  rcases mask with _ | l
  · simp
  · simp only [List.mem_finRange, true_and, Option.some.injEq, forall_eq', List.getD_eq_getElem?_getD]
    rcases l[(i : ℕ)]? with _ | _ | _ <;> simp

theorem respond_fused (m : FuseConv) (n : ℕ) (ch : List (Fin m.cout → ℝ)) (o : Fin ch.length) (x : ℕ → ℕ → ℝ) :
    (m.fused n ch).respond o x = ∑ f, ch.get o f * m.respond n f x := by
  have hb : biasAt (m.fused n ch).bias o = ∑ f, ch.get o f * biasAt m.bias f := by
    rcases h : m.bias with _ | b
    · simp [FuseConv.fused, h, biasAt]
    · simp [FuseConv.fused, h, biasAt]
  have hw : (∑ i, ∑ t, (m.fused n ch).weight o i t * x i t) =
      ∑ f, ch.get o f * ∑ i : Fin m.wIn, if (i : ℕ) < n then ∑ t, m.weight f i t * x i t else 0 := by
    have e1 : ∀ F : Fin m.wIn → ℝ, (∑ i : Fin m.wIn, if (i : ℕ) < n then F i else 0) =
        ∑ i : Fin (min n m.wIn), F (i.castLE (Nat.min_le_right _ _)) := by
      intro F
      rw [← Finset.sum_filter]
      symm
      refine Finset.sum_bij (fun i _ => i.castLE (Nat.min_le_right _ _)) ?_ ?_ ?_ ?_
      · intro i _
        simp only [Finset.mem_filter, Finset.mem_univ, true_and, Fin.val_castLE]
        exact lt_of_lt_of_le i.2 (Nat.min_le_left _ _)
      · intro a _ b _ h
        exact Fin.castLE_injective _ h
      · intro b hb
        simp only [Finset.mem_filter, Finset.mem_univ, true_and] at hb
        exact ⟨⟨b, lt_min hb b.2⟩, Finset.mem_univ _, rfl⟩
      · intro a _; rfl
    simp only [e1]
    show (∑ i : Fin (min n m.wIn), ∑ t, (∑ f, ch.get o f * m.weight f (i.castLE (Nat.min_le_right _ _)) t) * x i t) = _
    simp only [Finset.sum_mul, Finset.mul_sum]
    have e2 : ∀ i : Fin (min n m.wIn), (∑ t : Fin m.kk, ∑ f, ch.get o f * m.weight f (i.castLE (Nat.min_le_right _ _)) t * x i t) =
        ∑ f, ∑ t : Fin m.kk, ch.get o f * m.weight f (i.castLE (Nat.min_le_right _ _)) t * x i t :=
      fun i => Finset.sum_comm
    simp only [e2]
    rw [Finset.sum_comm]
    refine Finset.sum_congr rfl fun f _ => Finset.sum_congr rfl fun i _ => Finset.sum_congr rfl fun t _ => ?_
    simp only [Fin.val_castLE, mul_assoc]
  unfold Params.respond FuseConv.respond
  rw [hb, hw, ← Finset.sum_add_distrib]
  exact Finset.sum_congr rfl fun f _ => (mul_add _ _ _).symm

theorem head_respond_0 (a b : ℝ) (x : ℕ → ℕ → ℝ) : (headLayer a b).respond 1 (0 : Fin 2) x = a * x 0 0 := by
  show (∑ i : Fin 2, if (i : ℕ) < 1 then ∑ t : Fin 1, (if i = 0 then (if (0 : Fin 2) = 0 then a else b) else 0) * x i t else 0) +
    0 = _
  simp [Fin.sum_univ_two]

theorem head_respond_1 (a b : ℝ) (x : ℕ → ℕ → ℝ) : (headLayer a b).respond 1 (1 : Fin 2) x = b * x 0 0 := by
  show (∑ i : Fin 2, if (i : ℕ) < 1 then ∑ t : Fin 1, (if i = 0 then (if (1 : Fin 2) = 0 then a else b) else 0) * x i t else 0) +
    0 = _
  simp [Fin.sum_univ_two]

/-- The layer with two filters satisfies what the theorems above ask for. -/
theorem headLayer_ok (a b tau : ℝ) : ∃ (topk : TopK 2) (m' : FuseConv), Picks topk ∧
    (headLayer a b).calcInformation topk tau = .ok m' ∧ (headLayer a b).Pruned ∧ (headLayer a b).Plain := by
  obtain ⟨topk, ht⟩ := exists_picks 2
  obtain ⟨ch, hch⟩ : ∃ ch, (headLayer a b).getPooled topk tau = .ok ch :=
    getPooled_succeeds (m := headLayer a b) topk tau rfl rfl
  refine ⟨topk, (headLayer a b).setForwardArgs ch, ht, ?_, ?_, Or.inl rfl⟩
  · unfold FuseConv.calcInformation
    rw [hch]; rfl
  · show ¬ (taking (some [true, false]) 2 = 2 ∧ _)
    simp [taking]

end Verif.Dcff
