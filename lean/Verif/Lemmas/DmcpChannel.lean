import Verif.Spec.DmcpChannel

/-! Helper lemmas for `Verif/Props/DmcpChannel.lean`. -/

namespace Verif.DmcpChannel
open Verif SeqChannel

theorem pyInt_pos {q : ℚ} (h : 0 ≤ q) : pyInt q = ⌊q⌋ := by simp [pyInt, h]

theorem condProb_pos (a : ℝ) : 0 < condProb a := Real.exp_pos _

theorem condProb_le (a : ℝ) : condProb a ≤ 1 := by
  unfold condProb
  rw [← Real.exp_zero]
  exact Real.exp_le_exp.2 (by simp)

theorem mean_const (n : Nat) (a : ℝ) : mean n (fun _ => a) = a := by
  induction n with
  | zero => rfl
  | succ n ih => simp [mean, ih]

theorem mean_mul (n : Nat) (a : ℝ) (f : List ℝ → ℝ) : mean n (fun us => a * f us) = a * mean n f := by
  induction n generalizing f with
  | zero => rfl
  | succ n ih => simp only [mean, ih, intervalIntegral.integral_const_mul]

theorem step_integral (p a b : ℝ) (h0 : 0 ≤ p) (h1 : p ≤ 1) :
    ∫ u in (0 : ℝ)..1, (if p < u then a else b) = (1 - p) * a + p * b := by
  have i1 : ∫ u in (0 : ℝ)..p, (if p < u then a else b) = p * b := by
    rw [intervalIntegral.integral_congr_ae (g := fun _ => b)]
    · simp
    · refine Filter.Eventually.of_forall fun u hu => ?_
      rw [Set.uIoc_of_le h0] at hu
      rw [if_neg (not_lt.2 hu.2)]
  have i2 : ∫ u in p..1, (if p < u then a else b) = (1 - p) * a := by
    rw [intervalIntegral.integral_congr_ae (g := fun _ => a)]
    · simp
    · refine Filter.Eventually.of_forall fun u hu => ?_
      rw [Set.uIoc_of_le h1] at hu
      rw [if_pos hu.1]
  have e1 : IntervalIntegrable (fun u => if p < u then a else b) MeasureTheory.volume 0 p := by
    refine (intervalIntegrable_const (c := b)).congr ?_
    intro u hu
    rw [Set.uIoc_of_le h0] at hu
    simp only [if_neg (not_lt.2 hu.2)]
  have e2 : IntervalIntegrable (fun u => if p < u then a else b) MeasureTheory.volume p 1 := by
    refine (intervalIntegrable_const (c := a)).congr ?_
    intro u hu
    rw [Set.uIoc_of_le h1] at hu
    simp only [if_pos hu.1]
  rw [← intervalIntegral.integral_add_adjacent_intervals e1 e2, i1, i2]
  ring

theorem mean_step (n : Nat) (p : ℝ) (h0 : 0 ≤ p) (h1 : p ≤ 1) (a : ℝ) (f F : List ℝ → ℝ)
    (hF : ∀ u us, F (u :: us) = if p < u then a else f us) : mean (n + 1) F = (1 - p) * a + p * mean n f := by
  rw [mean, ← step_integral p a (mean n f) h0 h1]
  congr 1
  funext u
  simp only [hF]
  by_cases h : p < u
  · simp only [if_pos h, mean_const]
  · simp only [if_neg h]

theorem cumprod_map (acc : ℝ) (ps : List ℝ) : cumprod acc ps = (cumprod 1 ps).map (acc * ·) := by
  induction ps generalizing acc with
  | nil => rfl
  | cons p ps ih => 
    rw [cumprod, cumprod, ih (acc * p), ih (1 * p)]
    simp [Function.comp_def, mul_assoc]

theorem cumprod_sum (p : ℝ) (ps : List ℝ) : (cumprod 1 (p :: ps)).sum = p * (1 + (cumprod 1 ps).sum) := by
  rw [cumprod, List.sum_cons, cumprod_map, List.sum_map_mul_left]
  simp
  ring

theorem direct_mean (g : Nat) (ps : List ℝ) (h : ∀ p ∈ ps, 0 ≤ p ∧ p ≤ 1) (c : Nat) :
    mean ps.length (fun us => (direct g c ps us : ℝ)) = (cumprod 1 ps).sum * g + c := by
  induction ps generalizing c with
  | nil => simp [mean, direct, cumprod]
  | cons p ps ih =>
    rw [cumprod_sum, List.length_cons, mean_step ps.length p (h p (by simp)).1 (h p (by simp)).2 c
      (fun us => (direct g (c + g) ps us : ℝ)), ih (fun q hq => h q (by simp [hq]))]
    · push_cast
      ring
    · intro u us
      simp only [direct]
      split_ifs <;> rfl

theorem direct_ge (g : Nat) (ps us : List ℝ) (c : Nat) : c ≤ direct g c ps us := by
  induction ps generalizing c us with
  | nil => simp [direct]
  | cons p ps ih =>
    cases us with
    | nil => simp [direct]
    | cons u us =>
      rw [direct]
      split_ifs
      · exact le_refl _
      · exact (Nat.le_add_right _ _).trans (ih us (c + g))

/-- The probability that channel `x` is kept. -/
theorem direct_keeps (g : Nat) (hg : 0 < g) (ps : List ℝ) (h : ∀ p ∈ ps, 0 ≤ p ∧ p ≤ 1) (c x : Nat) (hx : c ≤ x) :
    mean ps.length (fun us => if x < direct g c ps us then 1 else 0) = (cumprod 1 ps).getD ((x - c) / g) 0 := by
  induction ps generalizing c with
  | nil => simp [mean, direct, cumprod, not_lt.2 hx]
  | cons p ps ih =>
    rw [List.length_cons, mean_step ps.length p (h p (by simp)).1 (h p (by simp)).2 0
      (fun us => if x < direct g (c + g) ps us then 1 else 0)]
    · by_cases hc : x < c + g
      · have e : ∀ us, (if x < direct g (c + g) ps us then (1 : ℝ) else 0) = 1 :=
          fun us => if_pos (lt_of_lt_of_le hc (direct_ge g ps us (c + g)))
        simp only [e, mean_const]
        rw [Nat.div_eq_of_lt (by omega)]
        simp [cumprod]
      · rw [ih (fun q hq => h q (by simp [hq])) (c + g) (by omega)]
        have : (x - c) / g = (x - (c + g)) / g + 1 := by
          rw [show x - c = x - (c + g) + g by omega, Nat.add_div_right _ hg]
        rw [this, cumprod, List.getD_cons_succ, cumprod_map (1 * p)]
        simp only [List.getD_eq_getElem?_getD, List.getElem?_map]
        cases (cumprod 1 ps)[(x - (c + g)) / g]? <;> simp
    · intro u us
      simp only [direct]
      by_cases hu : p < u
      · simp [hu, not_lt.2 hx]
      · simp [hu]

theorem direct_spec (g : Nat) (ps us : List ℝ) (hu : us.length = ps.length) (c : Nat) :
    ∃ k ≤ ps.length, direct g c ps us = c + g * k ∧ (∀ i < k, us.getD i 0 ≤ ps.getD i 0) ∧
      (k < ps.length → ps.getD k 0 < us.getD k 0) := by
  induction ps generalizing c us with
  | nil => exact ⟨0, le_refl _, by simp [direct], by simp, by simp⟩
  | cons p ps ih =>
    cases us with
    | nil => simp at hu
    | cons u us =>
      rw [direct]
      by_cases h : p < u
      · rw [if_pos h]
        exact ⟨0, by simp, by simp, by simp, fun _ => by simpa using h⟩
      · rw [if_neg h]
        obtain ⟨k, h1, h2, h3, h4⟩ := ih us (by simpa using hu) (c + g)
        refine ⟨k + 1, by simpa using h1, by rw [h2]; ring, ?_, ?_⟩
        · intro i hi
          cases i with
          | zero => simpa using h
          | succ i => simpa using h3 i (by omega)
        · intro hk
          simpa using h4 (by simpa using hk)

theorem probs (arch : List ℝ) : ∀ p ∈ arch.map condProb, 0 ≤ p ∧ p ≤ 1 := by
  intro p hp
  obtain ⟨a, _, rfl⟩ := List.mem_map.1 hp
  exact ⟨(condProb_pos a).le, condProb_le a⟩

theorem mkDiv_one (n : Nat) (k : Int) (hk : 1 ≤ k) : ChannelUnit.mkDiv (unitCfg n) k = .ok k := by
  have hq : (1 : ℚ) ≤ k := by exact_mod_cast hk
  have h1 : pyInt ((k : ℚ) + ((1 : Int) : ℚ) / 2) = k := by
    rw [pyInt_pos (by push_cast; linarith), Int.floor_eq_iff]
    constructor <;> push_cast <;> linarith
  have h2 : max 1 (k * 1) = k := by omega
  unfold ChannelUnit.mkDiv MakeDivisible.makeDivisible
  simp only [unitCfg, Option.getD_some, lt_irrefl, if_false, h1, pyFloorDiv, Int.fdiv_one, one_ne_zero, h2]
  rw [if_neg (by push_cast; linarith)]

theorem set_num (n k : Nat) (h0 : 0 < k) (hk : k ≤ n) :
    setChoice n (.num k) = .ok (List.replicate k true ++ List.replicate (n - k) false) := by
  unfold setChoice
  rw [toNum, mkDiv_one n k (by omega)]
  have : ¬ (k : Int) < 0 := by omega
  simp [Except.map, prefixMask, hk, this]

theorem chosen_direct (A : Attr) (arch us : List ℝ) (n : Nat) (h : Fits A arch n) :
    chosen A arch .direct us = (direct A.g A.minCh (arch.map condProb) us : ℝ) := by
  unfold chosen prune
  by_cases h0 : A.groups = 0
  · have : arch = [] := List.length_eq_zero_iff.1 (by rw [h.len, h0])
    simp [h0, this, direct, Choice.value]
  · simp [h0, Choice.value]

theorem chosen_expected (A : Attr) (arch us : List ℝ) (n : Nat) (h : Fits A arch n) :
    chosen A arch .expected us = (cumprod 1 (arch.map condProb)).sum * A.g + A.minCh := by
  unfold chosen prune
  by_cases h0 : A.groups = 0
  · have : arch = [] := List.length_eq_zero_iff.1 (by rw [h.len, h0])
    simp [h0, this, cumprod, Choice.value]
  · simp [h0, Choice.value]

theorem cumprod_bound (ps : List ℝ) (h : ∀ p ∈ ps, 0 ≤ p ∧ p ≤ 1) :
    0 ≤ (cumprod 1 ps).sum ∧ (cumprod 1 ps).sum ≤ ps.length := by
  induction ps with
  | nil => simp [cumprod]
  | cons p ps ih =>
    obtain ⟨h1, h2⟩ := ih (fun q hq => h q (by simp [hq]))
    obtain ⟨h3, h4⟩ := h p (by simp)
    rw [cumprod_sum]
    refine ⟨by positivity, ?_⟩
    push_cast [List.length_cons]
    nlinarith

theorem full_mask (n : Nat) (k : Int) (hk : (n : Int) ≤ k) (h1 : 1 ≤ k) :
    (ChannelUnit.mkDiv (unitCfg n) k).map (prefixMask n) = .ok (List.replicate n true) := by
  rw [mkDiv_one n k h1]
  have h2 : ¬ k < 0 := by omega
  have h3 : min k.toNat n = n := by omega
  simp [Except.map, prefixMask, h2, h3]

theorem popcount_prefix (k r : Nat) : popcount (List.replicate k true ++ List.replicate r false) = k := by
  simp [popcount, List.countP_append, List.countP_replicate]

theorem flops_direct (A B : Attr) (a b : List ℝ) (n : Nat) (k : ℝ) (us vs : List ℝ) (j : Nat)
    (hp : prune A a .direct 0 us = .ok (.num j))
    (hm : setChoice n (.num j) = .ok (List.replicate j true ++ List.replicate (n - j) false)) :
    flops A a n B b k .direct us vs = k * chosen A a .direct us * chosen B b .direct vs := by
  have hq : ∃ c, prune B b .direct 0 vs = .ok c := by
    unfold prune
    by_cases h0 : B.groups = 0
    · exact ⟨_, by simp only [h0, if_true]; rfl⟩
    · exact ⟨_, by simp only [h0, if_false]; rfl⟩
  obtain ⟨c, hc⟩ := hq
  unfold flops chosen
  simp only [hp, hc, hm, convFlops, popcount_prefix, Choice.value]

theorem mean_congr (n : Nat) (f g : List ℝ → ℝ) (h : ∀ us, us.length = n → f us = g us) : mean n f = mean n g := by
  induction n generalizing f g with
  | zero => exact h [] rfl
  | succ n ih =>
    simp only [mean]
    congr 1
    funext u
    exact ih _ _ fun us hu => h _ (by simp [hu])

end Verif.DmcpChannel
