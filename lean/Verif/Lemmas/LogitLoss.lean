import Verif.Spec.LogitLoss

/-! Helper lemmas for `Verif/Props/LogitLoss.lean`. -/

namespace Verif.LogitLoss
open Verif

theorem sumExp_pos {C : ℕ} [NeZero C] (z : Fin C → ℝ) : 0 < ∑ j, Real.exp (z j) :=
  Finset.sum_pos (fun _ _ => Real.exp_pos _) ⟨⟨0, Nat.pos_of_ne_zero (NeZero.ne C)⟩, Finset.mem_univ _⟩

theorem softmax_probs {C : ℕ} [NeZero C] (z : Fin C → ℝ) : Probs z (softmax z) := by
  have h := sumExp_pos z
  refine ⟨fun i => div_pos (Real.exp_pos _) h, ?_, fun i j => ?_⟩
  · simp only [softmax, ← Finset.sum_div]; exact div_self h.ne'
  · simp only [softmax, Real.exp_sub]
    have := (Real.exp_pos (z j)).ne'
    field_simp

theorem Probs.unique {C : ℕ} {z p q : Fin C → ℝ} (hp : Probs z p) (hq : Probs z q) : p = q := by
  funext j
  have e1 : p j * ∑ i, Real.exp (z i - z j) = 1 := by
    rw [Finset.mul_sum, ← hp.2.1]; exact Finset.sum_congr rfl fun i _ => (hp.2.2 i j).symm
  have e2 : q j * ∑ i, Real.exp (z i - z j) = 1 := by
    rw [Finset.mul_sum, ← hq.2.1]; exact Finset.sum_congr rfl fun i _ => (hq.2.2 i j).symm
  have hs : (∑ i, Real.exp (z i - z j)) ≠ 0 := by
    intro h; rw [h, mul_zero] at e1; exact zero_ne_one e1
  exact mul_right_cancel₀ hs (e1.trans e2.symm)

theorem Probs.eq_softmax {C : ℕ} [NeZero C] {z p : Fin C → ℝ} (hp : Probs z p) : p = softmax z :=
  hp.unique (softmax_probs z)

theorem log_softmax {C : ℕ} [NeZero C] (z : Fin C → ℝ) (i : Fin C) : Real.log (softmax z i) = logSoftmax z i := by
  simp only [softmax, logSoftmax]
  rw [Real.log_div (Real.exp_pos _).ne' (sumExp_pos z).ne', Real.log_exp]

theorem Probs.same {C : ℕ} [NeZero C] {s t p q : Fin C → ℝ} (hp : Probs t p) (hq : Probs s q) : p = q ↔ Same s t := by
  constructor
  · intro h
    refine ⟨s 0 - t 0, fun i => ?_⟩
    have h1 := hp.2.2 i 0
    have h2 := hq.2.2 i 0
    rw [← h, h1] at h2
    have h3 := mul_left_cancel₀ (hp.1 0).ne' h2
    have h4 := Real.exp_injective h3
    linarith
  · rintro ⟨a, ha⟩
    refine hp.unique ⟨hq.1, hq.2.1, fun i j => ?_⟩
    rw [hq.2.2 i j, ha i, ha j]; congr 2; ring

theorem gap_nonneg {p q : ℝ} (hp : 0 < p) (hq : 0 < q) : 0 ≤ p * Real.log (p / q) - (p - q) := by
  have h := Real.log_le_sub_one_of_pos (div_pos hq hp)
  have e : Real.log (q / p) = -Real.log (p / q) := by rw [← Real.log_inv, inv_div]
  rw [e] at h
  have h2 := mul_le_mul_of_nonneg_left h hp.le
  have e2 : p * (q / p - 1) = q - p := by field_simp
  rw [e2] at h2; linarith

theorem gap_zero {p q : ℝ} (hp : 0 < p) (hq : 0 < q) (h : p * Real.log (p / q) - (p - q) = 0) : p = q := by
  by_contra hne
  have hx : q / p ≠ 1 := fun e => hne ((div_eq_one_iff_eq hp.ne').1 e).symm
  have h1 := Real.log_lt_sub_one_of_pos (div_pos hq hp) hx
  have e : Real.log (q / p) = -Real.log (p / q) := by rw [← Real.log_inv, inv_div]
  rw [e] at h1
  have h2 := mul_lt_mul_of_pos_left h1 hp
  have e2 : p * (q / p - 1) = q - p := by field_simp
  rw [e2] at h2; linarith

theorem kl_eq_gaps {C : ℕ} {p q : Fin C → ℝ} (hp1 : ∑ i, p i = 1) (hq1 : ∑ i, q i = 1) :
    kl p q = ∑ i, (p i * Real.log (p i / q i) - (p i - q i)) := by
  rw [Finset.sum_sub_distrib, Finset.sum_sub_distrib, hp1, hq1, sub_self, sub_zero]; rfl

theorem kl_nonneg {C : ℕ} {p q : Fin C → ℝ} (hp : ∀ i, 0 < p i) (hq : ∀ i, 0 < q i) (hp1 : ∑ i, p i = 1)
    (hq1 : ∑ i, q i = 1) : 0 ≤ kl p q := by
  rw [kl_eq_gaps hp1 hq1]; exact Finset.sum_nonneg fun i _ => gap_nonneg (hp i) (hq i)

theorem kl_zero {C : ℕ} {p q : Fin C → ℝ} (hp : ∀ i, 0 < p i) (hq : ∀ i, 0 < q i) (hp1 : ∑ i, p i = 1)
    (hq1 : ∑ i, q i = 1) : kl p q = 0 ↔ p = q := by
  constructor
  · intro h
    rw [kl_eq_gaps hp1 hq1, Finset.sum_eq_zero_iff_of_nonneg fun i _ => gap_nonneg (hp i) (hq i)] at h
    exact funext fun i => gap_zero (hp i) (hq i) (h i (Finset.mem_univ _))
  · rintro rfl
    exact Finset.sum_eq_zero fun i _ => by rw [div_self (hp i).ne', Real.log_one, mul_zero]

theorem Probs.kl_nonneg {C : ℕ} {s t p q : Fin C → ℝ} (hp : Probs t p) (hq : Probs s q) : 0 ≤ kl p q :=
  LogitLoss.kl_nonneg hp.1 hq.1 hp.2.1 hq.2.1

theorem Probs.kl_zero {C : ℕ} [NeZero C] {s t p q : Fin C → ℝ} (hp : Probs t p) (hq : Probs s q) : kl p q = 0 ↔ Same s t :=
  (LogitLoss.kl_zero hp.1 hq.1 hp.2.1 hq.2.1).trans (hp.same hq)

theorem same_div {C : ℕ} {τ : ℝ} (hτ : τ ≠ 0) (s t : Fin C → ℝ) :
    Same (fun j => s j / τ) (fun j => t j / τ) ↔ Same s t := by
  constructor
  · rintro ⟨a, h⟩
    refine ⟨a * τ, fun i => ?_⟩
    have := h i
    field_simp at this; linarith
  · rintro ⟨a, h⟩
    exact ⟨a / τ, fun i => by show s i / τ = t i / τ + a / τ; rw [h i]; ring⟩

/-- The element of `F.kl_div`. -/
theorem kl_term {C : ℕ} [NeZero C] (s t : Fin C → ℝ) (i : Fin C) :
    softmax t i * Real.log (softmax t i) - softmax t i * logSoftmax s i =
      softmax t i * Real.log (softmax t i / softmax s i) := by
  rw [← log_softmax s i, Real.log_div ((softmax_probs t).1 i).ne' ((softmax_probs s).1 i).ne']; ring

/-- The sum of the elements of a tensor, samples and positions first. -/
theorem total_swap {N C P : ℕ} (x : Tensor N C P) : total x = ∑ n, ∑ p, ∑ c, x n c p :=
  Finset.sum_congr rfl fun _ _ => Finset.sum_comm

theorem klForward_eq {N C P : ℕ} [NeZero C] (k : Kl) (s t : Tensor N C P) {p q : Fin N → Fin P → Fin C → ℝ}
    (hp : ∀ n i, Probs (fun j => t n j i / k.tau) (p n i)) (hq : ∀ n i, Probs (fun j => s n j i / k.tau) (q n i)) :
    klForward k s t = (((match k.red with
      | .none => Out.full fun n c i => p n i c * Real.log (p n i c / q n i c)
      | .batchmean => .scalar (1 / N * ∑ n, ∑ i, kl (p n i) (q n i))
      | .sum => .scalar (∑ n, ∑ i, kl (p n i) (q n i))
      | .mean => .scalar ((∑ n, ∑ i, kl (p n i) (q n i)) / (N * C * P))).scale (k.tau ^ 2)).scale k.weight : Out N C P) := by
  have e : ∀ n c i, softmax (fun j => t n j i / k.tau) c * Real.log (softmax (fun j => t n j i / k.tau) c) -
      softmax (fun j => t n j i / k.tau) c * logSoftmax (fun j => s n j i / k.tau) c =
      p n i c * Real.log (p n i c / q n i c) := by
    intro n c i
    rw [kl_term, (hp n i).eq_softmax, (hq n i).eq_softmax]
  have et : total (fun n c i => p n i c * Real.log (p n i c / q n i c)) = ∑ n, ∑ i, kl (p n i) (q n i) := by
    rw [total_swap]; rfl
  unfold klForward klDiv
  simp only [e]
  cases k.red <;> simp [et, Out.scale]

theorem hasDerivAt_logSoftmax {C : ℕ} [NeZero C] (z : Fin C → ℝ) (τ : ℝ) (c j : Fin C) :
    HasDerivAt (fun x => logSoftmax (fun i => (if i = c then x else z i) / τ) j)
      (((if j = c then 1 else 0) - softmax (fun i => z i / τ) c) / τ) (z c) := by
  have e0 : (fun i => (if i = c then z c else z i) / τ) = fun i => z i / τ := by
    funext i; split_ifs with h
    · rw [h]
    · rfl
  have h1 : ∀ i, HasDerivAt (fun x : ℝ => (if i = c then x else z i) / τ) ((if i = c then 1 else 0) / τ) (z c) := by
    intro i
    by_cases h : i = c
    · simp only [h, if_true]; exact (hasDerivAt_id _).div_const τ
    · simp only [h, if_false]; simpa using hasDerivAt_const (z c) (z i / τ)
  have h2 : HasDerivAt (fun x : ℝ => ∑ i, Real.exp ((if i = c then x else z i) / τ))
      (∑ i, Real.exp ((if i = c then z c else z i) / τ) * ((if i = c then 1 else 0) / τ)) (z c) :=
    HasDerivAt.fun_sum fun i _ => (h1 i).exp
  have hpos : (∑ i, Real.exp ((if i = c then z c else z i) / τ)) ≠ 0 := (sumExp_pos _).ne'
  have h3 := (h1 j).sub (h2.log hpos)
  refine h3.congr_deriv ?_
  have e1 : ∑ i, Real.exp ((if i = c then z c else z i) / τ) * ((if i = c then 1 else 0) / τ) = Real.exp (z c / τ) / τ := by
    rw [Finset.sum_eq_single c]
    · simp [div_eq_mul_inv]
    · intro b _ hb; simp [hb]
    · simp
  have e2 : ∑ i, Real.exp ((if i = c then z c else z i) / τ) = ∑ i, Real.exp (z i / τ) := by
    exact congrArg (fun f : Fin C → ℝ => ∑ i, Real.exp (f i)) e0
  rw [e1, e2]
  simp only [softmax]
  ring

theorem cwd_term {M : ℕ} [NeZero M] (zs zt : Fin M → ℝ) :
    ∑ j, (softmax zt j * logSoftmax zt j - softmax zt j * logSoftmax zs j) = kl (softmax zt) (softmax zs) := by
  refine Finset.sum_congr rfl fun j _ => ?_
  rw [← kl_term, log_softmax]

theorem Probs.lt_one {C : ℕ} (h2 : 2 ≤ C) {z p : Fin C → ℝ} (hp : Probs z p) (l : Fin C) : p l < 1 := by
  have : ∃ j : Fin C, j ≠ l := by
    by_cases h : l = ⟨0, by omega⟩
    · exact ⟨⟨1, by omega⟩, by rw [h]; simp⟩
    · exact ⟨_, fun e => h e.symm⟩
  obtain ⟨j, hj⟩ := this
  rw [← hp.2.1]
  exact Finset.single_lt_sum hj (Finset.mem_univ _) (Finset.mem_univ _) (hp.1 j) fun k _ _ => (hp.1 k).le

theorem Probs.others {C : ℕ} {z p : Fin C → ℝ} (hp : Probs z p) (l : Fin C) : ∑ i ∈ Finset.univ.erase l, p i = 1 - p l := by
  have := Finset.add_sum_erase Finset.univ p (Finset.mem_univ l)
  rw [hp.2.1] at this; linarith

theorem kl2_eq (a b : ℝ) : kl ![a, 1 - a] ![b, 1 - b] = kl2 a b := by
  simp [kl, kl2, Fin.sum_univ_two]

theorem kl2_nonneg {a b : ℝ} (ha : 0 < a) (ha1 : a < 1) (hb : 0 < b) (hb1 : b < 1) : 0 ≤ kl2 a b := by
  rw [← kl2_eq]
  refine kl_nonneg (fun i => ?_) (fun i => ?_) ?_ ?_
  · fin_cases i <;> simp <;> linarith
  · fin_cases i <;> simp <;> linarith
  · simp [Fin.sum_univ_two]
  · simp [Fin.sum_univ_two]

theorem kl_chain {C : ℕ} (h2 : 2 ≤ C) {s t p q : Fin C → ℝ} (hp : Probs t p) (hq : Probs s q) (l : Fin C) :
    kl p q = kl2 (p l) (q l) + (1 - p l) * klOthers l p q := by
  have hpl := hp.lt_one h2 l
  have hql := hq.lt_one h2 l
  have hp' : 0 < 1 - p l := by linarith
  have hq' : 0 < 1 - q l := by linarith
  have e : (1 - p l) * klOthers l p q = ∑ i ∈ Finset.univ.erase l, p i * Real.log (p i / q i) -
      (1 - p l) * Real.log ((1 - p l) / (1 - q l)) := by
    rw [klOthers, Finset.mul_sum, ← hp.others l, Finset.sum_mul, ← Finset.sum_sub_distrib, hp.others l]
    refine Finset.sum_congr rfl fun i _ => ?_
    have h1 := (hp.1 i).ne'
    have h3 := (hq.1 i).ne'
    have e2 : p i / (1 - p l) / (q i / (1 - q l)) = (p i / q i) / ((1 - p l) / (1 - q l)) := by
      field_simp
    rw [e2, Real.log_div (div_ne_zero h1 h3) (div_ne_zero hp'.ne' hq'.ne')]
    field_simp
  rw [e, kl2, kl, ← Finset.add_sum_erase Finset.univ _ (Finset.mem_univ l)]
  ring

theorem mask_ofFn {N C : ℕ} (l : Fin N → Fin C) (n : Fin N) (c : Fin C) :
    gtMask (List.ofFn fun n => ((l n : ℕ) : ℤ)) n c = decide (c = l n) := by
  unfold gtMask
  rw [List.getElem?_ofFn, dif_pos n.2]
  by_cases h : c = l n
  · simp [h]
  · simp only [h, decide_false, beq_eq_false_iff_ne, ne_eq, Option.some.injEq, Nat.cast_inj]
    exact fun e => h (Fin.ext e.symm)

theorem scatter_ofFn {N C : ℕ} (l : Fin N → Fin C) : scatterOk N C (List.ofFn fun n => ((l n : ℕ) : ℤ)) = true := by
  unfold scatterOk
  simp only [List.length_ofFn, le_refl, decide_true, Bool.true_and, List.all_eq_true, List.mem_ofFn, forall_exists_index,
    Bool.and_eq_true, decide_eq_true_eq]
  rintro x n rfl
  exact ⟨Int.natCast_nonneg _, by exact_mod_cast (l n).2⟩

theorem cat_ofFn {N C : ℕ} (l : Fin N → Fin C) (x : Tensor N C 1) (n : Fin N) (k : Fin 2) (i : Fin 1)
    (h1 : ∑ c, x n c 0 = 1) :
    catMask x (List.ofFn fun n => ((l n : ℕ) : ℤ)) n k i = ![x n (l n) 0, 1 - x n (l n) 0] k := by
  unfold catMask
  simp only [mask_ofFn, decide_eq_true_eq]
  have e0 : ∑ c, x n c 0 * (if c = l n then (1:ℝ) else 0) = x n (l n) 0 := by simp
  fin_cases k
  · simp [e0]
  · simp only [Fin.mk_one, one_ne_zero, ↓reduceIte]
    have : ∀ c, x n c 0 * (if c = l n then (0:ℝ) else 1) = x n c 0 - x n c 0 * (if c = l n then 1 else 0) := by
      intro c; split_ifs <;> ring
    simp only [this, Finset.sum_sub_distrib, e0, h1]
    rfl

theorem dkdKl_eq {N C : ℕ} (d : Dkd) (a b : Tensor N C 1) :
    dkdKl d a b = .scalar (d.tau ^ 2 * ((if d.red = .batchmean then 1 / (N : ℝ) else 1) *
      ∑ n, ∑ c, (b n c 0 * Real.log (b n c 0) - b n c 0 * a n c 0))) := by
  unfold dkdKl klDiv
  simp only [legacy, Option.isSome, Bool.true_or, if_true, Option.getD, Bool.false_and, total, Finset.univ_unique, Fin.default_eq_zero,
    Finset.sum_singleton, Bool.false_eq_true, if_false]
  cases h : d.red <;> simp [Out.scale]

theorem log_sub_kl {C : ℕ} {p q : Fin C → ℝ} (hp : ∀ i, p i ≠ 0) (hq : ∀ i, q i ≠ 0) :
    ∑ c, (p c * Real.log (p c) - p c * Real.log (q c)) = kl p q :=
  Finset.sum_congr rfl fun c _ => by rw [Real.log_div (hp c) (hq c)]; ring

theorem lowered_eq {N C : ℕ} (τ : ℝ) (l : Fin N → Fin C) (x : Tensor N C 1) (n : Fin N) :
    (fun j : Fin C => x n j 0 / τ - 1000 * (if gtMask (List.ofFn fun n => ((l n : ℕ) : ℤ)) n j then 1 else 0)) =
      lowered τ (fun j => x n j 0) (l n) := by
  funext j
  simp only [mask_ofFn, lowered, decide_eq_true_eq]
  split_ifs <;> ring

theorem lowered_others {C : ℕ} {τ : ℝ} {z p p' : Fin C → ℝ} (h2 : 2 ≤ C) (l : Fin C) (hp : Probs (fun j => z j / τ) p)
    (hp' : Probs (lowered τ z l) p') (i : Fin C) (hi : i ≠ l) : p i / (1 - p l) = p' i / (1 - p' l) := by
  have h1 : 0 < 1 - p l := by linarith [hp.lt_one h2 l]
  have h3 : 0 < 1 - p' l := by linarith [hp'.lt_one h2 l]
  rw [div_eq_div_iff h1.ne' h3.ne', ← hp.others l, ← hp'.others l, Finset.mul_sum, Finset.mul_sum]
  refine Finset.sum_congr rfl fun j hj => ?_
  have hj' := Finset.ne_of_mem_erase hj
  rw [hp.2.2 i j, hp'.2.2 i j]
  simp only [lowered, hi, hj', if_false, sub_zero]
  ring

theorem lowered_klOthers {C : ℕ} {τ : ℝ} {s t p q p' q' : Fin C → ℝ} (h2 : 2 ≤ C) (l : Fin C) (hp : Probs (fun j => t j / τ) p)
    (hq : Probs (fun j => s j / τ) q) (hp' : Probs (lowered τ t l) p') (hq' : Probs (lowered τ s l) q') :
    klOthers l p' q' = klOthers l p q := by
  refine Finset.sum_congr rfl fun i hi => ?_
  have hi' := Finset.ne_of_mem_erase hi
  rw [lowered_others h2 l hp hp' i hi', lowered_others h2 l hq hq' i hi']

theorem same_lowered {C : ℕ} {τ : ℝ} (hτ : τ ≠ 0) (s t : Fin C → ℝ) (l : Fin C) :
    Same (lowered τ s l) (lowered τ t l) ↔ Same s t := by
  rw [← same_div hτ s t]
  refine exists_congr fun a => forall_congr' fun i => ?_
  simp only [lowered]
  constructor <;> intro h <;> linarith

theorem ce_eq {C : ℕ} [NeZero C] {s t p q : Fin C → ℝ} (hp : Probs t p) (hq : Probs s q) :
    ∑ c, -softmax t c * logSoftmax s c = entropy p + kl p q := by
  rw [entropy, kl, ← Finset.sum_neg_distrib, ← Finset.sum_add_distrib]
  refine Finset.sum_congr rfl fun c _ => ?_
  rw [← log_softmax, ← hp.eq_softmax, ← hq.eq_softmax, Real.log_div (hp.1 c).ne' (hq.1 c).ne']; ring

theorem hard_eq {C : ℕ} [NeZero C] (z : Fin C → ℝ) (l : Fin C) {p : Fin C → ℝ} (hp : Probs z p) :
    -∑ c : Fin C, oneHot C l c * logSoftmax z c = -Real.log (p l) := by
  rw [Finset.sum_eq_single l]
  · simp [oneHot, l.2, ← log_softmax, ← hp.eq_softmax]
  · intro b _ hb
    have : ¬ (b : ℕ) = l := fun e => hb (Fin.ext e)
    simp [oneHot, this]
  · simp

theorem log_nonpos_of {C : ℕ} {z p : Fin C → ℝ} (hp : Probs z p) (l : Fin C) : Real.log (p l) ≤ 0 := by
  refine Real.log_nonpos (hp.1 l).le ?_
  rw [← hp.2.1]
  exact Finset.single_le_sum (fun i _ => (hp.1 i).le) (Finset.mem_univ l)

end Verif.LogitLoss
