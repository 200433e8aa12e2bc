import Verif.Spec.Ofd

/-! Helper lemmas for `Verif/Props/Ofd.lean`. -/

namespace Verif.Ofd
open Verif MeasureTheory ProbabilityTheory Set Filter

theorem pdf_eq (t : ℝ) : gaussianPDFReal 0 1 t = (Real.sqrt (2 * Real.pi))⁻¹ * Real.exp (-(1 / 2) * t ^ 2) := by
  rw [gaussianPDFReal]
  simp
  left; ring_nf

theorem pdf_int : Integrable fun t : ℝ => t * gaussianPDFReal 0 1 t := by
  have := (integrable_mul_exp_neg_mul_sq (b := 1 / 2) (by norm_num)).const_mul (Real.sqrt (2 * Real.pi))⁻¹
  refine this.congr (ae_of_all _ fun t => ?_)
  show _ = t * gaussianPDFReal 0 1 t
  rw [pdf_eq]; ring

theorem half_moment (a : ℝ) : ∫ t in Iic a, t ∂(gaussianReal 0 1) = - gaussianPDFReal 0 1 a := by
  have h1 : ∫ t in Iic a, t ∂(gaussianReal 0 1) = ∫ t in Iic a, t * gaussianPDFReal 0 1 t := by
    rw [← integral_indicator measurableSet_Iic, integral_gaussianReal_eq_integral_smul (by norm_num), ← integral_indicator measurableSet_Iic]
    refine integral_congr_ae (ae_of_all _ fun t => ?_)
    by_cases h : t ∈ Iic a
    · simp [indicator_of_mem h, mul_comm]
    · simp [indicator_of_notMem h]
  rw [h1]
  have d : ∀ t ∈ Iic a, HasDerivAt (fun t => - gaussianPDFReal 0 1 t) (t * gaussianPDFReal 0 1 t) t := by
    intro t _
    have e : (fun t => - gaussianPDFReal 0 1 t) = fun t => -((Real.sqrt (2 * Real.pi))⁻¹ * Real.exp (-(1 / 2) * t ^ 2)) := by
      funext t; rw [pdf_eq]
    rw [e, pdf_eq]
    have h2 : HasDerivAt (fun t : ℝ => -(1 / 2) * t ^ 2) (-(1 / 2) * (2 * t)) t := by
      have := (hasDerivAt_pow 2 t).const_mul (-(1 / 2) : ℝ)
      refine this.congr_deriv ?_
      norm_num
    refine ((h2.exp.const_mul _).neg).congr_deriv ?_
    ring
  have lim : Tendsto (fun t => - gaussianPDFReal 0 1 t) atBot (nhds 0) := by
    have e : (fun t => - gaussianPDFReal 0 1 t) = fun t => -((Real.sqrt (2 * Real.pi))⁻¹ * Real.exp (-(1 / 2) * t ^ 2)) := by
      funext t; rw [pdf_eq]
    rw [e]
    have h0 : Tendsto (fun t : ℝ => -(1 / 2) * t ^ 2) atBot atBot := by
      refine Tendsto.const_mul_atTop_of_neg (by norm_num) ?_
      have : (fun t : ℝ => t ^ 2) = fun t : ℝ => (-t) ^ 2 := by funext t; ring
      rw [this]
      exact (tendsto_pow_atTop two_ne_zero).comp tendsto_neg_atBot_atTop
    have := ((Real.tendsto_exp_atBot.comp h0).const_mul (Real.sqrt (2 * Real.pi))⁻¹).neg
    simpa using this
  have := integral_Iic_of_hasDerivAt_of_tendsto' d pdf_int.integrableOn lim
  simpa using this

theorem normal_map (m : ℝ) {s : ℝ} (hs : 0 < s) : normal m s = (gaussianReal 0 1).map fun t => m + s * t := by
  have h1 := gaussianReal_map_const_mul (μ := 0) (v := 1) s
  have h2 := gaussianReal_map_const_add (μ := s * 0) (v := NNReal.mk (s ^ 2) (sq_nonneg s) * 1) m
  rw [← h1, Measure.map_map (by fun_prop) (by fun_prop)] at h2
  have : normal m s = gaussianReal (s * 0 + m) (NNReal.mk (s ^ 2) (sq_nonneg s) * 1) := by
    unfold normal
    congr 1
    · ring
    · rw [mul_one]; exact Real.toNNReal_of_nonneg (sq_nonneg s)
  rw [this, ← h2]
  rfl

theorem pre (m : ℝ) {s : ℝ} (hs : 0 < s) : (fun t => m + s * t) ⁻¹' Iic 0 = Iic (-m / s) := by
  ext t
  simp only [mem_preimage, mem_Iic]
  rw [le_div_iff₀ hs]
  constructor <;> intro h <;> linarith

theorem chance_cdf (m : ℝ) {s : ℝ} (hs : 0 < s) : chanceNeg m s = cdf0 (-m / s) := by
  unfold chanceNeg cdf0
  rw [normal_map m hs, cdf_eq_real, measureReal_def, Measure.map_apply (by fun_prop) measurableSet_Iic, pre m hs, measureReal_def]

theorem moment (m : ℝ) {s : ℝ} (hs : 0 < s) :
    ∫ x in Iic 0, x ∂(normal m s) = m * cdf0 (-m / s) - s * gaussianPDFReal 0 1 (-m / s) := by
  rw [normal_map m hs, setIntegral_map measurableSet_Iic (by fun_prop) (by fun_prop), pre m hs]
  have hi : IntegrableOn (fun t : ℝ => t) (Iic (-m / s)) (gaussianReal 0 1) := ((memLp_id_gaussianReal (μ := 0) (v := 1) 1).integrable le_rfl).integrableOn
  rw [integral_add (integrable_const m).integrableOn (hi.const_mul s), integral_const_mul, half_moment]
  rw [setIntegral_const, cdf0, cdf_eq_real]
  simp only [smul_eq_mul]
  ring

theorem chance_pos (m : ℝ) {s : ℝ} (hs : 0 < s) : 0 < (normal m s) (Iio 0) := by
  have hv : Real.toNNReal (s ^ 2) ≠ 0 := by
    rw [Ne, Real.toNNReal_eq_zero]; have := pow_pos hs 2; linarith
  have hac := gaussianReal_absolutelyContinuous' m hv
  rw [pos_iff_ne_zero]
  intro h
  have := hac h
  simp at this

theorem meanNeg_neg (m : ℝ) {s : ℝ} (hs : 0 < s) : meanNeg m s < 0 := by
  have hp := chance_pos m hs
  haveI : IsProbabilityMeasure (normal m s) := by unfold normal; infer_instance
  have hc : 0 < chanceNeg m s := by
    unfold chanceNeg
    rw [measureReal_def, ENNReal.toReal_pos_iff]
    exact ⟨lt_of_lt_of_le hp (measure_mono Iio_subset_Iic_self), measure_lt_top _ _⟩
  have hi : IntegrableOn (fun x : ℝ => x) (Iic 0) (normal m s) := ((memLp_id_gaussianReal (μ := m) (v := Real.toNNReal (s ^ 2)) 1).integrable le_rfl).integrableOn
  have h1 : 0 < ∫ x in Iic 0, -x ∂(normal m s) := by
    have hi' : IntegrableOn (fun x : ℝ => -x) (Iic 0) (normal m s) := hi.neg
    rw [setIntegral_pos_iff_support_of_nonneg_ae ?_ hi']
    · refine lt_of_lt_of_le hp (measure_mono fun x hx => ⟨?_, Iio_subset_Iic_self hx⟩)
      simp only [Function.mem_support, ne_eq, neg_eq_zero]
      exact ne_of_lt (mem_Iio.1 hx)
    · refine (ae_restrict_iff' measurableSet_Iic).2 (ae_of_all _ fun x hx => ?_)
      simpa using hx
  rw [integral_neg] at h1
  unfold meanNeg
  exact div_neg_of_neg_of_pos (by linarith) hc

theorem margin_mean (w b : ℝ) (hw : w ≠ 0) (h : 0.001 < chanceNeg b |w|) : marginOf w b = .ok (meanNeg b |w|) := by
  have hs : 0 < |w| := abs_pos.2 hw
  rw [chance_cdf b hs] at h
  unfold marginOf
  dsimp only
  rw [if_neg hs.ne', if_pos h]
  refine congrArg Except.ok ?_
  unfold meanNeg
  rw [moment b hs, chance_cdf b hs, pdf_eq]
  have hc : cdf0 (-b / |w|) ≠ 0 := by
    intro e; rw [e] at h; norm_num at h
  have e : -(1 / 2 : ℝ) * (-b / |w|) ^ 2 = -(b / |w|) ^ 2 / 2 := by rw [neg_div, neg_sq]; ring
  rw [e, sub_div, mul_div_cancel_right₀ _ hc]
  ring

theorem init_one {t : Teacher} {cs cs' : ℕ → Option Connector} {i : Info} (h : initOne t cs i = .ok cs') :
    (∀ c, ¬ (i.connector = some c ∧ i.fromStudent = false) → cs' c = cs c) ∧
    (∀ c, i.connector = some c → i.fromStudent = false → ∃ bn m, layer t i = some bn ∧ margins bn = .ok m ∧ cs' c = some (.ofd (some m))) := by
  unfold initOne at h
  cases hc : i.connector with
  | none =>
    rw [hc] at h
    simp only [Except.ok.injEq] at h
    subst h
    exact ⟨fun _ _ => rfl, fun c h => absurd h (by simp)⟩
  | some c =>
    rw [hc] at h
    dsimp only at h
    by_cases hf : i.fromStudent = true
    · rw [if_pos hf, Except.ok.injEq] at h
      subst h
      exact ⟨fun _ _ => rfl, fun c' _ h' => by rw [hf] at h'; exact absurd h' (by simp)⟩
    · rw [if_neg hf] at h
      cases h1 : t.source i.recorder with
      | none => rw [h1] at h; exact absurd h (by simp)
      | some k =>
        rw [h1] at h; dsimp only at h
        match h2 : t.module' k with
        | none => rw [h2] at h; exact absurd h (by simp)
        | some none => rw [h2] at h; exact absurd h (by simp)
        | some (some bn) =>
          rw [h2] at h; dsimp only at h
          match h3 : cs c with
          | none => rw [h3] at h; exact absurd h (by simp)
          | some .other => rw [h3] at h; exact absurd h (by simp)
          | some (.ofd _) =>
            rw [h3] at h; dsimp only at h
            cases h4 : margins bn with
            | error e => rw [h4] at h; exact absurd h (by simp)
            | ok m =>
              rw [h4] at h
              simp only [Except.ok.injEq] at h
              subst h
              refine ⟨fun c' hn => ?_, fun c' e _ => ?_⟩
              · refine Function.update_of_ne (fun e => hn ⟨by rw [e], by simpa using hf⟩) _ _
              · rw [Option.some.injEq] at e
                subst e
                refine ⟨bn, m, ?_, h4, Function.update_self _ _ _⟩
                unfold layer; rw [h1]; simp [h2]

theorem init_fold {t : Teacher} (l : List Info) {cs cs' : ℕ → Option Connector} (h : l.foldlM (initOne t) cs = .ok cs') :
    (∀ c, (∀ i ∈ l, ¬ (i.connector = some c ∧ i.fromStudent = false)) → cs' c = cs c) ∧
    (∀ c, (∃ i ∈ l, i.connector = some c ∧ i.fromStudent = false) →
      ∃ i ∈ l, i.connector = some c ∧ i.fromStudent = false ∧ ∃ bn m, layer t i = some bn ∧ margins bn = .ok m ∧ cs' c = some (.ofd (some m))) := by
  induction l generalizing cs with
  | nil =>
    simp only [List.foldlM_nil, pure, Except.pure, Except.ok.injEq] at h
    subst h
    exact ⟨fun _ _ => rfl, fun c ⟨i, hi, _⟩ => absurd hi (by simp)⟩
  | cons a l ih =>
    rw [List.foldlM_cons] at h
    cases h1 : initOne t cs a with
    | error e => rw [h1] at h; exact absurd h (by simp [Bind.bind, Except.bind])
    | ok cs1 =>
      rw [h1] at h
      obtain ⟨p, q⟩ := ih h
      obtain ⟨p1, q1⟩ := init_one h1
      refine ⟨fun c hc => ?_, fun c hc => ?_⟩
      · rw [p c fun i hi => hc i (by simp [hi]), p1 c (hc a (by simp))]
      · by_cases hl : ∃ i ∈ l, i.connector = some c ∧ i.fromStudent = false
        · obtain ⟨i, hi, r⟩ := q c hl
          exact ⟨i, by simp [hi], r⟩
        · push Not at hl
          obtain ⟨i, hi, e1, e2⟩ := hc
          have : i = a := by
            rcases List.mem_cons.1 hi with e | e
            · exact e
            · exact absurd e2 (hl i e e1)
          subst this
          obtain ⟨bn, m, x, y, z⟩ := q1 c e1 e2
          refine ⟨i, by simp, e1, e2, bn, m, x, y, ?_⟩
          rw [p c fun j hj ⟨f1, f2⟩ => absurd f2 (hl j hj f1), z]

theorem mem_visited (l : List Loss) (i : Info) : i ∈ visited l ↔ ∃ x ∈ l, x.isOfd = true ∧ i ∈ x.inputs := by
  unfold visited
  rw [List.mem_flatMap]
  constructor
  · rintro ⟨x, hx, hi⟩
    by_cases h : x.isOfd
    · rw [if_pos h] at hi; exact ⟨x, hx, h, hi⟩
    · rw [if_neg h] at hi; exact absurd hi (by simp)
  · rintro ⟨x, hx, h, hi⟩
    exact ⟨x, hx, by rw [if_pos h]; exact hi⟩

end Verif.Ofd
