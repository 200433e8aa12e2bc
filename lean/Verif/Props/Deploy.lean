import Verif.Lemmas.Deploy

/-! Deployment of quantised layers (C72). -/

namespace Verif.Deploy
open Verif GptqQuantizer

/-! ## What layers compute -/

/-! ## Rounding -/

/-! ## Smallest and largest weights -/

/-! ## Layers -/

/-! ## Theorems -/

/-- Writing the fake-quantised weights into the layers (`update_weight_with_fakequant`), with the batch
normalisation multiplied in, gives a layer that computes what the quantised layer computes, for every scheme. -/
theorem C72_update {c : Cfg} {l : Layer} {qs : List (ℚ × ℤ)} (hq : l.quant = some qs)
    (h0 : l.bn = true → ∀ ch ∈ l.channels, ch.gamma * ch.rstd ≠ 0) (x : List ℚ) :
    (deployLayer c true false l).eval c x = l.eval c x ∧ (deployLayer c true false l).quant = none ∧
      (deployLayer c true false l).bn = false := by
  refine ⟨update_eval hq h0 x, ?_⟩
  unfold deployLayer
  rw [hq]
  simp only [if_true, Bool.false_eq_true, if_false]
  exact ⟨toFloat_quant l, toFloat_bn l⟩

/-- `get_deploy_model`: when the weights are fake-quantised and then get new fake quantisers, whose scales are
computed from the fake-quantised weights, the layer still computes the same, if the old scales use their ranges.
The rest of the property fails, see below. -/
theorem C72_deploy_partial {c : Cfg} (hc : c.Narrow) {l : Layer} {qs : List (ℚ × ℤ)} (hq : l.quant = some qs)
    (h0 : l.bn = true → ∀ ch ∈ l.channels, ch.gamma * ch.rstd ≠ 0)
    (hs : ∀ i ch, l.channels[i]? = some ch → (param c qs i).2 = 0 ∧ c.Fits (l.group c ch) (param c qs i).1) (x : List ℚ) :
    (deployLayer c true true l).eval c x = l.eval c x := by
  refine keep_eval hq h0 ?_ x
  intro i ch hch w hw
  obtain ⟨h1, h2⟩ := hs i ch hch
  have e : param c qs i = ((param c qs i).1, 0) := Prod.ext rfl h1
  rw [e]
  exact group_same hc h2 (mem_group hch hw)

/-- Layers whose scales come from a min-max observer that has seen their present weights compute the same after
deployment, whether the fake-quantised weights are written or the fake quantisers are kept or both. -/
theorem C72_calibrated {c : Cfg} (hc : c.Narrow) {l : Layer} (hq : l.quant = some (observe c (toFloat l).channels))
    (h0 : l.bn = true → ∀ ch ∈ l.channels, ch.gamma * ch.rstd ≠ 0) {update keep : Bool} (hk : update = true ∨ keep = true)
    (x : List ℚ) : (deployLayer c update keep l).eval c x = l.eval c x := by
  have h2 : ∀ ws, (c.qparams ws).2 = 0 := fun ws => by rw [qparams_narrow hc]
  cases update <;> cases keep
  · simp at hk
  · unfold deployLayer
    rw [hq]
    simp only [if_true, Bool.false_eq_true, if_false]
    refine eval_eq (d := { toFloat l with quant := some (observe c (toFloat l).channels) })
      (toFloat_bn l) (toFloat_relu l) (by simp [toFloat_channels]) ?_ h0 x
    intro i ch ch' hch hch'
    have := float_get hch hch'
    subst this
    refine ⟨?_, rfl⟩
    rw [weights_fq, weights_fq]
    unfold Layer.weightsFq
    rw [hq]
    dsimp only
    rw [folded_float (show Layer.bn { toFloat l with quant := some (observe c (toFloat l).channels) } = false from toFloat_bn l)]
  · exact update_eval hq h0 x
  · refine C72_deploy_partial hc hq h0 ?_ x
    intro i ch hch
    rw [observed_param hch]
    exact ⟨h2 _, fits_observed hc _⟩

/-- For any scale (a learned one, say): a weight that is fake-quantised to the integer `n` keeps its value after
deployment exactly if `k` divides `hi * n`, where `k` is the largest integer any weight of the group takes. -/
theorem C72_learned {c : Cfg} (hc : c.Narrow) {ws : List ℚ} {s : ℚ} (hs : 0 < s) {k : ℤ} (hk : 0 < k)
    (hall : ∀ w ∈ ws, |fq c.lo c.hi (s, 0) w| ≤ k * s) (hex : ∃ w ∈ ws, |fq c.lo c.hi (s, 0) w| = k * s)
    (he : c.eps * c.hi ≤ k * s) {w : ℚ} (hw : w ∈ ws) {n : ℤ} (hn : fq c.lo c.hi (s, 0) w = n * s) :
    fq c.lo c.hi (c.qparams (ws.map (fq c.lo c.hi (s, 0)))) (n * s) = n * s ↔ k ∣ c.hi * n := by
  obtain ⟨hlo, h1, _⟩ := range_narrow hc
  have hh : (0 : ℚ) < c.hi := by exact_mod_cast (by omega : 0 < c.hi)
  have hk' : (0 : ℚ) < k := by exact_mod_cast hk
  have ht : top (ws.map (fq c.lo c.hi (s, 0))) = k * s := by
    refine top_eq ?_ ?_ (by positivity)
    · intro v hv
      obtain ⟨w, hw, rfl⟩ := List.mem_map.1 hv
      exact hall w hw
    · obtain ⟨w, hw, h⟩ := hex
      exact Or.inr ⟨_, List.mem_map_of_mem hw, h⟩
  have hs' : 0 < k * s / c.hi := by positivity
  have hm : max (k * s / c.hi) c.eps = k * s / c.hi := max_eq_left (by rw [le_div_iff₀ hh]; exact he)
  have hb := hall w hw
  rw [hn] at hb
  rw [qparams_narrow hc, ht, hm, hlo, again hs' (by rw [mul_div_cancel₀ _ hh.ne']; exact hb)]
  have e1 : (n : ℚ) * s / (k * s / c.hi) = (c.hi * n : ℚ) / k := by field_simp
  rw [e1]
  constructor
  · intro h
    have h2 : (rhe ((c.hi * n : ℚ) / k) : ℚ) * k = c.hi * n := by
      have hs0 := hs.ne'
      have hh0 := hh.ne'
      field_simp at h
      linarith
    refine ⟨rhe ((c.hi * n : ℚ) / k), ?_⟩
    have h3 : c.hi * n = rhe ((c.hi * n : ℚ) / k) * k := by exact_mod_cast h2.symm
    rw [h3]
    ring_nf
  · rintro ⟨j, hj⟩
    have h2 : (c.hi * n : ℚ) / k = (j : ℤ) := by
      have : (c.hi : ℚ) * n = k * j := by exact_mod_cast hj
      rw [this]
      field_simp
    rw [h2, Onnx.rhe_int, ← h2]
    field_simp

/-- The same, without a condition on the scale: after deployment a weight is off by at most half a step. -/
theorem C72_learned_near {c : Cfg} (hc : c.Narrow) {ws : List ℚ} {s : ℚ} (hs : c.eps ≤ s) {w : ℚ} (hw : w ∈ ws) :
    |fq c.lo c.hi (c.qparams (ws.map (fq c.lo c.hi (s, 0)))) (fq c.lo c.hi (s, 0) w) - fq c.lo c.hi (s, 0) w| ≤ s / 2 := by
  obtain ⟨hlo, h1, _⟩ := range_narrow hc
  have hs0 : 0 < s := lt_of_lt_of_le hc.eps hs
  have hh : (0 : ℚ) < c.hi := by exact_mod_cast (by omega : 0 < c.hi)
  rw [qparams_narrow hc, hlo]
  obtain ⟨k, k0, k1, k2, k3, k4⟩ := top_levels (ws := ws) hs0 c.hi h1
  rw [k4]
  set s' := max ((k : ℚ) * s / c.hi) c.eps with hs'
  have hp : 0 < s' := lt_of_lt_of_le hc.eps (le_max_right _ _)
  have hle : s' ≤ s := by
    refine max_le ?_ hs
    rw [div_le_iff₀ hh]
    have : (k : ℚ) ≤ c.hi := by exact_mod_cast k1
    nlinarith
  have hcut : (k : ℚ) * s ≤ c.hi * s' := by
    have := le_max_left ((k : ℚ) * s / c.hi) c.eps
    rw [div_le_iff₀ hh] at this
    linarith
  rw [fq_zero_point (s := s)]
  have hl : |(level (-c.hi) c.hi s w : ℚ) * s| ≤ c.hi * s' := by
    rw [abs_mul, abs_of_pos hs0]
    refine le_trans (mul_le_mul_of_nonneg_right ?_ hs0.le) hcut
    have : ((|level (-c.hi) c.hi s w| : ℤ) : ℚ) ≤ k := by exact_mod_cast k2 w hw
    rwa [Int.cast_abs] at this
  rw [again hp hl]
  generalize level (-c.hi) c.hi s w = n
  have e : (rhe (n * s / s') : ℚ) * s' - n * s = ((rhe (n * s / s') : ℚ) - n * s / s') * s' := by
    field_simp
  rw [e, abs_mul, abs_of_pos hp]
  have := Onnx.rhe_spec (n * s / s')
  nlinarith

/-- DISAGREEMENT: deployment may change weights whose scales were learned. With eight bits, when no weight of a
group takes the integer 127 and `k < 127` is the largest one taken, every weight whose integer is not 0, `k` or
`-k` has another value after deployment, because new scales are computed from the fake-quantised weights. -/
theorem C72_learned_violated {c : Cfg} (hc : c.Narrow) (h8 : c.scheme.bit = 8) {ws : List ℚ} {s : ℚ} (hs : 0 < s) {k : ℤ}
    (hk : 0 < k) (hk127 : k < 127)
    (hall : ∀ w ∈ ws, |fq c.lo c.hi (s, 0) w| ≤ k * s) (hex : ∃ w ∈ ws, |fq c.lo c.hi (s, 0) w| = k * s)
    (he : c.eps * 127 ≤ k * s) {w : ℚ} (hw : w ∈ ws) {n : ℤ} (hn : fq c.lo c.hi (s, 0) w = n * s)
    (h0 : n ≠ 0) (h1 : n ≠ k) (h2 : n ≠ -k) :
    fq c.lo c.hi (c.qparams (ws.map (fq c.lo c.hi (s, 0)))) (n * s) ≠ n * s := by
  have hhi : c.hi = 127 := by
    rw [(range_narrow hc).2.2, h8]
    norm_num
  rw [Ne, C72_learned hc hs hk hall hex (by rw [hhi]; exact_mod_cast he) hw hn, hhi]
  intro hd
  have hcop : IsCoprime k 127 := by
    rw [Int.isCoprime_iff_gcd_eq_one, Int.gcd_comm]
    have hp : Nat.Prime 127 := by norm_num
    refine (Nat.Prime.coprime_iff_not_dvd hp).2 fun hd => ?_
    have := Nat.le_of_dvd (by omega) hd
    omega
  have hd' : k ∣ n := hcop.dvd_of_dvd_mul_left hd
  have hb := hall w hw
  rw [hn, abs_mul, abs_of_pos hs] at hb
  have hb' : |(n : ℚ)| ≤ k := le_of_mul_le_mul_right hb hs
  have hb2 : |n| ≤ k := by exact_mod_cast hb'
  obtain ⟨j, rfl⟩ := hd'
  rw [abs_mul, abs_of_pos hk] at hb2
  have hj : |j| ≤ 1 := by
    by_contra hj
    push Not at hj
    nlinarith
  rw [abs_le] at hj
  have : j = 0 ∨ j = 1 ∨ j = -1 := by omega
  rcases this with rfl | rfl | rfl
  · simp at h0
  · simp at h1
  · simp at h2

/-- DISAGREEMENT: with the full range of signed integers (`is_symmetric_range` not set), deployment changes every
layer that was calibrated with a min-max observer: the largest weight of a group is multiplied by
`hi / (hi + 1/2)`, or by `(hi + 1) / (hi + 1/2)` when the group has a negative weight of that size. -/
theorem C72_full_range_violated {c : Cfg} (h : c.scheme.signed = true) (hn : c.scheme.symRange = false)
    (hb : 2 ≤ c.scheme.bit) (hsym : c.symmetric = true) {ws : List ℚ} {w : ℚ} (hw : w ∈ ws) (hmax : ∀ v ∈ ws, |v| ≤ |w|)
    (he0 : 0 < c.eps) (he : c.eps * (2 * c.hi + 1) ≤ |w|) :
    let old := fq c.lo c.hi (c.qparams ws)
    old w ≠ 0 ∧ fq c.lo c.hi (c.qparams (ws.map old)) (old w) =
      old w * ((if -|w| ∈ ws then c.hi + 1 else c.hi) / (c.hi + 1 / 2)) := by
  obtain ⟨hlo, h1, hodd⟩ := range_full h hn hb
  have hh : (1 : ℚ) ≤ c.hi := by exact_mod_cast h1
  have hhp : (0 : ℚ) < c.hi + 1 / 2 := by linarith
  have hwp : 0 < |w| := lt_of_lt_of_le (by positivity) he
  have ht : top ws = |w| := top_eq hmax (Or.inr ⟨w, hw, rfl⟩) (abs_nonneg _)
  set s := |w| / (c.hi + 1 / 2) with hsdef
  have hsp : 0 < s := by positivity
  have hM : |w| = (c.hi + 1 / 2) * s := by rw [hsdef]; field_simp
  have hes : c.eps * 2 ≤ s := by
    rw [hsdef, le_div_iff₀ hhp]
    linarith
  have hq : c.qparams ws = (s, 0) := by
    rw [qparams_full h hn hb hsym, ht, max_eq_left (by linarith)]
  -- the integers of the largest weights
  have hplus : level c.lo c.hi s |w| = c.hi := by
    unfold level
    have : |w| / s = c.hi + 1 / 2 := by rw [hM]; field_simp
    rw [this, Onnx.rhe_tie, if_neg (by omega), hlo]
    omega
  have hminus : level c.lo c.hi s (-|w|) = -c.hi - 1 := by
    unfold level
    have : -|w| / s = ((-c.hi - 1 : ℤ) : ℚ) + 1 / 2 := by
      rw [hM]
      push_cast
      field_simp
      ring
    rw [this, Onnx.rhe_tie, if_pos (by omega), hlo]
    omega
  have hin : ∀ v ∈ ws, v ≠ -|w| → |level c.lo c.hi s v| ≤ c.hi := by
    intro v hv hne
    have hv' := hmax v hv
    rw [abs_le] at hv'
    have hgt : -|w| < v := lt_of_le_of_ne hv'.1 (Ne.symm hne)
    have hd : -((c.hi : ℚ) + 1 / 2) < v / s := by
      rw [lt_div_iff₀ hsp]
      linarith
    have hr := Onnx.rhe_spec (v / s)
    rw [abs_le] at hr
    have : ((-c.hi - 1 : ℤ) : ℚ) < rhe (v / s) := by push_cast; linarith
    have : -c.hi - 1 < rhe (v / s) := by exact_mod_cast this
    unfold level
    rw [hlo, abs_le]
    omega
  have hcase : w = |w| ∨ w = -|w| := by
    rcases abs_cases w with ⟨e, _⟩ | ⟨e, _⟩
    · exact Or.inl e.symm
    · right; linarith
  -- the new scale
  set k : ℤ := if -|w| ∈ ws then c.hi + 1 else c.hi with hk
  have hk1 : 1 ≤ k := by rw [hk]; split_ifs <;> omega
  have hkq : (1 : ℚ) ≤ k := by exact_mod_cast hk1
  have hkhi : c.hi ≤ k := by rw [hk]; split_ifs <;> omega
  have hlev : ∀ v ∈ ws, |level c.lo c.hi s v| ≤ k := by
    intro v hv
    by_cases hne : v = -|w|
    · rw [hne, hminus]
      have : k = c.hi + 1 := by rw [hk, if_pos (hne ▸ hv)]
      rw [this, abs_le]
      omega
    · exact (hin v hv hne).trans hkhi
  have htop : top (ws.map (fq c.lo c.hi (s, 0))) = k * s := by
    refine top_eq ?_ ?_ (by positivity)
    · intro v hv
      obtain ⟨u, hu, rfl⟩ := List.mem_map.1 hv
      rw [fq_zero_point, abs_mul, abs_of_pos hsp]
      have : ((|level c.lo c.hi s u| : ℤ) : ℚ) ≤ k := by exact_mod_cast hlev u hu
      rw [Int.cast_abs] at this
      exact mul_le_mul_of_nonneg_right this hsp.le
    · right
      by_cases hmem : -|w| ∈ ws
      · refine ⟨_, List.mem_map_of_mem hmem, ?_⟩
        rw [fq_zero_point, hminus, abs_mul, abs_of_pos hsp, hk, if_pos hmem]
        push_cast
        rw [show (-(c.hi : ℚ) - 1) = -(c.hi + 1) by ring, abs_neg, abs_of_pos (by linarith)]
      · have hpos : w = |w| := by
          rcases hcase with e | e
          · exact e
          · exact absurd (e ▸ hw) hmem
        refine ⟨_, List.mem_map_of_mem hw, ?_⟩
        rw [fq_zero_point, hpos, hplus, abs_mul, abs_of_pos hsp, hk, if_neg hmem, abs_of_pos (by linarith)]
  set s' := (k : ℚ) * s / (c.hi + 1 / 2) with hs'
  have hs'p : 0 < s' := by positivity
  have hq' : c.qparams (ws.map (fq c.lo c.hi (s, 0))) = (s', 0) := by
    rw [qparams_full h hn hb hsym, htop, max_eq_left]
    rw [le_div_iff₀ hhp]
    have : (c.hi : ℚ) ≤ k := by exact_mod_cast hkhi
    nlinarith
  intro old
  have hold : old = fq c.lo c.hi (s, 0) := by
    show fq c.lo c.hi (c.qparams ws) = _
    rw [hq]
  rw [hold, hq']
  have hfin : ∀ n : ℤ, level c.lo c.hi s' (n * s) = n → fq c.lo c.hi (s', 0) (n * s) = n * s * (k / (c.hi + 1 / 2)) := by
    intro n e
    rw [fq_zero_point, e, hs']
    ring
  have hdiv : ∀ n : ℤ, (n : ℚ) * s / s' = n * (c.hi + 1 / 2) / k := by
    intro n
    rw [hs']
    field_simp
  rcases hcase with e | e
  · have hold2 : fq c.lo c.hi (s, 0) w = (c.hi : ℚ) * s := by
      rw [e, fq_zero_point, hplus]
    rw [hold2]
    refine ⟨by positivity, hfin _ ?_⟩
    unfold level
    rw [hdiv]
    by_cases hmem : -|w| ∈ ws
    · have hk' : k = c.hi + 1 := by rw [hk, if_pos hmem]
      have : rhe ((c.hi : ℚ) * (c.hi + 1 / 2) / k) = c.hi := by
        refine Onnx.rhe_unique ?_
        rw [hk', abs_lt]
        push_cast
        have hp2 : (0 : ℚ) < c.hi + 1 := by linarith
        constructor
        · rw [lt_sub_iff_add_lt, ← lt_sub_iff_add_lt', div_lt_iff₀ hp2]
          nlinarith
        · rw [sub_lt_iff_lt_add, ← sub_lt_iff_lt_add', lt_div_iff₀ hp2]
          nlinarith
      rw [this, hlo]
      omega
    · have hk' : k = c.hi := by rw [hk, if_neg hmem]
      have : (c.hi : ℚ) * (c.hi + 1 / 2) / k = c.hi + 1 / 2 := by
        rw [hk']
        field_simp
      rw [this, Onnx.rhe_tie, if_neg (by omega), hlo]
      omega
  · have hmem : -|w| ∈ ws := e ▸ hw
    have hk' : k = c.hi + 1 := by rw [hk, if_pos hmem]
    have hold2 : fq c.lo c.hi (s, 0) w = ((-c.hi - 1 : ℤ) : ℚ) * s := by
      rw [e, fq_zero_point, hminus]
    rw [hold2]
    refine ⟨mul_ne_zero (by push_cast; intro h; linarith) hsp.ne', hfin _ ?_⟩
    unfold level
    rw [hdiv]
    have : (((-c.hi - 1 : ℤ) : ℚ)) * (c.hi + 1 / 2) / k = ((-c.hi - 1 : ℤ) : ℚ) + 1 / 2 := by
      rw [hk']
      push_cast
      have hp2 : (c.hi : ℚ) + 1 ≠ 0 := by linarith
      field_simp
      ring
    rw [this, Onnx.rhe_tie, if_pos (by omega), hlo]
    omega

/-- Affine schemes: weights keep their values after deployment, when the smallest and the largest integer of the
range are taken. Missing: ranges that are not used, see `C72_affine_violated`. -/
theorem C72_affine_partial {c : Cfg} (haff : c.symmetric = false) (hr : c.lo < c.hi) {ws : List ℚ} {s : ℚ} {z : ℤ}
    (hs : 0 < s) (he : c.eps ≤ s) (hz : c.lo ≤ z ∧ z ≤ c.hi)
    (hlow : ∃ w ∈ ws, fq c.lo c.hi (s, z) w = (c.lo - z : ℤ) * s) (hhigh : ∃ w ∈ ws, fq c.lo c.hi (s, z) w = (c.hi - z : ℤ) * s)
    {w : ℚ} :
    fq c.lo c.hi (c.qparams (ws.map (fq c.lo c.hi (s, z)))) (fq c.lo c.hi (s, z) w) = fq c.lo c.hi (s, z) w := by
  have hbound : ∀ v, ((c.lo - z : ℤ) : ℚ) * s ≤ fq c.lo c.hi (s, z) v ∧ fq c.lo c.hi (s, z) v ≤ ((c.hi - z : ℤ) : ℚ) * s := by
    intro v
    unfold fq
    constructor <;> refine mul_le_mul_of_nonneg_right ?_ hs.le <;> refine Int.cast_le.2 ?_ <;> dsimp only <;> omega
  have hrq : (0 : ℚ) < ((c.hi - c.lo : ℤ) : ℚ) := by exact_mod_cast (by omega : 0 < c.hi - c.lo)
  obtain ⟨a1, a2, a3⟩ := foldr_min (ws.map (fq c.lo c.hi (s, z)))
  obtain ⟨b1, b2, b3⟩ := foldr_max (ws.map (fq c.lo c.hi (s, z)))
  have hn0 : ((c.lo - z : ℤ) : ℚ) * s ≤ 0 :=
    mul_nonpos_of_nonpos_of_nonneg (by exact_mod_cast (by omega : c.lo - z ≤ 0)) hs.le
  have hp0 : 0 ≤ ((c.hi - z : ℤ) : ℚ) * s := mul_nonneg (by exact_mod_cast (by omega : 0 ≤ c.hi - z)) hs.le
  have hneg : (ws.map (fq c.lo c.hi (s, z))).foldr min 0 = ((c.lo - z : ℤ) : ℚ) * s := by
    obtain ⟨u, hu, e⟩ := hlow
    apply le_antisymm
    · rw [← e]; exact a1 _ (List.mem_map_of_mem hu)
    · rcases a3 with h | h
      · rw [h]; exact hn0
      · obtain ⟨v, _, e2⟩ := List.mem_map.1 h
        rw [← e2]; exact (hbound v).1
  have hpos : (ws.map (fq c.lo c.hi (s, z))).foldr max 0 = ((c.hi - z : ℤ) : ℚ) * s := by
    obtain ⟨u, hu, e⟩ := hhigh
    apply le_antisymm
    · rcases b3 with h | h
      · rw [h]; exact hp0
      · obtain ⟨v, _, e2⟩ := List.mem_map.1 h
        rw [← e2]; exact (hbound v).2
    · rw [← e]; exact b1 _ (List.mem_map_of_mem hu)
  have hq : c.qparams (ws.map (fq c.lo c.hi (s, z))) = (s, z) := by
    unfold Cfg.qparams
    dsimp only
    rw [haff, if_neg (by simp), hneg, hpos]
    have e1 : (((c.hi - z : ℤ) : ℚ) * s - ((c.lo - z : ℤ) : ℚ) * s) / ((c.hi - c.lo : ℤ) : ℚ) = s := by
      rw [div_eq_iff hrq.ne']
      push_cast
      ring
    rw [e1, max_eq_left he, mul_div_cancel_right₀ _ hs.ne', Onnx.rhe_int]
    refine Prod.ext rfl ?_
    dsimp only
    omega
  rw [hq]
  unfold fq
  dsimp only
  rw [mul_div_cancel_right₀ _ hs.ne', Onnx.rhe_int]
  congr 2
  omega

/-- DISAGREEMENT: with an affine scheme, deployment can change weights that were calibrated with a min-max observer:
the weights `-t/2`, `127 t` and `254.5 t` have scale `t` and become `0`, `127 t` and `254 t`, so that the new scale
is smaller and the second one changes. -/
theorem C72_affine_violated (p : Bool) {eps t : ℚ} (he : 0 < eps) (ht : 2 * eps ≤ t) :
    let ws := [-t / 2, 127 * t, (254 + 1 / 2) * t]
    let old := fq (affine p eps).lo (affine p eps).hi ((affine p eps).qparams ws)
    old (127 * t) = 127 * t ∧
      fq (affine p eps).lo (affine p eps).hi ((affine p eps).qparams (ws.map old)) (127 * t) = 128 * (254 / 255) * t := by
  have htp : 0 < t := by linarith
  have hlo : (affine p eps).lo = 0 := rfl
  have hhi : (affine p eps).hi = 255 := by show (2 : ℤ) ^ 8 - 1 = 255; norm_num
  intro ws old
  have q1 : (affine p eps).qparams ws = (t, 0) := by
    unfold Cfg.qparams
    dsimp only
    rw [if_neg (by simp [affine]), hlo, hhi]
    have e1 : ws.foldr min 0 = -t / 2 := by
      simp only [ws, List.foldr_cons, List.foldr_nil]
      rw [min_eq_right (by linarith : (0 : ℚ) ≤ (254 + 1 / 2) * t), min_eq_right (by linarith : (0 : ℚ) ≤ 127 * t),
        min_eq_left (by linarith)]
    have e2 : ws.foldr max 0 = (254 + 1 / 2) * t := by
      simp only [ws, List.foldr_cons, List.foldr_nil]
      rw [max_eq_left (by linarith : (0 : ℚ) ≤ (254 + 1 / 2) * t),
        max_eq_right (by linarith : 127 * t ≤ (254 + 1 / 2) * t), max_eq_right (by linarith)]
    rw [e1, e2]
    have e3 : ((254 + 1 / 2) * t - -t / 2) / ((255 - 0 : ℤ) : ℚ) = t := by push_cast; ring
    have e4 : (affine p eps).eps = eps := rfl
    rw [e3, e4, max_eq_left (by linarith)]
    have e5 : -t / 2 / t = ((-1 : ℤ) : ℚ) + 1 / 2 := by field_simp; norm_num
    rw [e5, Onnx.rhe_tie]
    norm_num
  have hold : ∀ (x : ℚ) (n : ℤ), 0 ≤ n → n ≤ 255 → rhe (x / t) = n → old x = n * t := by
    intro x n h0 h1 h2
    show fq _ _ ((affine p eps).qparams ws) x = _
    rw [q1, hlo, hhi, fq_zero_point]
    unfold level
    rw [h2, max_eq_left h0, min_eq_left h1]
  have o1 : old (-t / 2) = ((0 : ℤ) : ℚ) * t := by
    refine hold _ 0 (by norm_num) (by norm_num) ?_
    have e5 : -t / 2 / t = ((-1 : ℤ) : ℚ) + 1 / 2 := by field_simp; norm_num
    rw [e5, Onnx.rhe_tie]
    norm_num
  have o2 : old (127 * t) = ((127 : ℤ) : ℚ) * t := by
    refine hold _ 127 (by norm_num) (by norm_num) ?_
    rw [mul_div_cancel_right₀ _ htp.ne']
    exact Onnx.rhe_int 127
  have o3 : old ((254 + 1 / 2) * t) = ((254 : ℤ) : ℚ) * t := by
    refine hold _ 254 (by norm_num) (by norm_num) ?_
    rw [mul_div_cancel_right₀ _ htp.ne', show (254 + 1 / 2 : ℚ) = ((254 : ℤ) : ℚ) + 1 / 2 by norm_num, Onnx.rhe_tie]
    norm_num
  have q2 : (affine p eps).qparams (ws.map old) = (254 / 255 * t, 0) := by
    have hmap : ws.map old = [((0 : ℤ) : ℚ) * t, ((127 : ℤ) : ℚ) * t, ((254 : ℤ) : ℚ) * t] := by
      simp only [ws, List.map_cons, List.map_nil, o1, o2, o3]
    rw [hmap]
    unfold Cfg.qparams
    dsimp only
    rw [if_neg (by simp [affine]), hlo, hhi]
    push_cast
    simp only [List.foldr_cons, List.foldr_nil]
    rw [min_eq_right (by linarith : (0 : ℚ) ≤ 254 * t), min_eq_right (by linarith : (0 : ℚ) ≤ 127 * t),
      max_eq_left (by linarith : (0 : ℚ) ≤ 254 * t), max_eq_right (by linarith : (127 : ℚ) * t ≤ 254 * t),
      max_eq_right (by linarith : (0 : ℚ) * t ≤ 254 * t), zero_mul, min_self]
    have e4 : (affine p eps).eps = eps := rfl
    rw [e4, max_eq_left (by linarith)]
    simp only [zero_div, rhe_zero]
    refine Prod.ext ?_ ?_
    · dsimp only; ring
    · norm_num
  refine ⟨by rw [o2]; norm_num, ?_⟩
  rw [q2, hlo, hhi, fq_zero_point]
  unfold level
  have e : 127 * t / (254 / 255 * t) = ((127 : ℤ) : ℚ) + 1 / 2 := by
    have := htp.ne'
    push_cast
    field_simp
    norm_num
  rw [e, Onnx.rhe_tie]
  norm_num
  ring

/-- DISAGREEMENT: a quantised layer cannot be evaluated where the batch normalisation multiplies a channel by zero
(torch divides by that factor), but the deployed layer gives a number there. -/
theorem C72_zero_factor_violated {c : Cfg} {l : Layer} {qs : List (ℚ × ℤ)} (hq : l.quant = some qs) (hb : l.bn = true) {i : ℕ} {ch : Channel}
    (hch : l.channels[i]? = some ch) (h0 : ch.gamma * ch.rstd = 0) (update keep : Bool) (x : List ℚ) :
    (l.eval c x)[i]? = some none ∧ ∃ y, ((deployLayer c update keep l).eval c x)[i]? = some (some y) := by
  constructor
  · unfold Layer.eval
    rw [List.getElem?_map, List.getElem?_zipIdx, hch]
    simp only [Option.map_some, Layer.channel, Layer.factor, hb, h0, if_true]
  · have hlen : (deployLayer c update keep l).channels.length = l.channels.length := by
      unfold deployLayer
      rw [hq]
      dsimp only
      cases update <;> cases keep <;> simp [quantise_length, toFloat_channels]
    have hbn : (deployLayer c update keep l).bn = false := by
      unfold deployLayer
      rw [hq]
      dsimp only
      cases update <;> cases keep <;> simp [toFloat_bn]
    have hi : i < (deployLayer c update keep l).channels.length := by
      rw [hlen]
      exact (List.getElem?_eq_some_iff.1 hch).1
    unfold Layer.eval
    rw [List.getElem?_map, List.getElem?_zipIdx, List.getElem?_eq_getElem hi]
    simp [Layer.channel, hbn]

/-! ## Trees of modules -/

/-- Preparing a model for deployment treats every quantised layer at whatever depth and nothing else: the tree of
modules stays as it is, layers without fake quantisers stay as they are. -/
theorem C72_tree (c : Cfg) (u k : Bool) (kind : String) (cs : List (String × Mod)) :
    (postProcess c u k (.parent kind cs)).layers =
      (Mod.parent kind cs).layers.map (fun p => (p.1, if p.2.quant = none then p.2 else deployLayer c u k p.2)) ∧
    (postProcess c u k (.parent kind cs)).shape = (Mod.parent kind cs).shape := by
  obtain ⟨h1, h2⟩ := traverse_layers c u k cs
  refine ⟨?_, by simp [postProcess, Mod.shape, h2]⟩
  simp only [postProcess, Mod.layers, h1]
  refine List.map_congr_left fun p _ => ?_
  split_ifs with h
  · unfold deployLayer
    rw [h]
  · rfl

/-! ## Activations -/

/-- The exchanged fake quantiser of activations computes the same for all inputs exactly if its range of integers
was that of the configured scheme. -/
theorem C72_activation (s : QParams.Scheme) (a : ActQuant) (hs : 0 < a.scale) (h : a.lo ≤ a.hi) :
    (∀ x, (replaceAct s a).run x = a.run x) ↔ (a.lo, a.hi) = s.range := by
  have hr : s.range.1 ≤ s.range.2 := by
    unfold QParams.Scheme.range
    have h1 : (1 : ℤ) ≤ 2 ^ (s.bit - 1) := one_le_pow₀ (by norm_num)
    have h2 : (1 : ℤ) ≤ 2 ^ s.bit := one_le_pow₀ (by norm_num)
    split_ifs <;> dsimp only <;> omega
  constructor
  · intro hx
    obtain ⟨b1, h1⟩ := run_large a hs h
    obtain ⟨b2, h2⟩ := run_large (replaceAct s a) hs hr
    obtain ⟨b3, h3⟩ := run_small a hs h
    obtain ⟨b4, h4⟩ := run_small (replaceAct s a) hs hr
    have e1 := hx (max b1 b2)
    rw [h1 _ (le_max_left _ _), h2 _ (le_max_right _ _)] at e1
    have e2 := hx (min b3 b4)
    rw [h3 _ (min_le_left _ _), h4 _ (min_le_right _ _)] at e2
    have f1 := mul_right_cancel₀ hs.ne' e1
    have f2 := mul_right_cancel₀ hs.ne' e2
    have g1 := Int.cast_injective f1
    have g2 := Int.cast_injective f2
    unfold replaceAct at g1 g2
    dsimp only at g1 g2
    refine Prod.ext ?_ ?_ <;> dsimp only <;> omega
  · intro e x
    have e1 : a.lo = s.range.1 := congrArg Prod.fst e
    have e2 : a.hi = s.range.2 := congrArg Prod.snd e
    unfold replaceAct ActQuant.run
    dsimp only
    rw [e1, e2]

/-- DISAGREEMENT: the fake quantiser of sigmoid outputs has a fixed scale of 1/256. When activations are configured
to signed integers, it is exchanged for one that cuts every output off at 127/256. -/
theorem C72_sigmoid_violated {s : QParams.Scheme} (hs : s.signed = true) (hb : s.bit = 8) {y : ℚ} (h : 1 / 2 ≤ y) :
    (replaceAct s sigmoidQuant).run y = 127 / 256 ∧ 1 / 2 ≤ sigmoidQuant.run y := by
  have hr : ((128 : ℤ) : ℚ) ≤ y / (1 / 256) := by
    rw [le_div_iff₀ (by norm_num)]
    push_cast
    linarith
  have := Onnx.le_rhe hr
  have hrange : s.range.2 = 127 ∧ s.range.1 ≤ 0 := by
    unfold QParams.Scheme.range
    rw [hs, hb, if_pos rfl]
    split_ifs <;> norm_num
  unfold replaceAct ActQuant.run sigmoidQuant fq
  dsimp only
  rw [hrange.1, show min (max (rhe (y / (1 / 256)) + 0) s.range.1) 127 = 127 by omega]
  refine ⟨by norm_num, ?_⟩
  have h2 : (128 : ℤ) ≤ min (max (rhe (y / (1 / 256)) + 0) 0) 255 - 0 := by omega
  have h3 : (128 : ℚ) ≤ ((min (max (rhe (y / (1 / 256)) + 0) 0) 255 - 0 : ℤ) : ℚ) := by exact_mod_cast h2
  linarith

/-! ## Concrete cases -/

example (x : List ℚ) : (deployLayer (narrow8 true) true true twoRows).eval (narrow8 true) x = twoRows.eval (narrow8 true) x := by
  refine C72_calibrated (narrow8_ok true) (by decide +kernel) ?_ (Or.inl rfl) x
  intro _ ch hch
  rcases List.mem_cons.1 hch with rfl | hch
  · norm_num
  · obtain rfl := List.mem_singleton.1 hch
    norm_num

example : twoRows.eval (narrow8 true) [1, 1] = [some 80, some 133] := by decide +kernel

/-- A learned scale of one for the weights 100, 30 and 0. -/
example : fq (narrow8 true).lo (narrow8 true).hi ((narrow8 true).qparams ([100, 30, 0].map (fq (narrow8 true).lo (narrow8 true).hi (1, 0)))) ((30 : ℤ) * 1) ≠
    ((30 : ℤ) : ℚ) * 1 := by
  refine C72_learned_violated (narrow8_ok true) rfl (ws := [100, 30, 0]) (s := 1) (k := 100) (w := 30) one_pos (by norm_num) (by norm_num)
    (by decide +kernel) ⟨100, by simp, by decide +kernel⟩ (by decide +kernel) (by simp) (by decide +kernel) (by norm_num) (by norm_num)
    (by norm_num)

/-- Zero and the largest weight stay. -/
example : fq (narrow8 true).lo (narrow8 true).hi ((narrow8 true).qparams ([100, 30, 0].map (fq (narrow8 true).lo (narrow8 true).hi (1, 0)))) ((100 : ℤ) * 1) =
    ((100 : ℤ) : ℚ) * 1 :=
  (C72_learned (narrow8_ok true) (ws := [100, 30, 0]) (s := 1) (k := 100) (w := 100) one_pos (by norm_num)
    (by decide +kernel) ⟨100, by simp, by decide +kernel⟩ (by decide +kernel) (by simp) (n := 100) (by decide +kernel)).2
    (by rw [show (narrow8 true).hi = 127 by decide]; norm_num)

example : fq (-128) 127 ((⟨⟨true, 8, false⟩, true, true, 1 / 8388608⟩ : Cfg).qparams ([255, -20].map (fq (-128) 127 (2, 0)))) 254 =
    254 * (127 / (127 + 1 / 2)) := by
  have h := (C72_full_range_violated (c := ⟨⟨true, 8, false⟩, true, true, 1 / 8388608⟩) rfl rfl (by decide) rfl (ws := [255, -20]) (w := 255)
    (by simp) (by decide +kernel) (by norm_num) (by decide +kernel)).2
  have e1 : fq (-128) 127 ((⟨⟨true, 8, false⟩, true, true, 1 / 8388608⟩ : Cfg).qparams [255, -20]) 255 = 254 := by decide +kernel
  have e2 : (⟨⟨true, 8, false⟩, true, true, 1 / 8388608⟩ : Cfg).qparams [255, -20] = (2, 0) := by decide +kernel
  have e3 : ¬ (-|(255 : ℚ)| ∈ ([255, -20] : List ℚ)) := by decide +kernel
  rw [if_neg e3] at h
  rw [← e1, ← e2]
  exact h

example : fq 0 255 ((affine true (1/10)).qparams ([-3, 5, 252].map (fq 0 255 (1, 3)))) (fq 0 255 (1, 3) (9 / 2)) = fq 0 255 (1, 3) (9 / 2) := by
  have hlo : (affine true (1/10)).lo = 0 := rfl
  have hhi : (affine true (1/10)).hi = 255 := by decide
  have := C72_affine_partial (c := affine true (1/10)) rfl (by rw [hlo, hhi]; norm_num) (ws := [-3, 5, 252]) (s := 1) (z := 3) one_pos
    (by norm_num [affine]) (by rw [hlo, hhi]; norm_num) ⟨-3, by simp, by decide +kernel⟩ ⟨252, by simp, by decide +kernel⟩ (w := 9 / 2)
  rwa [hlo, hhi] at this

example : (twoRows.eval (narrow8 true) [1, 1]).length = 2 := by decide +kernel

/-- A layer in a block, beside one that is not quantised. -/
example : (postProcess (narrow8 true) true true (.parent "model" [("block", .parent "Sequential" [("conv", .layer twoRows)]),
    ("head", .layer ⟨false, false, [⟨[1], 2, 1, 0, 0, 1⟩], none⟩)])).layers.map (·.1) = [["block", "conv"], ["head"]] := by
  rw [(C72_tree _ _ _ _ _).1]
  rfl

example : (replaceAct ⟨true, 8, false⟩ sigmoidQuant).run (9 / 10) = 127 / 256 :=
  (C72_sigmoid_violated (s := ⟨true, 8, false⟩) rfl rfl (by norm_num)).1

example : ∀ x, (replaceAct ⟨false, 8, false⟩ sigmoidQuant).run x = sigmoidQuant.run x :=
  (C72_activation ⟨false, 8, false⟩ sigmoidQuant (by norm_num [sigmoidQuant]) (by decide)).2 (by decide)

/-- The zero point of the observer: zero for a symmetric signed scheme, the (rounded down) middle of the range for a symmetric unsigned
one, and inside the range for the others. -/
theorem C72_zero_point (c : Cfg) (ws : List ℚ) :
    (c.symmetric = true → c.scheme.signed = true → (c.qparams ws).2 = 0) ∧
    (c.symmetric = true → c.scheme.signed = false → 2 * (c.qparams ws).2 ≤ c.lo + c.hi ∧ c.lo + c.hi ≤ 2 * (c.qparams ws).2 + 1) ∧
    (c.symmetric = false → c.lo ≤ c.hi → c.lo ≤ (c.qparams ws).2 ∧ (c.qparams ws).2 ≤ c.hi) := by
  unfold Cfg.qparams
  refine ⟨fun h h' => ?_, fun h h' => ?_, fun h h' => ?_⟩
  · simp [h, h']
  · simp only [h, h', if_true, Bool.false_eq_true, if_false]
    omega
  · simp only [h, Bool.false_eq_true, if_false]
    exact ⟨le_min (le_max_right _ _) h', min_le_right _ _⟩

end Verif.Deploy
