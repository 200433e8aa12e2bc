import Verif.Lemmas.Connect

/-! Properties of connectors, necks and generators. -/

namespace Verif.Connect
open Verif

/-! ## Properties -/

/-- C85: the spatial and the channel masks of FBKD, of student and teacher, are positive weights
of mean one over positions resp. channels, and the ratio of two weights is the exponential of the
difference of the mean absolute activations divided by the temperature. -/
theorem C85_fbkd_masks {C H W : ℕ} (x : Fin C → Fin (H * W) → ℝ) (Ts Tc : ℝ) (hC : 0 < C)
    (hP : 0 < H * W) :
    MeanOneWeights (fun p => (∑ c, |x c p|) / C) Ts (spatialMask x Ts) ∧
    MeanOneWeights (fun c => (∑ p, |x c p|) / (H * W : ℕ)) Tc (channelMask C x Tc) := by
  refine ⟨?_, softmax_weights hC _ _⟩
  rw [spatialMask_eq]
  exact softmax_weights hP _ _

example : MeanOneWeights (fun p => (∑ c : Fin 1, |(fun _ q => (q.val : ℝ)) c p|) / (1 : ℕ)) 2
    (spatialMask (C := 1) (H := 2) (W := 3) (fun _ q => (q.val : ℝ)) 2) :=
  (C85_fbkd_masks (C := 1) (H := 2) (W := 3) (fun _ q => (q.val : ℝ)) 2 2 (by omega) (by omega)).1

/-- C85: MGD zeroes the features exactly where the random number exceeds `1 - λ`, for all channels
of a position or for all positions of a channel, and keeps the others; of the numbers in `[0, 1)`
a share of `λ` leads to a zero. -/
theorem C85_mgd {C P : ℕ} (lam : ℝ) (h1 : lam ≤ 1) (uPos : Fin P → ℝ)
    (uCh : Fin C → ℝ) (x : Fin C → Fin P → ℝ) :
    (∀ c p, mgdMasked lam false uPos uCh x c p = if 1 - lam < uPos p then 0 else x c p) ∧
    (∀ c p, mgdMasked lam true uPos uCh x c p = if 1 - lam < uCh c then 0 else x c p) ∧
    MeasureTheory.volume {u : ℝ | u ∈ Set.Ico 0 1 ∧ mgdMask lam u = 0} = ENNReal.ofReal lam := by
  refine ⟨fun c p => ?_, fun c p => ?_, ?_⟩
  · unfold mgdMasked mgdMask
    rw [if_neg (by simp : ¬ false = true)]
    by_cases h : 1 - lam < uPos p
    · rw [if_pos h, if_pos h, mul_zero]
    · rw [if_neg h, if_neg h, mul_one]
  · unfold mgdMasked mgdMask
    rw [if_pos rfl]
    by_cases h : 1 - lam < uCh c
    · rw [if_pos h, if_pos h, mul_zero]
    · rw [if_neg h, if_neg h, mul_one]
  · have e : {u : ℝ | u ∈ Set.Ico 0 1 ∧ mgdMask lam u = 0} = Set.Ioo (1 - lam) 1 := by
      ext u
      simp only [Set.mem_setOf_eq, Set.mem_Ico, Set.mem_Ioo, mgdMask]
      constructor
      · rintro ⟨⟨_, hu⟩, hm⟩
        by_cases h : u > 1 - lam
        · exact ⟨h, hu⟩
        · rw [if_neg h] at hm
          exact absurd hm one_ne_zero
      · rintro ⟨h, hu⟩
        exact ⟨⟨by linarith, hu⟩, if_pos h⟩
    rw [e, Real.volume_Ioo]
    congr 1
    ring

example : MeasureTheory.volume {u : ℝ | u ∈ Set.Ico 0 1 ∧ mgdMask (1 / 4) u = 0} =
    ENNReal.ofReal (1 / 4) :=
  (C85_mgd (C := 1) (P := 1) (1 / 4) (by norm_num) (fun _ => 0) (fun _ => 0)
    (fun _ _ => 0)).2.2

/-- C85: the embedding of CRD for a vector that is not zero has length one, is a positive multiple
of the vector, and does not depend on its scale. Missing: the zero vector, see `C85_crd_zero_fails`. -/
theorem C85_crd_partial {C : ℕ} (x : Fin C → ℝ) (h : ∃ c, x c ≠ 0) :
    (∃ y, normalize x = some y ∧ ∑ c, y c ^ 2 = 1 ∧ ∃ r, 0 < r ∧ ∀ c, x c = r * y c) ∧
    ∀ a, 0 < a → normalize (fun c => a * x c) = normalize x := by
  obtain ⟨hp, e⟩ := normalize_nonzero x h
  refine ⟨⟨_, e, ?_, _, hp, fun c => (mul_div_cancel₀ _ hp.ne').symm⟩, fun a ha => ?_⟩
  · simp only [div_pow]
    rw [← Finset.sum_div, Real.sq_sqrt (Finset.sum_nonneg fun i _ => sq_nonneg _)]
    exact div_self (Real.sqrt_pos.mp hp).ne'
  · obtain ⟨c, hc⟩ := h
    rw [(normalize_nonzero (fun c => a * x c) ⟨c, mul_ne_zero ha.ne' hc⟩).2, e]
    congr 1
    funext d
    have : ∑ c, (a * x c) ^ 2 = a ^ 2 * ∑ c, x c ^ 2 := by
      rw [Finset.mul_sum]
      exact Finset.sum_congr rfl fun i _ => by ring
    rw [this, Real.sqrt_mul (sq_nonneg a), Real.sqrt_sq ha.le, mul_div_mul_left _ _ ha.ne']

example : ∃ y, normalize (fun _ : Fin 2 => (3 : ℝ)) = some y ∧ ∑ c, y c ^ 2 = 1 := by
  obtain ⟨⟨y, h, h', _⟩, _⟩ := C85_crd_partial (fun _ : Fin 2 => (3 : ℝ)) ⟨0, by norm_num⟩
  exact ⟨y, h, h'⟩

/-- DISAGREEMENT: the zero vector has no embedding: the division by its length is not guarded by
a small constant and yields not-a-number. -/
theorem C85_crd_zero_fails (C : ℕ) : normalize (fun _ : Fin C => (0 : ℝ)) = none := by
  unfold normalize
  dsimp only
  rw [rpow_half]
  simp

/-- C85: a BYOT connector of stride two whose output has `2^n` times the channels of its input
can be built, and maps features of even side `2^n * q` to a feature vector of the expanded
output channels and the class scores if pooling leaves one position, and fails otherwise. Missing: other strides and sides, see
`C85_byot_default_stride_fails`, `C85_byot_odd_fails` and `C85_byot_shrink_fails`. -/
theorem C85_byot_partial (b : Byot) (n q : ℕ) (hk : b.k = 3 ∨ b.k = 5) (hs : b.stride = 2)
    (hc : 0 < b.inC) (hx : 0 < b.expansion) (ho : b.outC = b.inC * 2 ^ n) (hq : 0 < q)
    (he : (2 ^ n * q) % 2 = 0) :
    ∃ scala, byotBuild b = .ok scala ∧
      byotForward b scala (b.inC * b.expansion, 2 ^ n * q) =
        if b.pool ≤ q ∧ q < 2 * b.pool then .ok (b.outC * b.expansion, b.classes)
        else .error .runtime := by
  refine ⟨_, byotBuild_up b n hk (Or.inr hs) hc ho, ?_⟩
  rw [byotForward_even b _ _ hk hs (Nat.mul_pos (Nat.two_pow_pos n) hq) he, hs,
    sepSeq_chain hk b.expansion q hq n b.inC]
  dsimp only
  unfold poolShape
  dsimp only
  by_cases h0 : b.pool = 0 ∨ q < b.pool
  · rw [if_pos h0, if_neg (by omega)]
  · rw [if_neg h0]
    dsimp only
    unfold fcShape
    dsimp only
    have hpos : 0 < b.outC * b.expansion := by
      rw [ho]; exact Nat.mul_pos (Nat.mul_pos hc (Nat.two_pow_pos n)) hx
    rw [← ho]
    have hp : 0 < b.pool := by omega
    by_cases h1 : q < 2 * b.pool
    · have e1 : q / b.pool = 1 := by
        rw [Nat.div_eq_iff hp]; omega
      rw [e1, if_pos (by simp), if_pos ⟨by omega, h1⟩]
      simp
    · have e2 : 2 ≤ q / b.pool := (Nat.le_div_iff_mul_le hp).mpr (by omega)
      rw [if_neg ?_, if_neg (by omega)]
      intro e
      have h4 : 2 * 2 ≤ q / b.pool * (q / b.pool) := Nat.mul_le_mul e2 e2
      have h5 : b.outC * b.expansion * (2 * 2) ≤ b.outC * b.expansion * (q / b.pool * (q / b.pool)) :=
        Nat.mul_le_mul_left _ h4
      omega

example : ∃ scala, byotBuild exByot = .ok scala ∧
    byotForward exByot scala (64, 8) = .ok (128, 100) := by
  obtain ⟨s, h1, h2⟩ := C85_byot_partial exByot 1 4 (by decide) rfl (by decide) (by decide)
    (by decide) (by decide) (by decide)
  exact ⟨s, h1, h2.trans (by decide)⟩

/-- DISAGREEMENT: with the default stride one every connector that can be built fails on every
feature map of more than one position: the attention is always upsampled by two, so its size is
not that of the features. -/
theorem C85_byot_default_stride_fails (b : Byot) (n h : ℕ) (hk : b.k = 3 ∨ b.k = 5)
    (hs : b.stride = 1) (hc : 0 < b.inC) (ho : b.outC = b.inC * 2 ^ n) (hh : 1 < h) :
    ∃ scala, byotBuild b = .ok scala ∧
      byotForward b scala (b.inC * b.expansion, h) = .error .runtime := by
  refine ⟨_, byotBuild_up b n hk (Or.inl hs) hc ho, byotForward_mul b _ h hk hh ?_⟩
  rw [hs, Nat.div_one]
  omega

example : byotForward { inC := 16, outC := 32, classes := 100 } [(64, 128)] (64, 8) = .error .runtime := by
  decide

/-- DISAGREEMENT: with stride two every feature map of odd side above one fails: the attention is
larger than the features by one. -/
theorem C85_byot_odd_fails (b : Byot) (n h : ℕ) (hk : b.k = 3 ∨ b.k = 5) (hs : b.stride = 2)
    (hc : 0 < b.inC) (ho : b.outC = b.inC * 2 ^ n) (hh : 1 < h) (hodd : h % 2 = 1) :
    ∃ scala, byotBuild b = .ok scala ∧
      byotForward b scala (b.inC * b.expansion, h) = .error .runtime := by
  refine ⟨_, byotBuild_up b n hk (Or.inr hs) hc ho, byotForward_mul b _ h hk hh ?_⟩
  rw [hs]
  omega

example : byotForward { inC := 16, outC := 32, classes := 100, stride := 2 } [(64, 128)] (64, 7) =
    .error .runtime := by decide

/-- DISAGREEMENT: an output with fewer channels than the input passes the assertion when their
ratio is a power of two, but the connector then fails on every input: the loop adds no layer and
the classifier expects fewer features than it gets. -/
theorem C85_byot_shrink_fails (b : Byot) (n : ℕ) (x : Shape) (hk : b.k = 3 ∨ b.k = 5)
    (hs : b.stride = 1 ∨ b.stride = 2) (hc : 0 < b.outC) (hx : 0 < b.expansion)
    (ho : b.inC = b.outC * 2 ^ (n + 1)) :
    byotBuild b = .ok [] ∧ byotForward b [] x = .error .runtime := by
  constructor
  · unfold byotBuild
    rw [if_neg (by tauto), if_neg (by rw [ho]; exact (Nat.mul_pos hc (Nat.two_pow_pos _)).ne'),
      if_neg hc.ne', ho, logRatio_down hc]
    dsimp only
    have : (-((n + 1 : ℕ) : ℤ)).toNat = 0 := by omega
    rw [this, sepChain]
  · obtain ⟨c, h⟩ := x
    have h2 : b.outC * b.expansion < b.inC * b.expansion := by
      refine Nat.mul_lt_mul_of_pos_right ?_ hx
      have : 1 ≤ 2 ^ n := Nat.one_le_two_pow
      have h3 : b.outC * (2 ^ n * 2) = 2 * (b.outC * 2 ^ n) := by ring
      have h4 : b.outC * 1 ≤ b.outC * 2 ^ n := Nat.mul_le_mul_left _ this
      rw [ho, pow_succ, h3]
      omega
    have fc : ∀ m, 0 < m → fcShape b (b.inC * b.expansion, m) = .error .runtime := by
      intro m hm
      unfold fcShape
      dsimp only
      rw [if_neg]
      have : 1 ≤ m * m := Nat.mul_pos hm hm
      have := Nat.mul_le_mul_left (b.inC * b.expansion) this
      omega
    have tail : ∀ m, (match sepSeq b.k b.stride [] (b.inC * b.expansion, m) with
        | .error e => (.error e : Except Err (ℕ × ℕ))
        | .ok g => match poolShape b.pool g with
          | .error e => .error e
          | .ok y => fcShape b y) = .error .runtime := by
      intro m
      rw [sepSeq]
      dsimp only
      unfold poolShape
      dsimp only
      by_cases h0 : b.pool = 0 ∨ m < b.pool
      · rw [if_pos h0]
      · rw [if_neg h0]
        exact fc _ (Nat.div_pos (by omega) (by omega))
    unfold byotForward
    by_cases hc' : c = b.inC * b.expansion
    · subst hc'
      by_cases hh : 0 < h
      · rw [sepShape_eq hk _ _ _ hh]
        dsimp only
        unfold mulShape
        split_ifs
        · exact tail _
        · exact tail _
        · exact tail _
        · rfl
      · have : sepShape b.k b.stride (b.inC * b.expansion, b.inC * b.expansion)
            (b.inC * b.expansion, h) = .error .runtime := by
          unfold sepShape
          rw [if_pos (Or.inr (by dsimp only; rcases hk with hk | hk <;> rw [hk] <;> omega))]
        rw [this]
    · have : sepShape b.k b.stride (b.inC * b.expansion, b.inC * b.expansion) (c, h) =
          .error .runtime := by
        unfold sepShape
        rw [if_pos (Or.inl hc')]
      rw [this]

example : byotBuild { inC := 32, outC := 16, classes := 100, stride := 2 } = .ok [] :=
  (C85_byot_shrink_fails { inC := 32, outC := 16, classes := 100, stride := 2 } 0 (128, 8)
    (by decide) (by decide) (by decide) (by decide) (by decide)).1

/-- C85: the neck reduces every sample and channel to the mean over all positions, whatever the
number of further axes. -/
theorem C85_neck_mean (dims : List ℕ) (x : List ℕ → ℝ) (h : ∀ d ∈ dims, 0 < d) :
    reduceAxes dims.reverse x [] = ((indices dims).map x).sum / (indices dims).length ∧
      (indices dims).length = dims.prod ∧ 0 < dims.prod := by
  have hl : ∀ ds : List ℕ, (indices ds).length = ds.prod := by
    intro ds
    induction ds with
    | nil => rfl
    | cons d ds ih => simp [indices, ih]
  refine ⟨?_, hl dims, List.prod_pos h⟩
  rw [reduceAxes_eq, List.reverse_reverse, hl dims]
  congr 1
  rw [List.map_reverse, List.prod_reverse, Nat.cast_list_prod]

example : reduceAxes [2, 1] (fun i => (i.getD 1 0 : ℝ)) [] =
    ((indices [1, 2]).map (fun i => (i.getD 1 0 : ℝ))).sum / (indices [1, 2]).length :=
  (C85_neck_mean [1, 2] _ (by decide)).1

/-- C85: of a tuple every map is reduced, and dropout with the given rate is applied while
training only, if the rate is positive; a single map is treated alike while training with a
positive rate; other inputs are rejected. Not proved, since it fails: a single map otherwise. Missing: that last case, see
`C85_neck_single_fails`. -/
theorem C85_neck_partial {T : Type} (red : T → T) (drop : ℝ → T → T) (ratio : Option ℝ) (l : List T)
    (x : T) :
    neckForward red drop ratio false (.tuple l) = .ok (.tuple (l.map red)) ∧
    (∀ r, ratio = some r → 0 < r →
      neckForward red drop ratio true (.tuple l) = .ok (.tuple (l.map (fun y => drop r (red y)))) ∧
      neckForward red drop ratio true (.tensor x) = .ok (.tensor (drop r (red x)))) ∧
    (ratio = none ∨ (∃ r, ratio = some r ∧ r ≤ 0) →
      neckForward red drop ratio true (.tuple l) = .ok (.tuple (l.map red))) ∧
    ∀ t, neckForward red drop ratio t .other = .error .type := by
  refine ⟨?_, ?_, ?_, fun t => rfl⟩
  · unfold neckForward
    dsimp only
    rw [if_neg (by simp)]
  · rintro r rfl hr
    constructor
    · unfold neckForward
      dsimp only
      rw [if_pos ⟨hr, rfl⟩, List.map_map]
      rfl
    · unfold neckForward
      dsimp only
      rw [if_pos ⟨hr, rfl⟩]
      rfl
  · rintro (rfl | ⟨r, rfl, hr⟩)
    · unfold neckForward
      dsimp only
      rw [if_neg (by simp)]
    · unfold neckForward
      dsimp only
      rw [if_neg (by rintro ⟨h, _⟩; exact absurd h (not_lt.mpr hr))]

example : neckForward (fun n : ℕ => n + 1) (fun _ n => n) (some (1 / 5)) false (.tuple [1, 2]) =
    .ok (.tuple [2, 3]) := (C85_neck_partial _ _ _ [1, 2] 0).1

/-- DISAGREEMENT: a single map (which the documentation allows) fails in evaluation, and in
training without dropout: the result is only assigned when dropout is applied. -/
theorem C85_neck_single_fails {T : Type} (red : T → T) (drop : ℝ → T → T) (ratio : Option ℝ)
    (training : Bool) (x : T) (h : training = false ∨ ratio = none ∨ ∃ r, ratio = some r ∧ r ≤ 0) :
    neckForward red drop ratio training (.tensor x) = .error .name := by
  unfold neckForward
  dsimp only
  rw [if_neg]
  rintro ⟨h1, h2⟩
  rcases h with rfl | rfl | ⟨r, rfl, hr⟩
  · cases h2
  · exact absurd h1 (lt_irrefl _)
  · exact absurd h1 (not_lt.mpr hr)

/-- C85: a generator accepts latent data of shape `(n, latent_dim)`, or draws the asked number of
samples, and rejects everything else; if the square of the scale divides the image size, it
returns images of that size. Missing: other image sizes, see `C85_image_size_violated`. -/
theorem C85_generator_partial (img latent scale : ℕ) (batch : ℤ) (hs : 0 < scale)
    (hd : scale ^ 2 ∣ img) (hi : 0 < img) :
    (∀ n : ℕ, generate img latent scale batch (.tensor [n, latent]) = .ok [n, 3, img, img]) ∧
    (∀ n : ℕ, 0 < n → generate img latent scale n .none = .ok [n, 3, img, img]) ∧
    (batch ≤ 0 → generate img latent scale batch .none = .error .assertion) ∧
    (∀ shape, (∀ n, shape ≠ [n, latent]) →
      ∃ e, generate img latent scale batch (.tensor shape) = .error e) ∧
    ∃ e, generate img latent scale batch .other = .error e := by
  have h0 : ¬ scale = 0 := by omega
  have hq : ¬ img / scale ^ 2 = 0 :=
    (Nat.div_pos (Nat.le_of_dvd hi hd) (Nat.pow_pos hs)).ne'
  have e1 : img / scale ^ 2 * scale * scale = img := by
    rw [Nat.mul_assoc, ← sq]; exact Nat.div_mul_cancel hd
  refine ⟨fun n => ?_, fun n hn => ?_, fun hb => ?_, fun shape hsh => ?_, ?_⟩
  · unfold generate
    rw [if_neg h0]
    have : processLatent latent batch (.tensor [n, latent]) = .ok [n, latent] := by
      simp [processLatent]
    dsimp only
    rw [this]
    dsimp only
    rw [if_neg hq, e1]
    rfl
  · unfold generate
    rw [if_neg h0]
    have : processLatent latent n .none = .ok [n, latent] := by
      unfold processLatent
      rw [if_pos (by omega)]
      simp
    dsimp only
    rw [this]
    dsimp only
    rw [if_neg hq, e1]
    rfl
  · unfold generate
    rw [if_neg h0]
    have : processLatent latent batch .none = .error .assertion := by
      unfold processLatent
      rw [if_neg (by omega)]
    dsimp only
    rw [this]
  · have : ∃ e, processLatent latent batch (.tensor shape) = .error e := by
      match shape, hsh with
      | [], _ => exact ⟨_, rfl⟩
      | [a], _ => exact ⟨_, rfl⟩
      | a :: b :: l, hsh =>
        unfold processLatent
        by_cases hb : b = latent
        · cases l with
          | nil => exact absurd (by rw [hb]) (hsh a)
          | cons y l =>
            refine ⟨.value, ?_⟩
            simp [hb]
        · exact ⟨.assertion, by simp [hb]⟩
    obtain ⟨e, he⟩ := this
    refine ⟨e, ?_⟩
    unfold generate
    rw [if_neg h0]
    dsimp only
    rw [he]
  · refine ⟨.name, ?_⟩
    unfold generate
    rw [if_neg h0]
    rfl

example : generate 32 100 2 4 (.tensor [5, 100]) = .ok [5, 3, 32, 32] :=
  (C85_generator_partial 32 100 2 4 (by decide) (by decide) (by decide)).1 5

/-- DISAGREEMENT: if the square of the scale does not divide the image size, the images are
smaller than asked for (or, for a size below the square, generation fails); nothing checks it. -/
theorem C85_image_size_violated (img latent scale n : ℕ) (hs : 0 < scale) (hd : ¬ scale ^ 2 ∣ img) :
    (scale ^ 2 ≤ img → ∃ side, generate img latent scale n (.tensor [n, latent]) =
      .ok [n, 3, side, side] ∧ side < img) ∧
    (img < scale ^ 2 → generate img latent scale n (.tensor [n, latent]) = .error .runtime) := by
  have h0 : ¬ scale = 0 := by omega
  have this : processLatent latent n (.tensor [n, latent]) = .ok [n, latent] := by
    simp [processLatent]
  constructor
  · intro hle
    refine ⟨img / scale ^ 2 * scale * scale, ?_, ?_⟩
    · unfold generate
      rw [if_neg h0]
      dsimp only
      rw [this]
      dsimp only
      rw [if_neg (Nat.div_pos hle (Nat.pow_pos hs)).ne']
      rfl
    · have e : img / scale ^ 2 * scale * scale = img / scale ^ 2 * scale ^ 2 := by
        rw [Nat.mul_assoc, ← sq]
      rw [e]
      refine Nat.lt_of_le_of_ne (Nat.div_mul_le_self _ _) ?_
      intro h
      exact hd ⟨_, by rw [Nat.mul_comm]; exact h.symm⟩
  · intro hlt
    unfold generate
    rw [if_neg h0]
    dsimp only
    rw [this]
    dsimp only
    rw [if_pos (Nat.div_eq_of_lt hlt)]

example : generate 30 100 2 4 (.tensor [4, 100]) = .ok [4, 3, 28, 28] := by decide

/-- The errors of a generator, in the order in which they are noticed: no scale, data that is no batch of latent vectors, an image too
small to be scaled down. -/
theorem C85_generator_refused (img d scale : ℕ) (batch : ℤ) (data : Latent) (e : Err) :
    generate img d scale batch data = .error e ↔
      (scale = 0 ∧ e = .zeroDivision) ∨
      (scale ≠ 0 ∧
        ((data = .none ∧ batch ≤ 0 ∧ e = .assertion) ∨ (data = .other ∧ e = .name) ∨
         (∃ s, data = .tensor s ∧ ((s.length < 2 ∧ e = .index) ∨ (∃ k, s[1]? = some k ∧ k ≠ d ∧ e = .assertion) ∨
            (s[1]? = some d ∧ s.length ≠ 2 ∧ e = .value))) ∨
         (img < scale ^ 2 ∧ e = .runtime ∧
            ((data = .none ∧ 0 < batch) ∨ ∃ n, data = .tensor [n, d])))) := by
  unfold generate
  by_cases h0 : scale = 0
  · simp [h0, eq_comm (a := e)]
  · have hs : 0 < scale ^ 2 := Nat.pow_pos (Nat.pos_of_ne_zero h0)
    have hi : img / scale ^ 2 = 0 ↔ img < scale ^ 2 := by
      rw [Nat.div_eq_zero_iff]; omega
    simp only [if_neg h0, h0, false_and, false_or, ne_eq, not_false_eq_true, true_and]
    cases data with
    | none =>
      by_cases hb : 0 < batch
      · by_cases hh : img < scale ^ 2
        · simp [processLatent, hb, hi.2 hh, hh, not_le.2 hb, eq_comm (a := e)]
        · simp [processLatent, hb, mt hi.1 hh, hh, not_le.2 hb]
      · simp [processLatent, hb, not_lt.1 hb, eq_comm (a := e)]
    | other => simp [processLatent, eq_comm (a := e)]
    | tensor s =>
      match s with
      | [] => simp [processLatent, eq_comm (a := e)]
      | [a] => simp [processLatent, eq_comm (a := e)]
      | [a, b] =>
        by_cases hb : b = d
        · subst hb
          by_cases hh : img < scale ^ 2
          · simp [processLatent, hi.2 hh, hh, eq_comm (a := e)]
          · simp [processLatent, mt hi.1 hh, hh]
        · simp [processLatent, hb, eq_comm (a := e), Ne.symm hb]
      | a :: b :: c :: l =>
        by_cases hb : b = d
        · simp [processLatent, hb, eq_comm (a := e)]
        · simp [processLatent, hb, eq_comm (a := e)]

example : generate 32 10 2 (-1) (.tensor [4, 10, 3]) = .error .value := by decide

end Verif.Connect
