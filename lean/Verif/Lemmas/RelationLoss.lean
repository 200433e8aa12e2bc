import Verif.Spec.RelationLoss

/-! Helper lemmas for `Verif/Props/RelationLoss.lean`. -/

namespace Verif.RelationLoss
open Verif Verif.FeatureLoss

theorem smooth_nonneg (x : ℝ) : 0 ≤ smooth x := by
  unfold smooth; split_ifs with h
  · positivity
  · linarith

theorem smooth_zero (x : ℝ) : smooth x = 0 ↔ x = 0 := by
  unfold smooth; split_ifs with h
  · simp
  · constructor
    · intro e; linarith
    · intro e; rw [e] at h; simp at h

theorem smooth_le {x : ℝ} (h : |x| ≤ 2) : smooth x ≤ 3 / 2 := by
  unfold smooth; split_ifs with g
  · have := abs_lt.1 g; nlinarith
  · linarith

theorem prepare_seen {N D : ℕ} (b : Bool) (x : Feat N D) : prepare b x = seen b x := by
  funext n d
  unfold prepare seen
  cases b <;> rfl

theorem euclid_eq {N D : ℕ} (x : Feat N D) {i j : Fin N} (h : i ≠ j) : euclid x i j = gap (x i) (x j) := by
  unfold euclid gap
  rw [if_neg h]
  have e : ∑ d, x i d ^ 2 + ∑ d, x j d ^ 2 - 2 * ∑ d, x i d * x j d = ∑ d, (x i d - x j d) ^ 2 := by
    rw [Finset.mul_sum, ← Finset.sum_add_distrib, ← Finset.sum_sub_distrib]
    exact Finset.sum_congr rfl fun d _ => by ring
  have e2 : (1 / 10 ^ 12 : ℝ) = (1 / 10 ^ 6) ^ 2 := by norm_num
  have h0 : 0 ≤ ∑ d, (x i d - x j d) ^ 2 := Finset.sum_nonneg fun _ _ => sq_nonneg _
  rw [e, e2]
  apply le_antisymm
  · rw [Real.sqrt_le_left (le_trans (Real.sqrt_nonneg _) (le_max_left _ _))]
    apply max_le
    · calc ∑ d, (x i d - x j d) ^ 2 = Real.sqrt (∑ d, (x i d - x j d) ^ 2) ^ 2 := (Real.sq_sqrt h0).symm
        _ ≤ _ := pow_le_pow_left₀ (Real.sqrt_nonneg _) (le_max_left _ _) 2
    · exact pow_le_pow_left₀ (by positivity) (le_max_right _ _) 2
  · apply max_le
    · exact Real.sqrt_le_sqrt (le_max_left _ _)
    · apply Real.le_sqrt_of_sq_le; exact le_max_right _ _

theorem euclid_self {N D : ℕ} (x : Feat N D) (i : Fin N) : euclid x i i = 0 := if_pos rfl

theorem gap_pos {D : ℕ} (x y : Fin D → ℝ) : 0 < gap x y := lt_of_lt_of_le (by positivity) (le_max_right _ _)

theorem euclid_pos {N D : ℕ} (x : Feat N D) (i j : Fin N) : 0 < euclid x i j ↔ i ≠ j := by
  constructor
  · intro h e; rw [e, euclid_self] at h; exact lt_irrefl _ h
  · intro h; rw [euclid_eq x h]; exact gap_pos _ _

theorem meanPositive_eq {N D : ℕ} (x : Feat N D) :
    meanPositive (euclid x) = if N < 2 then none else some ((∑ ij ∈ pairs N, euclid x ij.1 ij.2) / (pairs N).card) := by
  classical
  have e : ((Finset.univ : Finset (Fin N × Fin N)).filter fun ij => euclid x ij.1 ij.2 > 0) = pairs N := by
    ext ij; simp [pairs, euclid_pos]
  have hc : (pairs N).card = 0 ↔ N < 2 := by
    rw [Finset.card_eq_zero]
    constructor
    · intro h
      by_contra hN
      have : (⟨0, by omega⟩, ⟨1, by omega⟩) ∈ pairs N := by simp [pairs]
      rw [h] at this; simp at this
    · intro h
      ext ⟨i, j⟩
      simp [pairs]
      apply Fin.ext; omega
  have : meanPositive (euclid x) = if (pairs N).card = 0 then none else some ((∑ ij ∈ pairs N, euclid x ij.1 ij.2) / (pairs N).card) := by
    unfold meanPositive
    simp only [← e]
  rw [this]
  simp only [hc]

theorem pairs_card_pos {N : ℕ} (h : 2 ≤ N) : 0 < ((pairs N).card : ℝ) := by
  rw [Nat.cast_pos, Finset.card_pos]
  exact ⟨(⟨0, by omega⟩, ⟨1, by omega⟩), by simp [pairs]⟩

theorem mean_pos {N D : ℕ} (h : 2 ≤ N) (x : Feat N D) : 0 < (∑ ij ∈ pairs N, euclid x ij.1 ij.2) / (pairs N).card := by
  refine div_pos (Finset.sum_pos (fun ij hij => ?_) ?_) (pairs_card_pos h)
  · rw [euclid_pos]; simpa [pairs] using hij
  · exact ⟨(⟨0, by omega⟩, ⟨1, by omega⟩), by simp [pairs]⟩

theorem distance_value {N D D' : ℕ} (h : 2 ≤ N) (w : ℝ) (b : Bool) (s : Feat N D) (t : Feat N D') :
    distanceForward w b s t = some ((∑ i, ∑ j, smooth
      (euclid (seen b s) i j / ((∑ ij ∈ pairs N, euclid (seen b s) ij.1 ij.2) / (pairs N).card) -
        euclid (seen b t) i j / ((∑ ij ∈ pairs N, euclid (seen b t) ij.1 ij.2) / (pairs N).card))) / (N * N) * w) := by
  unfold distanceForward
  simp only [prepare_seen, meanPositive_eq, if_neg (not_lt.2 h)]

theorem cosine_abs_le {N D : ℕ} (x : Feat N D) (i j k : Fin N) : |cosine x i j k| ≤ 1 := by
  unfold cosine
  have h := Finset.sum_mul_sq_le_sq_mul_sq Finset.univ (unit fun d => x j d - x i d) (unit fun d => x k d - x i d)
  have h1 := unit_sq_le fun d => x j d - x i d
  have h2 := unit_sq_le fun d => x k d - x i d
  have h0 : 0 ≤ ∑ d, unit (fun d => x k d - x i d) d ^ 2 := Finset.sum_nonneg fun _ _ => sq_nonneg _
  rw [← sq_le_one_iff_abs_le_one]
  refine h.trans ?_
  nlinarith

theorem cosine_corner {N D : ℕ} (x : Feat N D) (i j k : Fin N) :
    cosine x i j k = corner x i j k / (max (Real.sqrt (corner x i j j)) (1 / 10 ^ 12) * max (Real.sqrt (corner x i k k)) (1 / 10 ^ 12)) := by
  have e : ∀ j, FeatureLoss.norm (fun d => x j d - x i d) = Real.sqrt (corner x i j j) := by
    intro j; unfold FeatureLoss.norm corner; congr 1; exact Finset.sum_congr rfl fun d _ => by ring
  unfold cosine unit
  rw [e, e]
  have c : corner x i j k = ∑ d, (x j d - x i d) * (x k d - x i d) := rfl
  rw [c, Finset.sum_div]
  refine Finset.sum_congr rfl fun d _ => ?_
  rw [div_mul_div_comm]

theorem pearson_abs {D : ℕ} (a b : Fin D → ℝ) : |pearson a b| < 1 := by
  unfold pearson
  have h0 : 0 ≤ FeatureLoss.norm (centred a) * FeatureLoss.norm (centred b) := mul_nonneg (Real.sqrt_nonneg _) (Real.sqrt_nonneg _)
  have h1 : |∑ d, centred a d * centred b d| ≤ FeatureLoss.norm (centred a) * FeatureLoss.norm (centred b) := by
    refine abs_le_of_sq_le_sq ?_ h0
    rw [mul_pow, norm_sq, norm_sq]
    exact Finset.sum_mul_sq_le_sq_mul_sq _ _ _
  rw [abs_div, abs_of_pos (by positivity : 0 < FeatureLoss.norm (centred a) * FeatureLoss.norm (centred b) + 1 / 10 ^ 8), div_lt_one (by positivity)]
  linarith [(by positivity : (0 : ℝ) < 1 / 10 ^ 8)]

theorem inter_range {N D : ℕ} (hN : 0 < N) (a b : Feat N D) : 0 < inter a b ∧ inter a b < 2 := by
  have hNR : (0 : ℝ) < N := Nat.cast_pos.2 hN
  have hne : (Finset.univ : Finset (Fin N)).Nonempty := ⟨⟨0, hN⟩, Finset.mem_univ _⟩
  have h1 : ∑ n, pearson (a n) (b n) < N := by
    calc ∑ n, pearson (a n) (b n) < ∑ _n : Fin N, (1 : ℝ) :=
          Finset.sum_lt_sum_of_nonempty hne fun n _ => (abs_lt.1 (pearson_abs _ _)).2
      _ = N := by simp
  have h2 : -(N : ℝ) < ∑ n, pearson (a n) (b n) := by
    calc -(N : ℝ) = ∑ _n : Fin N, (-1 : ℝ) := by simp
      _ < _ := Finset.sum_lt_sum_of_nonempty hne fun n _ => (abs_lt.1 (pearson_abs _ _)).1
  unfold inter
  constructor
  · rw [sub_pos, div_lt_one hNR]; exact h1
  · have : -1 < (∑ n, pearson (a n) (b n)) / N := by rw [lt_div_iff₀ hNR]; linarith
    linarith

theorem dist_eq {N C : ℕ} (k : Dist) (s t : Feat N C) : distForward k s t =
    (k.inter * (k.tau ^ 2 * inter (probs k.tau s) (probs k.tau t))
      + k.intra * (k.tau ^ 2 * inter (fun c n => probs k.tau s n c) (fun c n => probs k.tau t n c))) * k.weight := rfl

theorem centred_spread {D : ℕ} (x : Fin D → ℝ) : FeatureLoss.norm (centred x) * FeatureLoss.norm (centred x) = spread x := by
  rw [← pow_two, norm_sq]; rfl

theorem pearson_self {D : ℕ} (x : Fin D → ℝ) : 1 - pearson x x = 1 / 10 ^ 8 / (spread x + 1 / 10 ^ 8) := by
  unfold pearson
  rw [centred_spread]
  have e : ∑ d, centred x d * centred x d = spread x := Finset.sum_congr rfl fun d _ => (pow_two _).symm
  have h : 0 ≤ spread x := Finset.sum_nonneg fun _ _ => sq_nonneg _
  rw [e]
  have : spread x + 1 / 10 ^ 8 ≠ 0 := by positivity
  field_simp
  ring

theorem inter_self {N D : ℕ} (hN : 0 < N) (x : Feat N D) : inter x x = (∑ n, 1 / 10 ^ 8 / (spread (x n) + 1 / 10 ^ 8)) / N := by
  have hNR : (N : ℝ) ≠ 0 := Nat.cast_ne_zero.2 hN.ne'
  unfold inter
  simp only [← pearson_self]
  rw [Finset.sum_sub_distrib]
  field_simp
  simp

theorem std_sigma (x : Map) (c : ℕ) : x.std c = sigma x c := by
  unfold Map.std sigma cov
  refine congrArg Real.sqrt ?_
  refine congrArg (fun y : ℝ => y / ((size x : ℝ) - 1)) ?_
  exact Finset.sum_congr rfl fun m _ => pow_two _

theorem normed_eq (x : Map) (c m : ℕ) : x.normed c m = (x.at' c m - avg x c) / (sigma x c + 1 / 10 ^ 6) := by
  unfold Map.normed; rw [std_sigma]; rfl

theorem cov_self_nonneg (x : Map) (hx : 2 ≤ size x) (c : ℕ) : 0 ≤ cov x x c := by
  have : (1 : ℝ) < size x := by exact_mod_cast hx
  exact div_nonneg (Finset.sum_nonneg fun _ _ => mul_self_nonneg _) (by linarith)

theorem sigma_eps (x : Map) (c : ℕ) : 0 < sigma x c + 1 / 10 ^ 6 := by
  have : 0 ≤ sigma x c := Real.sqrt_nonneg _
  positivity

theorem sq_sum (x : Map) (hx : 2 ≤ size x) (c : ℕ) :
    ∑ m ∈ Finset.range (size x), (x.at' c m - avg x c) ^ 2 = ((size x : ℝ) - 1) * sigma x c ^ 2 := by
  have : (1 : ℝ) < size x := by exact_mod_cast hx
  rw [sigma, Real.sq_sqrt (cov_self_nonneg x hx c), cov, mul_div_cancel₀ _ (by linarith)]
  exact Finset.sum_congr rfl fun m _ => pow_two _

theorem same_size {s t : Map} (h : SameShape s t) : size s = size t := by
  unfold size; rw [h.1, h.2.2.1, h.2.2.2]

theorem term_eq {s t : Map} (h : SameShape s t) (hM : 2 ≤ size s) (hc : 0 < s.c) : pkdTerm s t = some (level s t) := by
  have hM' : 2 ≤ size t := same_size h ▸ hM
  have h1 : (1 : ℝ) < size s := by exact_mod_cast hM
  have hcR : (0 : ℝ) < s.c := Nat.cast_pos.2 hc
  unfold pkdTerm
  have hcount : s.count = size s := rfl
  rw [hcount, if_neg (by omega)]
  refine congrArg some ?_
  have key : ∀ c, ∑ m ∈ Finset.range (size s), (s.normed c m - t.normed c m) ^ 2 = ((size s : ℝ) - 1) *
      ((sigma s c / (sigma s c + 1 / 10 ^ 6)) ^ 2 + (sigma t c / (sigma t c + 1 / 10 ^ 6)) ^ 2
      - 2 * (cov s t c / ((sigma s c + 1 / 10 ^ 6) * (sigma t c + 1 / 10 ^ 6)))) := by
    intro c
    have es := sigma_eps s c
    have et := sigma_eps t c
    have q1 := sq_sum s hM c
    have q2 := sq_sum t hM' c
    rw [← same_size h] at q2
    have q3 : ∑ m ∈ Finset.range (size s), (s.at' c m - avg s c) * (t.at' c m - avg t c) = ((size s : ℝ) - 1) * cov s t c := by
      rw [cov, mul_div_cancel₀ _ (by linarith)]
    have e : ∀ m, (s.normed c m - t.normed c m) ^ 2 = (s.at' c m - avg s c) ^ 2 / (sigma s c + 1 / 10 ^ 6) ^ 2
        + (t.at' c m - avg t c) ^ 2 / (sigma t c + 1 / 10 ^ 6) ^ 2
        - 2 * ((s.at' c m - avg s c) * (t.at' c m - avg t c) / ((sigma s c + 1 / 10 ^ 6) * (sigma t c + 1 / 10 ^ 6))) := by
      intro m
      rw [normed_eq, normed_eq, sub_sq, div_pow, div_pow, mul_assoc, div_mul_div_comm]; ring
    simp only [e]
    rw [Finset.sum_sub_distrib, Finset.sum_add_distrib, ← Finset.sum_div, ← Finset.sum_div, ← Finset.mul_sum, ← Finset.sum_div, q1, q2, q3]
    rw [div_pow, div_pow]; ring
  simp only [key]
  rw [← Finset.mul_sum]
  unfold level
  have : (size s : ℝ) ≠ 0 := by linarith
  rw [div_div, mul_comm (s.c * (size s : ℝ)) 2, ← mul_assoc, div_mul_div_comm]
  refine congrArg₂ _ rfl ?_
  ring

theorem level_ok (resize : Map → ℕ → ℕ → Map) (b : Bool) {s t : Map} (h : SameShape s t) : pkdLevel resize b s t = .ok (pkdTerm s t) := by
  unfold pkdLevel
  rw [if_neg (not_not.2 h.2.2.1)]
  exact if_pos h

theorem sum_ok (resize : Map → ℕ → ℕ → Map) (b : Bool) (l : List (Map × Map))
    (h : ∀ st ∈ l, SameShape st.1 st.2 ∧ 2 ≤ size st.1 ∧ 0 < st.1.c) :
    pkdSum resize b l = .ok (some ((l.map fun st => level st.1 st.2).sum)) := by
  induction l with
  | nil => rfl
  | cons st l ih =>
    obtain ⟨h1, h2, h3⟩ := h st (by simp)
    unfold pkdSum
    rw [level_ok resize b h1, term_eq h1 h2 h3, ih fun x hx => h x (by simp [hx])]
    rfl

theorem avg_affine (x : Map) (hx : 0 < size x) (a : ℝ) (k : ℕ → ℝ) (c : ℕ) :
    avg { x with at' := fun c m => a * x.at' c m + k c } c = a * avg x c + k c := by
  have : (size x : ℝ) ≠ 0 := Nat.cast_ne_zero.2 hx.ne'
  show (∑ m ∈ Finset.range (size x), (a * x.at' c m + k c)) / size x = _
  rw [Finset.sum_add_distrib, ← Finset.mul_sum]
  unfold avg
  simp
  field_simp

theorem cov_affine (x y : Map) (hx : 0 < size x) (hy : size y = size x) (a b : ℝ) (k l : ℕ → ℝ) (c : ℕ) :
    cov { x with at' := fun c m => a * x.at' c m + k c } { y with at' := fun c m => b * y.at' c m + l c } c = a * b * cov x y c := by
  unfold cov
  rw [avg_affine x hx, avg_affine y (by omega), ← mul_div_assoc, Finset.mul_sum]
  refine congrArg (fun z : ℝ => z / ((size x : ℝ) - 1)) ?_
  refine Finset.sum_congr rfl fun m _ => ?_
  ring

theorem sigma_affine (x : Map) (hx : 0 < size x) {a : ℝ} (ha : 0 ≤ a) (k : ℕ → ℝ) (c : ℕ) :
    sigma { x with at' := fun c m => a * x.at' c m + k c } c = a * sigma x c := by
  unfold sigma
  rw [cov_affine x x hx rfl, Real.sqrt_mul (mul_self_nonneg a), Real.sqrt_mul_self ha]

theorem smooth_huber (x : ℝ) : smooth x = huber x := by
  unfold smooth huber
  rcases lt_trichotomy |x| 1 with h | h | h
  · rw [if_pos h, if_pos h.le]
  · rw [if_neg (by linarith), if_pos h.le, ← sq_abs, h]; norm_num
  · rw [if_neg (by linarith), if_neg (by linarith)]

theorem pairs_card (N : ℕ) : ((pairs N).card : ℝ) = N * (N - 1) := by
  have : (pairs N) = Finset.univ.offDiag := by
    ext ⟨i, j⟩; simp [pairs]
  rw [this, Finset.offDiag_card]
  simp only [Finset.card_univ, Fintype.card_fin]
  rw [Nat.cast_sub (Nat.le_mul_self N)]
  push_cast; ring

theorem sum_pairs {N : ℕ} (f : Fin N → Fin N → ℝ) (h : ∀ i, f i i = 0) : ∑ i, ∑ j, f i j = ∑ ij ∈ pairs N, f ij.1 ij.2 := by
  rw [← Finset.sum_product', pairs, Finset.sum_filter]
  refine Finset.sum_congr rfl fun ij _ => ?_
  by_cases e : ij.1 = ij.2
  · rw [if_neg (not_not.2 e), ← e, h]
  · rw [if_pos e]

theorem mean_relative {N D : ℕ} (x : Feat N D) {i j : Fin N} (h : i ≠ j) :
    euclid x i j / ((∑ ij ∈ pairs N, euclid x ij.1 ij.2) / (pairs N).card) = relative x i j := by
  unfold relative
  rw [euclid_eq x h, pairs_card]
  refine congrArg (fun y : ℝ => gap (x i) (x j) / (y / (N * (N - 1)))) ?_
  exact Finset.sum_congr rfl fun ij hij => euclid_eq x (by simpa [pairs] using hij)

end Verif.RelationLoss
