import Verif.Model.FeatureLoss
import Verif.Model.LogitLoss

/-! Model of the distillation losses on relations in `mmrazor/models/losses`: `relational_kd.py`,
`dist_loss.py` and `pkd_loss.py`.

Tensors hold exact reals; `none` stands for a loss that is not a number. -/

namespace Verif.RelationLoss
open Verif Verif.FeatureLoss

/-- `F.smooth_l1_loss` of PyTorch, one element. -/
noncomputable def smooth (x : ℝ) : ℝ := if |x| < 1 then x ^ 2 / 2 else |x| - 1 / 2

/-- `euclidean_distance(pred, squared=False)`, relational_kd.py lines 9-31. -/
noncomputable def euclid {N D : ℕ} (x : Feat N D) (i j : Fin N) : ℝ :=
  if i = j then 0 else
    Real.sqrt (max (∑ d, x i d ^ 2 + ∑ d, x j d ^ 2 - 2 * ∑ d, x i d * x j d) (1 / 10 ^ 12))

open Classical in
/-- `d[d > 0].mean()`, relational_kd.py lines 72 and 76: of no elements it is not a number. -/
noncomputable def meanPositive {N : ℕ} (d : Fin N → Fin N → ℝ) : Option ℝ :=
  let pos := (Finset.univ : Finset (Fin N × Fin N)).filter fun ij => d ij.1 ij.2 > 0
  if pos.card = 0 then none else some ((∑ ij ∈ pos, d ij.1 ij.2) / pos.card)

/-- The optional normalisation of the predictions, relational_kd.py lines 94-98 and 142-146. -/
noncomputable def prepare {N D : ℕ} (withNorm : Bool) (x : Feat N D) : Feat N D :=
  if withNorm then fun n => unit (x n) else x

/-- `DistanceWiseRKD.forward` with `distance_loss`, relational_kd.py lines 69-101. -/
noncomputable def distanceForward {N D D' : ℕ} (weight : ℝ) (withNorm : Bool) (s : Feat N D) (t : Feat N D') : Option ℝ :=
  let dt := euclid (prepare withNorm t)
  let ds := euclid (prepare withNorm s)
  match meanPositive dt, meanPositive ds with
  | some mt, some ms => some ((∑ i, ∑ j, smooth (ds i j / ms - dt i j / mt)) / (N * N) * weight)
  | _, _ => none

/-- `angle`, relational_kd.py lines 34-46: the cosines at sample `i` between the directions to `j`
and `k`. -/
noncomputable def cosine {N D : ℕ} (x : Feat N D) (i j k : Fin N) : ℝ :=
  ∑ d, unit (fun d => x j d - x i d) d * unit (fun d => x k d - x i d) d

/-- `AngleWiseRKD.forward` with `angle_loss`, relational_kd.py lines 124-149. -/
noncomputable def angleForward {N D D' : ℕ} (weight : ℝ) (withNorm : Bool) (s : Feat N D) (t : Feat N D') : ℝ :=
  (∑ i, ∑ j, ∑ k, smooth (cosine (prepare withNorm s) i j k - cosine (prepare withNorm t) i j k)) / (N * N * N) * weight

/-- A row minus its mean, dist_loss.py lines 12-14. -/
noncomputable def centred {D : ℕ} (x : Fin D → ℝ) (d : Fin D) : ℝ := x d - (∑ e, x e) / D

/-- `pearson_correlation` with `cosine_similarity`, dist_loss.py lines 8-14, one row. -/
noncomputable def pearson {D : ℕ} (a b : Fin D → ℝ) : ℝ :=
  (∑ d, centred a d * centred b d) / (FeatureLoss.norm (centred a) * FeatureLoss.norm (centred b) + 1 / 10 ^ 8)

/-- `inter_class_relation`, dist_loss.py lines 17-18. -/
noncomputable def inter {N D : ℕ} (a b : Feat N D) : ℝ := 1 - (∑ n, pearson (a n) (b n)) / N

/-- The constructor arguments of `DISTLoss`, dist_loss.py lines 28-42. -/
structure Dist where
  inter : ℝ
  intra : ℝ
  tau : ℝ
  weight : ℝ

/-- `DISTLoss.forward`, dist_loss.py lines 21-22 and 44-52. -/
noncomputable def distForward {N C : ℕ} (k : Dist) (s t : Feat N C) : ℝ :=
  let ys : Feat N C := fun n => LogitLoss.softmax fun c => s n c / k.tau
  let yt : Feat N C := fun n => LogitLoss.softmax fun c => t n c / k.tau
  let interLoss := k.tau ^ 2 * inter ys yt
  let intraLoss := k.tau ^ 2 * inter (fun c n => ys n c) (fun c n => yt n c)
  (k.inter * interLoss + k.intra * intraLoss) * k.weight

/-- A feature map of shape (N, C, H, W): `at' c m` is value `m` of channel `c` over all samples and
positions. -/
structure Map where
  n : ℕ
  c : ℕ
  h : ℕ
  w : ℕ
  at' : ℕ → ℕ → ℝ

/-- The number of values of a channel. -/
def Map.count (x : Map) : ℕ := x.n * x.h * x.w

/-- The mean of a channel. -/
noncomputable def Map.mean (x : Map) (c : ℕ) : ℝ := (∑ m ∈ Finset.range x.count, x.at' c m) / x.count

/-- `feat.std(dim=-1)` with Bessel's correction. -/
noncomputable def Map.std (x : Map) (c : ℕ) : ℝ :=
  Real.sqrt ((∑ m ∈ Finset.range x.count, (x.at' c m - x.mean c) ^ 2) / (x.count - 1))

/-- `PKDLoss.norm`, pkd_loss.py lines 31-44. -/
noncomputable def Map.normed (x : Map) (c m : ℕ) : ℝ := (x.at' c m - x.mean c) / (x.std c + 1 / 10 ^ 6)

/-- `F.mse_loss(norm_S, norm_T) / 2` for maps of one shape, pkd_loss.py lines 75-81; the deviation
of fewer than two values, and the mean of no values, are not numbers. -/
noncomputable def pkdTerm (s t : Map) : Option ℝ :=
  if s.count < 2 ∨ s.c = 0 then none else
    some ((∑ c ∈ Finset.range s.c, ∑ m ∈ Finset.range s.count, (s.normed c m - t.normed c m) ^ 2) / (s.c * s.count) / 2)

/-- One pass of the loop of `PKDLoss.forward`, pkd_loss.py lines 66-81; `resize` stands for
`F.interpolate`. -/
noncomputable def pkdLevel (resize : Map → ℕ → ℕ → Map) (resizeStu : Bool) (s t : Map) : Except Err (Option ℝ) :=
  let st : Map × Map :=
    if s.h ≠ t.h then
      if resizeStu then (resize s t.h t.w, t) else (s, resize t s.h s.w)
    else (s, t)
  if st.1.n = st.2.n ∧ st.1.c = st.2.c ∧ st.1.h = st.2.h ∧ st.1.w = st.2.w then .ok (pkdTerm st.1 st.2)
  else .error .assertion

/-- The sum of two losses, not a number if one of them is none. -/
noncomputable def plus : Option ℝ → Option ℝ → Option ℝ
  | some a, some b => some (a + b)
  | _, _ => none

/-- The loop of `PKDLoss.forward` over the pairs of `zip`, pkd_loss.py lines 64-81. -/
noncomputable def pkdSum (resize : Map → ℕ → ℕ → Map) (resizeStu : Bool) : List (Map × Map) → Except Err (Option ℝ)
  | [] => .ok (some 0)
  | st :: rest => do
    let x ← pkdLevel resize resizeStu st.1 st.2
    let y ← pkdSum resize resizeStu rest
    return plus x y

/-- `PKDLoss.forward` on tuples of feature maps, pkd_loss.py lines 46-83. A single map is a tuple of
length one. -/
noncomputable def pkdForward (weight : ℝ) (resize : Map → ℕ → ℕ → Map) (resizeStu : Bool) (ss ts : List Map) : Except Err (Option ℝ) :=
  (pkdSum resize resizeStu (ss.zip ts)).map fun x => x.map (· * weight)

end Verif.RelationLoss
