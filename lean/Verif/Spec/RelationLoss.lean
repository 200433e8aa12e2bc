import Verif.Model.RelationLoss
import Verif.Lemmas.LogitLoss
import Verif.Lemmas.FeatureLoss

/-! Definitions used in the statements of `Verif/Props/RelationLoss.lean`. -/

namespace Verif.RelationLoss
open Verif Verif.FeatureLoss

/-! ### Specification -/

/-- The distance of two rows, but at least `1e-6`. -/
noncomputable def gap {D : ℕ} (x y : Fin D → ℝ) : ℝ := max (Real.sqrt (∑ d, (x d - y d) ^ 2)) (1 / 10 ^ 6)

/-- The rows as they are compared: divided by their norm if asked, but at least by `1e-12`. -/
noncomputable def seen {N D : ℕ} (withNorm : Bool) (x : Feat N D) : Feat N D := fun n d =>
  if withNorm then x n d / max (Real.sqrt (∑ e, x n e ^ 2)) (1 / 10 ^ 12) else x n d

/-- The inner product of the directions from row `i` to the rows `j` and `k`. -/
def corner {N D : ℕ} (x : Feat N D) (i j k : Fin N) : ℝ := ∑ d, (x j d - x i d) * (x k d - x i d)

/-- The pairs of different samples. -/
def pairs (N : ℕ) : Finset (Fin N × Fin N) := Finset.univ.filter fun ij => ij.1 ≠ ij.2

/-- The loss of a difference: quadratic up to one, linear beyond, without a kink. -/
noncomputable def huber (x : ℝ) : ℝ := if |x| ≤ 1 then x ^ 2 / 2 else |x| - 1 / 2

/-- The distance of two samples relative to the mean over all pairs of different samples. -/
noncomputable def relative {N D : ℕ} (x : Feat N D) (i j : Fin N) : ℝ :=
  gap (x i) (x j) / ((∑ ij ∈ pairs N, gap (x ij.1) (x ij.2)) / (N * (N - 1)))

/-- The cosine of the angle at sample `i`; lengths below `1e-12` count as `1e-12`. -/
noncomputable def angleCos {N D : ℕ} (x : Feat N D) (i j k : Fin N) : ℝ :=
  corner x i j k / (max (Real.sqrt (corner x i j j)) (1 / 10 ^ 12) * max (Real.sqrt (corner x i k k)) (1 / 10 ^ 12))

/-- The sum of the squared deviations of a row from its mean. -/
noncomputable def spread {D : ℕ} (x : Fin D → ℝ) : ℝ := ∑ d, (x d - (∑ e, x e) / D) ^ 2

/-- The probabilities of a batch of scores at a temperature. -/
noncomputable def probs {N C : ℕ} (tau : ℝ) (z : Feat N C) : Feat N C := fun n c =>
  Real.exp (z n c / tau) / ∑ e, Real.exp (z n e / tau)

/-- Two maps of one shape. -/
def SameShape (s t : Map) : Prop := s.n = t.n ∧ s.c = t.c ∧ s.h = t.h ∧ s.w = t.w

/-- The number of values, the mean, and the deviation of a channel. -/
def size (x : Map) : ℕ := x.n * x.h * x.w

noncomputable def avg (x : Map) (c : ℕ) : ℝ := (∑ m ∈ Finset.range (size x), x.at' c m) / size x

noncomputable def cov (x y : Map) (c : ℕ) : ℝ :=
  (∑ m ∈ Finset.range (size x), (x.at' c m - avg x c) * (y.at' c m - avg y c)) / (size x - 1)

noncomputable def sigma (x : Map) (c : ℕ) : ℝ := Real.sqrt (cov x x c)

/-- Half the mean squared difference of two standardised maps, in terms of deviations and
covariances. -/
noncomputable def level (s t : Map) : ℝ :=
  ((size s : ℝ) - 1) / (2 * size s) * ((∑ c ∈ Finset.range s.c,
    ((sigma s c / (sigma s c + 1 / 10 ^ 6)) ^ 2 + (sigma t c / (sigma t c + 1 / 10 ^ 6)) ^ 2
      - 2 * (cov s t c / ((sigma s c + 1 / 10 ^ 6) * (sigma t c + 1 / 10 ^ 6))))) / s.c)

end Verif.RelationLoss
