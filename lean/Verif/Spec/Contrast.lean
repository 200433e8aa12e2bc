import Verif.Model.Contrast
import Mathlib.Algebra.BigOperators.Field

/-! Definitions used in the statements of `Verif/Props/Contrast.lean`. -/

namespace Verif.Contrast
open Verif

/-! ### Specification -/

/-- The chance that a table for `n` outcomes gives `j`: a row is drawn evenly, then a coin decides
between the row and its alias. -/
def chance (t : Table) (n j : ℕ) : ℚ :=
  (∑ k ∈ Finset.range n, (t.prob k * (if draw t k true = j then 1 else 0) + (1 - t.prob k) * (if draw t k false = j then 1 else 0))) / n

/-- A forward pass: features of the student and the teacher, samples and rows compared with. -/
structure Step (n D : ℕ) where
  B : ℕ
  K : ℕ
  fs : Fin B → Fin D → ℝ
  ft : Fin B → Fin D → ℝ
  idx : Fin B → Fin n
  rows : Fin B → Fin (K + 1) → Fin n

/-- The memory after a history of forward passes. -/
noncomputable def run {n D : ℕ} (c : Cfg) (st : Memory n D) (l : List (Step n D)) : Memory n D :=
  l.foldl (fun st s => (memoryForward c st s.fs s.ft s.idx s.rows).1) st

/-- The row of a memory moved by a share `1 - m` towards a feature, and scaled to length one. -/
noncomputable def towards {D : ℕ} (m : ℝ) (v f : Fin D → ℝ) : Fin D → ℝ := fun d =>
  (m * v d + (1 - m) * f d) / Real.sqrt (∑ e, (m * v e + (1 - m) * f e) ^ 2)

/-- The scores of one batch: the exponential of the inner product of rows and features over the
temperature. -/
noncomputable def scores {B K n D : ℕ} (T : ℝ) (v : Fin n → Fin D → ℝ) (f : Fin B → Fin D → ℝ) (rows : Fin B → Fin K → Fin n) : Fin B → Fin K → ℝ :=
  fun b k => Real.exp ((∑ d, v (rows b k) d * f b d) / T)

/-- The mean of a table. -/
noncomputable def mean {B K : ℕ} (x : Fin B → Fin K → ℝ) : ℝ := (∑ b, ∑ k, x b k) / (B * K)

end Verif.Contrast
