import Verif.Model.Augment
import Mathlib.Tactic.Linarith
import Mathlib.Tactic.NormNum
import Mathlib.Tactic.Positivity
import Mathlib.Algebra.Order.Floor.Ring

/-! Definitions used in the statements of `Verif/Props/Augment.lean`. -/

namespace Verif.Augment
open Verif

/-! ### Specification -/

/-- The documented ranges of the arguments. -/
def Arg.within : Op → Arg → Prop
  | .autoContrast, a | .equalize, a | .invert, a => a = .none
  | .rotate, a => ∃ x, a = .real x ∧ -30 ≤ x ∧ x ≤ 30
  | .posterize, a => ∃ n, a = .int n ∧ 4 ≤ n ∧ n ≤ 8
  | .posterize2, a => ∃ n, a = .int n ∧ 0 ≤ n ∧ n ≤ 4
  | .solarize, a => ∃ n, a = .int n ∧ 0 ≤ n ∧ n ≤ 256
  | .solarizeAdd, a => ∃ n, a = .int n ∧ 0 ≤ n ∧ n ≤ 110
  | .color, a | .contrast, a | .brightness, a | .sharpness, a => ∃ x, a = .real x ∧ 1 / 10 ≤ x ∧ x ≤ 19 / 10
  | .shearX, a | .shearY, a => ∃ x, a = .real x ∧ -(3 / 10) ≤ x ∧ x ≤ 3 / 10
  | .translateX, a | .translateY, a => ∃ x, a = .real x ∧ -250 ≤ x ∧ x ≤ 250
  | .translateXRel, a | .translateYRel, a => ∃ x, a = .real x ∧ -(45 / 100) ≤ x ∧ x ≤ 45 / 100

/-- The size of an argument. -/
def Arg.size : Arg → ℚ
  | .none => 0
  | .real x => |x|
  | .int n => n

/-- The images named in `img_fields`, by default `img`. -/
def Results.keys (r : Results) : List String := r.fields.getD ["img"]

/-- The images that are named, each once, exist. -/
def Results.ok (r : Results) : Prop := r.keys.Nodup ∧ ∀ k ∈ r.keys, k ∈ r.images.map Prod.fst

/-- Further effects on the images that are named; nothing is done to the others. -/
def Results.extend (r : Results) (f : String → List Effect) : Results :=
  { r with images := r.images.map fun x => if x.1 ∈ r.keys then (x.1, x.2 ++ f x.1) else x }

/-- The effects of some operations on the image `k`: those for which the number drawn does not
exceed the probability, in order. -/
def effects (sub : List Aug) (calls : List Call) (k : String) : List Effect :=
  (sub.zip calls).filterMap fun p => if p.1.prob < p.2.u then none else some (p.1.effect (p.2.pick k))

/-- The sample that belongs to the results of a pipeline. -/
def Packed.of (ks : List String) (s : Sample) : Packed :=
  ⟨s.lookup "gt_label", s.lookup "sample_idx", s.lookup "contrast_sample_idxs",
    (ks.filter (· ≠ "sample_idx")).filterMap fun k => (s.lookup k).map (k, ·)⟩

end Verif.Augment
