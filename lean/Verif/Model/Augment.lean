import Verif.Py
import Mathlib.Data.Rat.Floor
import Mathlib.Data.List.Basic

/-! Model of the augmentation and packing of images: `AutoAugment` and its operations
(`mmrazor/datasets/transforms/auto_augment.py`), the operations of
`mmrazor/datasets/transforms/auto_augmentv2.py` with `AutoAugmentV2`, and `PackCRDClsInputs`
(`mmrazor/datasets/transforms/formatting.py`).

Magnitudes are exact numbers instead of doubles. An image is represented by the operations made on
it (`Effect`), except for the operations on single pixel values, which are modelled. Random draws
are arguments. -/

namespace Verif.Augment
open Verif

/-- The operations of `NAME_TO_OP`, auto_augment.py lines 210-229. -/
inductive Op
  | autoContrast | equalize | invert | rotate | posterize | posterize2 | solarize | solarizeAdd | color | contrast | brightness
  | sharpness | shearX | shearY | translateX | translateY | translateXRel | translateYRel
deriving DecidableEq, Repr

/-- `NAME_TO_OP[name]`, line 230. -/
def Op.ofName (name : String) : Except Err Op :=
  match name with
  | "AutoContrast" => .ok .autoContrast
  | "Equalize" => .ok .equalize
  | "Invert" => .ok .invert
  | "Rotate" => .ok .rotate
  | "Posterize" => .ok .posterize
  | "Posterize2" => .ok .posterize2
  | "Solarize" => .ok .solarize
  | "SolarizeAdd" => .ok .solarizeAdd
  | "Color" => .ok .color
  | "Contrast" => .ok .contrast
  | "Brightness" => .ok .brightness
  | "Sharpness" => .ok .sharpness
  | "ShearX" => .ok .shearX
  | "ShearY" => .ok .shearY
  | "TranslateX" => .ok .translateX
  | "TranslateY" => .ok .translateY
  | "TranslateXRel" => .ok .translateXRel
  | "TranslateYRel" => .ok .translateYRel
  | _ => .error .key

/-- `level_args`: the argument of an operation. -/
inductive Arg
  | none
  | real (x : ℚ)
  | int (n : Int)
deriving DecidableEq, Repr

/-- `min(_MAX_LEVEL, max(0, magnitude))`, line 275. -/
def clamp (m : ℚ) : ℚ := min 10 (max 0 m)

/-- `_randomly_negate`, lines 202-204; `u` is the number drawn. -/
def negate (u v : ℚ) : ℚ := if u > 1 / 2 then -v else v

/-- `int(x)` of a number that is not negative. -/
def trunc (x : ℚ) : Int := ⌊x⌋

/-- `level_fn(magnitude)`, lines 248-270 and 278-319. -/
def level (op : Op) (m u : ℚ) : Arg :=
  match op with
  | .autoContrast | .equalize | .invert => .none
  | .rotate => .real (negate u (m / 10 * 30))
  | .posterize => .int (trunc (m / 10 * 4) + 4)
  | .posterize2 => .int (4 - trunc (m / 10 * 4))
  | .solarize => .int (trunc (m / 10 * 256))
  | .solarizeAdd => .int (trunc (m / 10 * 110))
  | .color | .contrast | .brightness | .sharpness => .real (m / 10 * (18 / 10) + 1 / 10)
  | .shearX | .shearY => .real (negate u (m / 10 * (3 / 10)))
  | .translateX | .translateY => .real (negate u (m / 10 * 250))
  | .translateXRel | .translateYRel => .real (negate u (m / 10 * (45 / 100)))

inductive Interp
  | nearest | bilinear | bicubic
deriving DecidableEq, Repr

abbrev Colour := Nat × Nat × Nat

/-- `extra_params` (`hparams`): `translate_const`, `img_mean` and `interpolation`. -/
structure Params where
  translateConst : Option ℚ := none
  imgMean : Option Colour := none
  interpolation : Option (List Interp) := none
deriving DecidableEq, Repr

/-- An operation of the first version: `aug_fn`, `prob`, `level_args` and `kwargs`. -/
structure Aug where
  op : Op
  prob : ℚ
  arg : Arg
  fill : Colour
  resample : List Interp
deriving DecidableEq, Repr

/-- The draws made when an operation is constructed: the deviation of the magnitude, and the number
that decides on the sign. -/
structure Draw where
  noise : ℚ
  sign : ℚ
deriving DecidableEq, Repr

/-- `AutoAugmentOp.__init__` and `_get_magnitude`, lines 209-276. -/
def Aug.make (name : String) (prob magnitude : ℚ) (p : Params) (d : Draw) : Except Err Aug :=
  match Op.ofName name with
  | .error e => .error e
  | .ok op =>
    .ok ⟨op, prob, level op (clamp (magnitude + d.noise)) d.sign, p.imgMean.getD (128, 128, 128),
      p.interpolation.getD [.nearest, .bilinear, .bicubic]⟩

/-- What is done to an image: the operation, its argument and, for the geometric ones, the colour of
pixels from outside and the interpolation. -/
structure Effect where
  op : Op
  arg : Arg
  geometry : Option (Colour × Interp)
deriving DecidableEq, Repr

/-- The operations that take `fillcolor` and `resample`, lines 44-125. -/
def Op.geometric : Op → Bool
  | .rotate | .shearX | .shearY | .translateX | .translateY | .translateXRel | .translateYRel => true
  | _ => false

/-- The results of the pipeline so far: `img_fields`, and what was done to each image. -/
structure Results where
  fields : Option (List String)
  images : List (String × List Effect)
deriving DecidableEq, Repr

/-- The number drawn for the probability, and the choices of the interpolation for the images. -/
structure Call where
  u : ℚ
  pick : String → Nat

/-- `results[key] = …`, for one key. -/
def Results.add (r : Results) (key : String) (e : Effect) : Except Err Results :=
  if key ∈ r.images.map Prod.fst then
    .ok { r with images := r.images.map fun x => if x.1 = key then (x.1, x.2 ++ [e]) else x }
  else .error .key

/-- `aug_fn(img, *level_args, **kwargs)`, lines 30-42 and 327: `random.choice` of the
interpolations. -/
def Aug.effect (a : Aug) (i : Nat) : Effect :=
  ⟨a.op, a.arg, if a.op.geometric then some (a.fill, (a.resample[i % a.resample.length]?).getD .nearest) else none⟩

/-- The loop over `results.get('img_fields', ['img'])`, lines 325-328. -/
def addAll (f : String → Effect) (keys : List String) (r : Results) : Except Err Results :=
  keys.foldlM (fun (r : Results) (k : String) => r.add k (f k)) r

/-- `AutoAugmentOp.transform`, lines 321-329. -/
def Aug.transform (a : Aug) (c : Call) (r : Results) : Except Err Results :=
  if a.prob < c.u then .ok r else addAll (fun k => a.effect (c.pick k)) (r.fields.getD ["img"]) r

abbrev Policy := List (List (String × ℚ × ℚ))

/-- `auto_augment_policy['original']`, lines 343-369. -/
def original : Policy :=
  [[("Equalize", 8/10, 1), ("ShearY", 8/10, 4)], [("Color", 4/10, 9), ("Equalize", 6/10, 3)],
   [("Color", 4/10, 1), ("Rotate", 6/10, 8)], [("Solarize", 8/10, 3), ("Equalize", 4/10, 7)],
   [("Solarize", 4/10, 2), ("Solarize", 6/10, 2)], [("Color", 2/10, 0), ("Equalize", 8/10, 8)],
   [("Equalize", 4/10, 8), ("SolarizeAdd", 8/10, 3)], [("ShearX", 2/10, 9), ("Rotate", 6/10, 8)],
   [("Color", 6/10, 1), ("Equalize", 1, 2)], [("Invert", 4/10, 9), ("Rotate", 6/10, 0)],
   [("Equalize", 1, 9), ("ShearY", 6/10, 3)], [("Color", 4/10, 7), ("Equalize", 6/10, 0)],
   [("Posterize", 4/10, 6), ("AutoContrast", 4/10, 7)], [("Solarize", 6/10, 8), ("Color", 6/10, 9)],
   [("Solarize", 2/10, 4), ("Rotate", 8/10, 9)], [("Rotate", 1, 7), ("TranslateYRel", 8/10, 9)],
   [("ShearX", 0, 0), ("Solarize", 8/10, 4)], [("ShearY", 8/10, 0), ("Color", 6/10, 4)],
   [("Color", 1, 0), ("Rotate", 6/10, 2)], [("Equalize", 8/10, 4), ("Equalize", 0, 8)],
   [("Equalize", 1, 4), ("AutoContrast", 6/10, 2)], [("ShearY", 4/10, 7), ("SolarizeAdd", 6/10, 7)],
   [("Posterize", 8/10, 2), ("Solarize", 6/10, 10)], [("Solarize", 6/10, 8), ("Equalize", 6/10, 1)],
   [("Color", 8/10, 6), ("Rotate", 4/10, 5)]]

/-- `auto_augment_policy['v0']`, lines 370-396. -/
def v0 : Policy :=
  [[("Posterize", 4/10, 8), ("Rotate", 6/10, 9)], [("Solarize", 6/10, 5), ("AutoContrast", 6/10, 5)],
   [("Equalize", 8/10, 8), ("Equalize", 6/10, 3)], [("Posterize", 6/10, 7), ("Posterize", 6/10, 6)],
   [("Equalize", 4/10, 7), ("Solarize", 2/10, 4)], [("Equalize", 4/10, 4), ("Rotate", 8/10, 8)],
   [("Solarize", 6/10, 3), ("Equalize", 6/10, 7)], [("Posterize", 8/10, 5), ("Equalize", 1, 2)],
   [("Rotate", 2/10, 3), ("Solarize", 6/10, 8)], [("Equalize", 6/10, 8), ("Posterize", 4/10, 6)],
   [("Rotate", 8/10, 8), ("Color", 4/10, 0)], [("Rotate", 4/10, 9), ("Equalize", 6/10, 2)],
   [("Equalize", 0, 7), ("Equalize", 8/10, 8)], [("Invert", 6/10, 4), ("Equalize", 1, 8)],
   [("Color", 6/10, 4), ("Contrast", 1, 8)], [("Rotate", 8/10, 8), ("Color", 1, 2)],
   [("Color", 8/10, 8), ("Solarize", 8/10, 7)], [("Sharpness", 4/10, 7), ("Invert", 6/10, 8)],
   [("ShearX", 6/10, 5), ("Equalize", 1, 9)], [("Color", 4/10, 0), ("Equalize", 6/10, 3)],
   [("Equalize", 4/10, 7), ("Solarize", 2/10, 4)], [("Solarize", 6/10, 5), ("AutoContrast", 6/10, 5)],
   [("Invert", 6/10, 4), ("Equalize", 1, 8)], [("Color", 6/10, 4), ("Contrast", 1, 8)],
   [("Equalize", 8/10, 8), ("Equalize", 6/10, 3)]]

/-- `auto_augment_policy[policies]`, line 400. -/
def policy (name : String) : Except Err Policy :=
  match name with
  | "original" => .ok original
  | "v0" => .ok v0
  | _ => .error .key

/-- `AutoAugment.__init__`, lines 399-404; `draw i j` for operation `j` of sub-policy `i`. -/
def construct (name : String) (p : Params) (draw : Nat → Nat → Draw) : Except Err (List (List Aug)) := do
  let ps ← policy name
  ps.zipIdx.mapM fun (sp : List (String × ℚ × ℚ) × Nat) =>
    sp.1.zipIdx.mapM fun (a : (String × ℚ × ℚ) × Nat) => Aug.make a.1.1 a.1.2.1 a.1.2.2 p (draw sp.2 a.2)

/-- The operations of a sub-policy one after another, lines 408-410; `calls j` for operation `j`. -/
def runAll : List Aug → List Call → Results → Except Err Results
  | a :: as, c :: cs, r => do
    let r ← a.transform c r
    runAll as cs r
  | _, _, r => .ok r

/-- `AutoAugment.transform`, lines 406-410: `random.choice` of the sub-policies. -/
def augment (subs : List (List Aug)) (choice : Nat) (calls : List Call) (r : Results) : Except Err Results :=
  match subs[choice]? with
  | none => .error .index
  | some sub => runAll sub calls r

/-! ### The second version -/

/-- `__call__` of the operations of auto_augmentv2.py (lines 116-130, 264-294 and the like), which
mmcv's `Compose` calls with the results only: `kwargs` is empty, so `_check_args_tf` (lines 62-65)
sets the interpolation to `NEAREST` and pixels from outside are black. `PosterizeV2` (lines 414-428)
leaves all images alone if all 8 bits (the largest argument) are kept. -/
def Aug.callV2 (a : Aug) (c : Call) (r : Results) : Except Err Results :=
  if a.prob < c.u then .ok r
  else if a.op = .posterize ∧ a.arg = .int 8 then .ok r
  else addAll (fun _ => ⟨a.op, a.arg, if a.op.geometric then some ((0, 0, 0), .nearest) else none⟩) (r.fields.getD ["img"]) r

/-! ### Operations on pixel values -/

/-- `posterize`, lines 169-175: PIL keeps the upper bits of each value. -/
def posterizePixel (bits : Int) (p : Nat) : Nat :=
  if 8 ≤ bits then p else
    let b := (max 1 bits).toNat
    p / 2 ^ (8 - b) * 2 ^ (8 - b)

/-- `solarize`, lines 146-149: PIL inverts the values from the threshold on. -/
def solarizePixel (thresh : Int) (p : Nat) : Nat := if (p : Int) < thresh then p else 255 - p

/-- `solarize_add`, lines 152-167. -/
def solarizeAddPixel (add : Int) (p : Nat) : Nat := if p < 128 then (min 255 ((p : Int) + add)).toNat else p

/-! ### `PackCRDClsInputs` -/

/-- `self.meta_keys`: a tuple, or a generator that was used up. -/
inductive Keys
  | tuple (ks : List String)
  | used
deriving DecidableEq, Repr

/-- What iterating over it gives. -/
def Keys.items : Keys → List String
  | .tuple ks => ks
  | .used => []

/-- The results of the pipeline: the values by key. -/
abbrev Sample := List (String × Nat)

/-- A packed sample: `gt_label`, `sample_idx`, `contrast_sample_idxs` and the meta information. -/
structure Packed where
  label : Option Nat
  idx : Option Nat
  contrast : Option Nat
  info : List (String × Nat)
deriving DecidableEq, Repr

/-- `transform`, formatting.py lines 23-73, without the image: the packed sample and
`self.meta_keys` afterwards. A generator in `self.meta_keys` has been used up by the comprehension
of line 69. -/
def pack (keys : Keys) (s : Sample) : Packed × Keys :=
  match s.lookup "sample_idx" with
  | none =>
    (⟨s.lookup "gt_label", none, s.lookup "contrast_sample_idxs", keys.items.filterMap fun k => (s.lookup k).map (k, ·)⟩, keys)
  | some i =>
    (⟨s.lookup "gt_label", some i, s.lookup "contrast_sample_idxs",
      (keys.items.filter (· ≠ "sample_idx")).filterMap fun k => (s.lookup k).map (k, ·)⟩, .used)

/-- A sequence of images. -/
def packAll : Keys → List Sample → List Packed
  | _, [] => []
  | keys, s :: ss => (pack keys s).1 :: packAll (pack keys s).2 ss

end Verif.Augment
