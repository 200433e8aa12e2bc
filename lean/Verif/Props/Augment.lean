import Verif.Lemmas.Augment

namespace Verif.Augment
open Verif

/-! ### Arguments -/

/-- C75: whatever magnitude is configured and drawn, the argument of every operation is in its
documented range. -/
theorem C75_range (name : String) (prob m : ℚ) (p : Params) (d : Draw) (a : Aug) (h : Aug.make name prob m p d = .ok a) :
    Op.ofName name = .ok a.op ∧ a.prob = prob ∧ a.arg.within a.op := by
  unfold Aug.make at h
  cases ho : Op.ofName name with
  | error e => rw [ho] at h; cases h
  | ok op =>
    rw [ho] at h
    cases h
    exact ⟨rfl, rfl, level_within _ _ _⟩

/-- C75: a larger magnitude gives an argument of larger size, whatever the signs; for `Posterize2`,
which counts the bits to drop, a smaller one. -/
theorem C75_monotone (op : Op) (m m' u u' : ℚ) (h : m ≤ m') :
    if op = .posterize2 then (level op (clamp m') u').size ≤ (level op (clamp m) u).size
    else (level op (clamp m) u).size ≤ (level op (clamp m') u').size := by
  have h0 := (clamp_mem m).1
  have h1 := clamp_mono h
  generalize clamp m = c at h0 h1
  generalize clamp m' = c' at h1
  have ht : ∀ k : ℚ, 0 ≤ k → trunc (c / 10 * k) ≤ trunc (c' / 10 * k) := by
    intro k hk
    unfold trunc
    refine Int.floor_mono ?_
    have : c / 10 ≤ c' / 10 := by linarith
    exact mul_le_mul_of_nonneg_right this hk
  have ha : ∀ k : ℚ, 0 ≤ k → |negate u (c / 10 * k)| ≤ |negate u' (c' / 10 * k)| := by
    intro k hk
    rw [negate_abs, negate_abs, abs_of_nonneg (by positivity), abs_of_nonneg (mul_nonneg (by linarith) hk)]
    have : c / 10 ≤ c' / 10 := by linarith
    exact mul_le_mul_of_nonneg_right this hk
  cases op
  case posterize2 =>
    rw [if_pos rfl]
    have := ht 4 (by norm_num)
    show (((4 - trunc (c' / 10 * 4) : Int)) : ℚ) ≤ ((4 - trunc (c / 10 * 4) : Int) : ℚ)
    exact_mod_cast (by omega)
  all_goals rw [if_neg (by decide)]
  case autoContrast | equalize | invert => exact le_refl _
  case posterize =>
    have := ht 4 (by norm_num)
    show ((trunc (c / 10 * 4) + 4 : Int) : ℚ) ≤ ((trunc (c' / 10 * 4) + 4 : Int) : ℚ)
    exact_mod_cast (by omega)
  case solarize => exact Int.cast_le.2 (ht 256 (by norm_num))
  case solarizeAdd => exact Int.cast_le.2 (ht 110 (by norm_num))
  case color | contrast | brightness | sharpness =>
    show |c / 10 * (18 / 10) + 1 / 10| ≤ |c' / 10 * (18 / 10) + 1 / 10|
    rw [abs_of_nonneg (by positivity), abs_of_nonneg (by linarith)]
    linarith
  all_goals exact ha _ (by norm_num)

/-- C75, DISAGREEMENT: `translate_const` has no effect; translations go up to 250 pixels whatever is
configured. -/
theorem C75_translate_violated (name : String) (prob m : ℚ) (p : Params) (t : Option ℚ) (d : Draw) :
    Aug.make name prob m { p with translateConst := t } d = Aug.make name prob m p d ∧
      ∃ d', (Aug.make "TranslateX" prob m p d').map Aug.arg = .ok (.real 250) := by
  refine ⟨rfl, ⟨10 - m, 0⟩, ?_⟩
  show Except.ok (Arg.real (negate 0 (clamp (m + (10 - m)) / 10 * 250))) = _
  have : clamp (m + (10 - m)) = 10 := by
    rw [add_sub_cancel]; decide +kernel
  rw [this]
  decide +kernel

/-! ### Pixels -/

/-- C75: posterising keeps the upper bits of a value, at least one, and clears the others. -/
theorem C75_posterize (bits : Int) (p : Nat) (hp : p < 256) :
    (8 ≤ bits → posterizePixel bits p = p) ∧
      (bits < 8 → ∃ b : Nat, (b : Int) = max 1 bits ∧ 2 ^ (8 - b) ∣ posterizePixel bits p ∧
        posterizePixel bits p ≤ p ∧ p < posterizePixel bits p + 2 ^ (8 - b)) := by
  constructor
  · intro h; unfold posterizePixel; rw [if_pos h]
  · intro h
    refine ⟨(max 1 bits).toNat, by omega, ?_⟩
    have e : posterizePixel bits p = p / 2 ^ (8 - (max 1 bits).toNat) * 2 ^ (8 - (max 1 bits).toNat) := by
      unfold posterizePixel; rw [if_neg (by omega)]
    rw [e]
    have h2 : 0 < 2 ^ (8 - (max 1 bits).toNat) := by positivity
    generalize 2 ^ (8 - (max 1 bits).toNat) = k at h2
    have := Nat.div_add_mod p k
    have := Nat.mod_lt p h2
    have hc : p / k * k = k * (p / k) := Nat.mul_comm _ _
    exact ⟨Nat.dvd_mul_left _ _, Nat.div_mul_le_self _ _, by omega⟩

/-- C75: solarising inverts exactly the values from the threshold on; adding leaves the bright half
alone and adds to the dark half, where values never reach the limit. All remain pixel values. -/
theorem C75_solarize (m u : ℚ) (p : Nat) (hp : p < 256) :
    (∃ t, level .solarize (clamp m) u = .int t ∧ solarizePixel t p < 256 ∧ ((p : Int) < t → solarizePixel t p = p) ∧
      (t ≤ p → solarizePixel t p + p = 255)) ∧
    ∃ n, level .solarizeAdd (clamp m) u = .int n ∧ solarizeAddPixel n p < 256 ∧ (128 ≤ p → solarizeAddPixel n p = p) ∧
      (p < 128 → (solarizeAddPixel n p : Int) = p + n) := by
  obtain ⟨t, ht, h1, h2⟩ := level_within .solarize m u
  obtain ⟨n, hn, h3, h4⟩ := level_within .solarizeAdd m u
  refine ⟨⟨t, ht, ?_, ?_, ?_⟩, n, hn, ?_, ?_, ?_⟩
  · unfold solarizePixel; split_ifs <;> omega
  · intro h; unfold solarizePixel; rw [if_pos h]
  · intro h; unfold solarizePixel; rw [if_neg (by omega)]; omega
  · unfold solarizeAddPixel; split_ifs <;> omega
  · intro h; unfold solarizeAddPixel; rw [if_neg (by omega)]
  · intro h; unfold solarizeAddPixel; rw [if_pos h]; omega

/-- C75: at the largest magnitude solarising and posterising leave every image as it is, and adding
does so at the smallest. -/
theorem C75_weakest (m u : ℚ) (p : Nat) (hp : p < 256) :
    (10 ≤ m → ∃ t b, level .solarize (clamp m) u = .int t ∧ level .posterize (clamp m) u = .int b ∧
      solarizePixel t p = p ∧ posterizePixel b p = p) ∧
    (m ≤ 0 → ∃ n, level .solarizeAdd (clamp m) u = .int n ∧ solarizeAddPixel n p = p) := by
  constructor
  · intro h
    have : clamp m = 10 := by unfold clamp; rw [max_eq_right (by linarith), min_eq_left h]
    rw [this]
    refine ⟨256, 8, congrArg Arg.int (show trunc (10 / 10 * 256) = 256 by decide +kernel),
      congrArg Arg.int (show trunc (10 / 10 * 4) + 4 = 8 by decide +kernel), ?_, ?_⟩
    · unfold solarizePixel; rw [if_pos (by omega)]
    · unfold posterizePixel; rw [if_pos (by omega)]
  · intro h
    have : clamp m = 0 := by unfold clamp; rw [max_eq_left h]; decide +kernel
    rw [this]
    refine ⟨0, congrArg Arg.int (show trunc (0 / 10 * 110) = 0 by decide +kernel), ?_⟩
    unfold solarizeAddPixel
    split_ifs <;> omega

/-! ### Images -/

/-- C75: an image gets exactly the operations of the chosen sub-policy for which the number drawn
does not exceed the probability, in order, and all images of the sample the same ones; other
entries of the sample stay. -/
theorem C75_augment (subs : List (List Aug)) (choice : Nat) (sub : List Aug) (hs : subs[choice]? = some sub) (calls : List Call)
    (r : Results) (hr : r.ok) : augment subs choice calls r = .ok (r.extend (effects sub calls)) := by
  unfold augment
  rw [hs]
  exact runAll_extend sub calls r hr

/-- C75: an operation of probability one is always made, and one of probability zero is not unless
the number drawn is exactly zero. Missing: a drawn number of exactly zero, see `C75_probability_violated`. -/
theorem C75_probability_partial (a : Aug) (c : Call) (r : Results) (hr : r.ok) (h1 : c.u < 1) :
    (1 ≤ a.prob → a.transform c r = .ok (r.extend fun k => [a.effect (c.pick k)])) ∧
      (a.prob = 0 → 0 < c.u → a.transform c r = .ok r) := by
  constructor
  · intro h
    rw [transform_extend a c r hr]
    simp [show ¬ a.prob < c.u by linarith]
  · intro h h0
    unfold Aug.transform
    rw [if_pos (by linarith)]

/-- C75, DISAGREEMENT: an operation of probability zero is made when the number drawn is exactly
zero, which `random.random()` can return. -/
theorem C75_probability_violated (a : Aug) (h : a.prob = 0) (c : Call) (hc : c.u = 0) (r : Results) (hr : r.ok) :
    a.transform c r = .ok (r.extend fun k => [a.effect (c.pick k)]) := by
  rw [transform_extend a c r hr]
  simp [h, hc]

/-- C75: a named image that does not exist is an error as soon as an operation is made. -/
theorem C75_missing (a : Aug) (c : Call) (r : Results) (h : ¬ a.prob < c.u) (k : String) (ks : List String)
    (hf : r.fields = some (k :: ks)) (hk : k ∉ r.images.map Prod.fst) : a.transform c r = .error .key := by
  unfold Aug.transform
  rw [if_neg h, hf]
  show (do let r ← r.add k (a.effect (c.pick k)); addAll (fun k => a.effect (c.pick k)) ks r) = _
  unfold Results.add
  rw [if_neg hk]
  rfl

/-- C75, DISAGREEMENT: magnitudes and signs are drawn when the transform is constructed and not for
every image: all images to which the operations of a sub-policy are applied are, say, rotated by the
same angle in the same direction, whatever is drawn at the calls. -/
theorem C75_once_violated (sub : List Aug) (calls : List Call) (hl : calls.length = sub.length)
    (hu : ∀ p ∈ sub.zip calls, ¬ p.1.prob < p.2.u) (k : String) :
    (effects sub calls k).map (fun e => (e.op, e.arg)) = sub.map fun a => (a.op, a.arg) := by
  induction sub generalizing calls with
  | nil => rfl
  | cons a sub ih =>
    cases calls with
    | nil => cases hl
    | cons c calls =>
      have := ih calls (by simpa using hl) fun p hp => hu p (by simp [hp])
      unfold effects at this ⊢
      rw [List.zip_cons_cons, List.filterMap_cons, if_neg (hu (a, c) (by simp))]
      simp only [List.map_cons, this]
      rfl

/-- C75: the geometric operations of the first version fill with the configured colour, grey by
default, and interpolate with one of the configured methods, by default all. -/
theorem C75_settings (name : String) (prob m : ℚ) (p : Params) (d : Draw) (a : Aug) (h : Aug.make name prob m p d = .ok a)
    (hne : p.interpolation ≠ some []) (i : Nat) :
    (a.effect i).geometry = none ∧ a.op.geometric = false ∨
      ∃ g, (a.effect i).geometry = some (p.imgMean.getD (128, 128, 128), g) ∧ a.op.geometric = true ∧
        g ∈ p.interpolation.getD [.nearest, .bilinear, .bicubic] := by
  unfold Aug.make at h
  cases ho : Op.ofName name with
  | error e => rw [ho] at h; cases h
  | ok op =>
    rw [ho] at h
    cases h
    unfold Aug.effect
    by_cases hg : op.geometric = true
    · refine .inr ⟨_, by simp only [hg, if_true]; rfl, hg, ?_⟩
      have hl : 0 < (p.interpolation.getD [.nearest, .bilinear, .bicubic]).length := by
        cases hp : p.interpolation with
        | none => decide
        | some l =>
          cases l with
          | nil => exact absurd hp hne
          | cons x l => simp
      generalize p.interpolation.getD [.nearest, .bilinear, .bicubic] = l at hl
      have := Nat.mod_lt i hl
      show (l[i % l.length]?).getD .nearest ∈ l
      rw [List.getElem?_eq_getElem this, Option.getD_some]
      exact List.getElem_mem _
    · have hg : op.geometric = false := by simpa using hg
      exact .inl ⟨by simp [hg], hg⟩

/-- C75, DISAGREEMENT: the operations of the second version ignore the configured colour and
interpolation: they fill with black and take the nearest pixel, whatever is configured. -/
theorem C75_settings_violated (name : String) (prob m : ℚ) (p : Params) (d : Draw) (a : Aug) (h : Aug.make name prob m p d = .ok a)
    (hg : a.op.geometric = true) (c : Call) (hu : ¬ prob < c.u) (r : Results) (hr : r.ok) :
    a.callV2 c r = .ok (r.extend fun _ => [⟨a.op, a.arg, some ((0, 0, 0), .nearest)⟩]) := by
  have hp := (C75_range name prob m p d a h).2.1
  unfold Aug.callV2
  rw [if_neg (hp ▸ hu), if_neg (by rintro ⟨h1, _⟩; rw [h1] at hg; cases hg)]
  simp only [hg, if_true]
  exact addAll_ok _ _ _ hr.1 hr.2

/-- C75: the operations of the second version do nothing when the drawn number exceeds the
probability, and posterising with 8 bits does nothing; otherwise every other operation is applied to
each image field, those that move no pixels without a colour or interpolation. -/
theorem C75_second_version (a : Aug) (c : Call) (r : Results) (hr : r.ok) :
    (a.prob < c.u → a.callV2 c r = .ok r) ∧
      (a.op = .posterize → a.arg = .int 8 → a.callV2 c r = .ok r) ∧
      (¬ a.prob < c.u → a.op.geometric = false → (a.op ≠ .posterize ∨ a.arg ≠ .int 8) →
        a.callV2 c r = .ok (r.extend fun _ => [⟨a.op, a.arg, none⟩])) := by
  unfold Aug.callV2
  refine ⟨fun h => if_pos h, fun h1 h2 => ?_, fun h1 h2 h3 => ?_⟩
  · by_cases h : a.prob < c.u
    · rw [if_pos h]
    · rw [if_neg h, if_pos ⟨h1, h2⟩]
  · rw [if_neg h1, if_neg (by rintro ⟨h4, h5⟩; rcases h3 with h3 | h3 <;> contradiction)]
    simp only [h2, Bool.false_eq_true, if_false]
    exact addAll_ok _ _ _ hr.1 hr.2

/-! ### Policies -/

/-- C75: in both policies every sub-policy has two operations, the probabilities are between 0 and 1
and the magnitudes between 0 and 10. -/
theorem C75_policy_table (name : String) (ps : Policy) (h : policy name = .ok ps) :
    ∀ sp ∈ ps, sp.length = 2 ∧ ∀ a ∈ sp, 0 ≤ a.2.1 ∧ a.2.1 ≤ 1 ∧ 0 ≤ a.2.2 ∧ a.2.2 ≤ 10 := by
  have h1 : ∀ sp ∈ original, sp.length = 2 ∧ ∀ a ∈ sp, 0 ≤ a.2.1 ∧ a.2.1 ≤ 1 ∧ 0 ≤ a.2.2 ∧ a.2.2 ≤ 10 := by decide +kernel
  have h2 : ∀ sp ∈ v0, sp.length = 2 ∧ ∀ a ∈ sp, 0 ≤ a.2.1 ∧ a.2.1 ≤ 1 ∧ 0 ≤ a.2.2 ∧ a.2.2 ≤ 10 := by decide +kernel
  unfold policy at h
  split at h
  · cases h; exact h1
  · cases h; exact h2
  · cases h

/-- C75: both policies can be constructed for all parameters and draws, with the operations,
probabilities and order of the table; every other name is an error. -/
theorem C75_policies (name : String) (p : Params) (draw : Nat → Nat → Draw) :
    if name = "original" ∨ name = "v0" then
      ∃ ps subs, policy name = .ok ps ∧ construct name p draw = .ok subs ∧
        subs.map (fun sub => sub.map fun a => (Except.ok a.op, a.prob)) = ps.map fun sp => sp.map fun a => (Op.ofName a.1, a.2.1)
    else construct name p draw = .error .key := by
  by_cases hn : name = "original" ∨ name = "v0"
  · rw [if_pos hn]
    obtain ⟨ps, hps⟩ : ∃ ps, policy name = .ok ps := by rcases hn with rfl | rfl <;> exact ⟨_, rfl⟩
    have hok := policy_ok name ps hps
    have inner : ∀ (sp : List (String × ℚ × ℚ)) (i : Nat), (∀ a ∈ sp, ∃ op, Op.ofName a.1 = .ok op) →
        ∃ sub, (sp.zipIdx.mapM fun (a : (String × ℚ × ℚ) × Nat) => Aug.make a.1.1 a.1.2.1 a.1.2.2 p (draw i a.2)) = .ok sub ∧
          sub.map (fun a => (Except.ok a.op, a.prob)) = sp.map fun a => (Op.ofName a.1, a.2.1) := by
      intro sp i h
      obtain ⟨sub, h1, h2⟩ := mapM_zip_ok (fun (a : (String × ℚ × ℚ) × Nat) => Aug.make a.1.1 a.1.2.1 a.1.2.2 p (draw i a.2)) sp.zipIdx
        (by
          intro x hx
          obtain ⟨op, ho⟩ := h x.1 (by
            have := List.mem_zipIdx_iff_getElem?.1 hx
            exact List.mem_of_getElem? this)
          unfold Aug.make
          rw [ho]
          exact ⟨_, rfl⟩)
      refine ⟨sub, h1, ?_⟩
      have h3 : sub.map (fun a => ((Except.ok a.op : Except Err Op), a.prob)) = sp.zipIdx.map fun a => (Op.ofName a.1.1, a.1.2.1) := by
        clear h1
        generalize sp.zipIdx = zs at h2
        induction h2 with
        | nil => rfl
        | cons hxy _ ih =>
          rw [List.map_cons, List.map_cons, ih]
          obtain ⟨a1, a2, _⟩ := C75_range _ _ _ _ _ _ hxy
          rw [a1, a2]
      rw [h3]
      have : (fun a : (String × ℚ × ℚ) × Nat => (Op.ofName a.1.1, a.1.2.1)) = (fun a : String × ℚ × ℚ => (Op.ofName a.1, a.2.1)) ∘ Prod.fst := rfl
      rw [this, ← List.map_map, List.zipIdx_map_fst]
    obtain ⟨subs, h1, h2⟩ := mapM_zip_ok (fun (sp : List (String × ℚ × ℚ) × Nat) =>
      sp.1.zipIdx.mapM fun (a : (String × ℚ × ℚ) × Nat) => Aug.make a.1.1 a.1.2.1 a.1.2.2 p (draw sp.2 a.2)) ps.zipIdx
      (by
        intro x hx
        have hm : x.1 ∈ ps := by
          have := List.mem_zipIdx_iff_getElem?.1 hx
          exact List.mem_of_getElem? this
        obtain ⟨sub, hs, _⟩ := inner x.1 x.2 (hok x.1 hm)
        exact ⟨sub, hs⟩)
    refine ⟨ps, subs, hps, ?_, ?_⟩
    · unfold construct
      rw [hps]
      exact h1
    · have h3 : subs.map (fun sub => sub.map fun a => ((Except.ok a.op : Except Err Op), a.prob)) =
          ps.zipIdx.map fun sp => sp.1.map fun a => (Op.ofName a.1, a.2.1) := by
        have hmem : ∀ x ∈ ps.zipIdx, x.1 ∈ ps := fun x hx => List.mem_of_getElem? (List.mem_zipIdx_iff_getElem?.1 hx)
        clear h1
        generalize ps.zipIdx = zs at h2 hmem
        induction h2 with
        | nil => rfl
        | cons hxy _ ih =>
          rw [List.map_cons, List.map_cons, ih fun x hx => hmem x (by simp [hx])]
          rename_i x y _ _ _
          obtain ⟨sub, hs, he⟩ := inner x.1 x.2 (hok x.1 (hmem x (by simp)))
          obtain rfl : sub = y := by
            have := hs.symm.trans hxy
            simpa using this
          rw [he]
      rw [h3]
      have : (fun sp : List (String × ℚ × ℚ) × Nat => sp.1.map fun a => (Op.ofName a.1, a.2.1)) =
        (fun sp : List (String × ℚ × ℚ) => sp.map fun a => (Op.ofName a.1, a.2.1)) ∘ Prod.fst := rfl
      rw [this, ← List.map_map, List.zipIdx_map_fst]
  · rw [if_neg hn]
    unfold construct
    have : policy name = .error .key := by
      unfold policy
      split
      · exact absurd (.inl rfl) hn
      · exact absurd (.inr rfl) hn
      · rfl
    rw [this]
    rfl

example : let r : Results := ⟨none, [("img", []), ("mask", [])]⟩
    augment [[⟨.rotate, 6/10, .real 20, (0, 0, 0), [.bicubic]⟩, ⟨.invert, 4/10, .none, (0, 0, 0), [.bicubic]⟩]] 0
      [⟨1/2, fun _ => 0⟩, ⟨1/2, fun _ => 0⟩] r =
    .ok ⟨none, [("img", [⟨.rotate, .real 20, some ((0, 0, 0), .bicubic)⟩]), ("mask", [])]⟩ := by decide +kernel

/-! ### Packing -/

/-- C75: samples are packed with their label, indices and meta information as long as no sample
before had an index; the first one with an index is complete. Missing: the samples after the first one with an index, see
`C75_pack_violated`. -/
theorem C75_pack_partial (ks : List String) (pre : List Sample) (hp : ∀ s ∈ pre, s.lookup "sample_idx" = none) (s : Sample) :
    packAll (.tuple ks) (pre ++ [s]) = (pre ++ [s]).map (Packed.of ks) := by
  induction pre with
  | nil =>
    show (pack (.tuple ks) s).1 :: packAll _ [] = _
    rw [pack_tuple]
    rfl
  | cons x pre ih =>
    show (pack (.tuple ks) x).1 :: packAll (pack (.tuple ks) x).2 (pre ++ [s]) = _
    rw [pack_tuple, hp x (by simp)]
    show _ :: packAll (.tuple ks) _ = _
    rw [ih fun y hy => hp y (by simp [hy])]
    rfl

/-- C75, DISAGREEMENT: after the first sample with an index the list of meta keys is used up, and
all later samples are packed without any meta information (path, shapes, scale, flips). -/
theorem C75_pack_violated (ks : List String) (pre : List Sample) (hp : ∀ s ∈ pre, s.lookup "sample_idx" = none) (s : Sample)
    (hs : (s.lookup "sample_idx").isSome) (post : List Sample) :
    packAll (.tuple ks) (pre ++ s :: post) =
      pre.map (Packed.of ks) ++ Packed.of ks s :: post.map fun s => { Packed.of ks s with info := [] } :=
  packAll_append ks pre s hs post hp

example : let s : Sample := [("gt_label", 3), ("sample_idx", 7), ("img_path", 5)]
    packAll (.tuple ["sample_idx", "img_path", "flip"]) [s, s] =
      [⟨some 3, some 7, none, [("img_path", 5)]⟩, ⟨some 3, some 7, none, []⟩] := by decide +kernel

example : level .rotate (clamp 12) (7 / 10) = .real (-30) ∧ level .posterize (clamp (23/10)) 0 = .int 4 ∧
    level .solarizeAdd (clamp 5) 0 = .int 55 ∧ posterizePixel 4 255 = 240 ∧ posterizePixel 0 200 = 128 := by decide +kernel

end Verif.Augment
