import Verif.Lemmas.Utils

namespace Verif.Utils
open Verif

/-! ## Property C94 -/

/-- The size of a drawing: that of `resize_shape` if it is given, else that of the
overlaid image, else that of the feature map; the number of channels is kept. -/
theorem C94_size (interp : Nat × Nat → Nat × Nat → Plane → Plane) (f : Feat) (overlay resize : Option (Nat × Nat)) (red : Option String)
    (k row col : Int) (d : Drawn) (h : modify interp true f overlay red k row col resize = .ok (some d)) :
    d.size = (resize.or overlay).getD (f.h, f.w) := by
  obtain ⟨g, hg, hd⟩ := modify_ok h
  rw [hd]
  unfold fit at hg
  cases resize with
  | some size => rw [scale_ok hg]; rfl
  | none =>
    cases overlay with
    | none => cases hg; rfl
    | some o =>
      obtain ⟨oh, ow⟩ := o
      dsimp only at hg
      by_cases hc : oh = f.h ∧ ow = f.w
      · rw [if_pos hc] at hg; cases hg; rw [hc.1, hc.2]; rfl
      · rw [if_neg hc] at hg
        generalize cropSize f.h f.w oh ow = q at hg
        cases q with
        | error e => simp at hg
        | ok c => rw [scale_ok hg]; rfl

/-- Cropping before scaling: the crop lies inside the feature map, keeps one of its
sides, and the other is the nearest to the proportions of the image. -/
theorem C94_crop (h w oh ow : Nat) (hw : w ≠ 0) (hoh : oh ≠ 0) (how : ow ≠ 0) :
    ∃ c, cropSize h w oh ow = .ok c ∧ c.1 ≤ h ∧ c.2 ≤ w ∧
    (c.2 = w ∧ 2 * (c.1 * ow) ≤ 2 * (w * oh) + ow ∧ 2 * (w * oh) ≤ 2 * (c.1 * ow) + ow ∨
     c.1 = h ∧ 2 * (c.2 * oh) ≤ 2 * (h * ow) + oh ∧ 2 * (h * ow) ≤ 2 * (c.2 * oh) + oh) := by
  unfold cropSize
  rw [if_neg (by omega)]
  by_cases h1 : oh * w < h * ow
  · rw [if_pos h1]
    refine ⟨_, rfl, round_le _ _ _ (by omega) ?_, le_refl _, Or.inl ⟨rfl, round_near _ _ (by omega)⟩⟩
    rw [Nat.mul_comm w oh]
    omega
  · rw [if_neg h1, if_neg hoh]
    refine ⟨_, rfl, le_refl _, round_le _ _ _ (by omega) ?_, Or.inr ⟨rfl, round_near _ _ (by omega)⟩⟩
    rw [Nat.mul_comm w oh]
    omega

example : cropSize 10 10 20 40 = .ok (5, 10) ∧ cropSize 10 12 30 20 = .ok (10, 7) := by decide

/-- An image of the proportions of the feature map uses all of it. -/
theorem C94_crop_whole (h w n : Nat) (hh : h ≠ 0) (hw : w ≠ 0) (hn : n ≠ 0) : cropSize h w (n * h) (n * w) = .ok (h, w) := by
  have e : h * (n * w) = w * (n * h) := by ring
  unfold cropSize
  rw [if_neg (by simp [hw, hn]), if_neg (by rw [e, Nat.mul_comm w]; omega), if_neg (by simp [hh, hn])]
  congr 2
  have hd : 0 < n * h := Nat.pos_of_ne_zero (by simp [hh, hn])
  unfold roundHalfEven
  dsimp only
  rw [e, Nat.mul_div_cancel _ hd, Nat.mul_mod_left, if_pos (by omega)]

/-- DISAGREEMENT: a feature map is cropped to nothing, and drawing it fails, when the
overlaid image is too elongated for it: at least twice as wide as `w` rows of the
proportions of the image would allow. -/
theorem C94_crop_fails (interp : Nat × Nat → Nat × Nat → Plane → Plane) (f : Feat) (hh : f.h ≠ 0) (hw : f.w ≠ 0) (oh ow : Nat)
    (hoh : oh ≠ 0) (h : 2 * (f.w * oh) ≤ ow) (red : Option String) (k row col : Int) :
    modify interp true f (some (oh, ow)) red k row col none = .error .runtime := by
  have how : 0 < ow := by
    have : 0 < f.w * oh := Nat.mul_pos (by omega) (by omega)
    omega
  have hlt : oh * f.w < f.h * ow := by
    have h1 : 0 < f.w * oh := Nat.mul_pos (by omega) (by omega)
    have h2 : ow ≤ f.h * ow := Nat.le_mul_of_pos_left _ (by omega)
    rw [Nat.mul_comm oh]
    omega
  have hne : ¬ (oh = f.h ∧ ow = f.w) := by
    rintro ⟨_, h2⟩
    have h3 : f.w ≤ f.w * oh := Nat.le_mul_of_pos_right _ (by omega)
    omega
  have hc : cropSize f.h f.w oh ow = .ok (0, f.w) := by
    unfold cropSize
    rw [if_neg (by omega), if_pos hlt, round_zero _ _ how h]
  have hfit : fit interp f (some (oh, ow)) none = .error .runtime := by
    unfold fit
    dsimp only
    rw [if_neg hne, hc]
    dsimp only
    unfold scale
    rw [if_pos (by simp)]
  unfold modify
  rw [if_neg (by simp), hfit]

example : 2 * (7 * 100) ≤ 1400 := by decide

/-- The reduction `pixel_wise_max`: each pixel of the one plane drawn is the largest of
the channels. -/
theorem C94_max (interp : Nat × Nat → Nat × Nat → Plane → Plane) (f : Feat) (hf : f.chans ≠ []) (k row col : Int) :
    ∃ p, modify interp true f none (some "pixel_wise_max") k row col none = .ok (some (.heat f.h f.w [p])) ∧
    ∀ i j, (∀ c ∈ f.chans, c i j ≤ p i j) ∧ ∃ c ∈ f.chans, p i j = c i j := by
  obtain ⟨h, w, chans⟩ := f
  cases chans with
  | nil => exact absurd rfl hf
  | cons c cs =>
    refine ⟨pixelMax c cs, ?_, fun i j => ?_⟩
    · unfold modify
      rw [if_neg (by simp)]
      dsimp only [fit]
      unfold reduce
      rw [if_neg (by decide), if_neg (by decide), if_pos rfl]
    · have e : pixelMax c cs i j = (cs.map fun p => p i j).foldl max (c i j) := by
        unfold pixelMax
        rw [List.foldl_map]
      obtain ⟨h1, h2, h3⟩ := foldl_max (c i j) (cs.map fun p => p i j)
      rw [e]
      dsimp only
      refine ⟨fun d hd => ?_, ?_⟩
      · rcases List.mem_cons.1 hd with h4 | h4
        · subst h4; exact h1
        · exact h2 _ (List.mem_map.2 ⟨d, h4, rfl⟩)
      · rcases h3 with h4 | h4
        · exact ⟨c, by simp, h4⟩
        · obtain ⟨d, hd, he⟩ := List.mem_map.1 h4
          exact ⟨d, List.mem_cons_of_mem _ hd, he.symm⟩

/-- The reduction `squeeze_mean`: each pixel times the number of channels is the sum of
the channels. -/
theorem C94_mean (interp : Nat × Nat → Nat × Nat → Plane → Plane) (f : Feat) (hf : f.chans ≠ []) (k row col : Int) :
    ∃ p, modify interp true f none (some "squeeze_mean") k row col none = .ok (some (.heat f.h f.w [p])) ∧
    ∀ i j, p i j * f.chans.length = (f.chans.map fun c => c i j).sum := by
  refine ⟨pixelMean f.chans, ?_, fun i j => ?_⟩
  · unfold modify
    rw [if_neg (by simp)]
    dsimp only [fit]
    unfold reduce
    rw [if_neg (by decide), if_pos rfl]
  · unfold pixelMean
    have : (f.chans.length : ℚ) ≠ 0 := by
      simpa using hf
    field_simp

/-- The reduction `select_max`: the channel with the largest sum. -/
theorem C94_select (interp : Nat × Nat → Nat × Nat → Plane → Plane) (f : Feat) (hf : f.chans ≠ []) (k row col : Int) :
    ∃ p ∈ f.chans, modify interp true f none (some "select_max") k row col none = .ok (some (.heat f.h f.w [p])) ∧
    ∀ q ∈ f.chans, strength f.h f.w q ≤ strength f.h f.w p := by
  have hl : 1 ≤ f.chans.length := List.length_pos_iff.2 hf
  have key := topk_largest f 1 hl
  have hlen := key.count
  rw [List.length_map] at hlen
  obtain ⟨i, hi⟩ := List.length_eq_one_iff.1 hlen
  rw [hi] at key
  have hch := key.channel (i, f.chans.getD i fun _ _ => 0) (by simp)
  refine ⟨f.chans.getD i fun _ _ => 0, List.mem_of_getElem? hch, ?_, fun q hq => ?_⟩
  · unfold modify
    rw [if_neg (by simp)]
    dsimp only [fit]
    unfold reduce
    rw [if_pos rfl, hi]
  · obtain ⟨j, hj⟩ := List.mem_iff_getElem?.1 hq
    by_cases e : j = i
    · subst e
      dsimp only at hch
      rw [hj, Option.some.injEq] at hch
      rw [← hch]
    · exact key.largest (i, f.chans.getD i fun _ _ => 0) (by simp) j q hj (by simpa using e)

/-- Without a reduction: the channels with the largest sums, `topk` of them or all if
there are fewer, largest first, each with its number, in the grid that was asked for. Missing: grids that are compared with a
larger `topk`, see `C94_arrangement_violated`. -/
theorem C94_grid_partial (interp : Nat × Nat → Nat × Nat → Plane → Plane) (f : Feat) (k row col : Int) (hk : 0 < k) (hrc : k ≤ row * col) :
    ∃ panels, modify interp true f none none k row col none = .ok (some (.grid row col f.h f.w panels)) ∧
    Largest f (min f.chans.length k.toNat) panels := by
  refine ⟨_, ?_, topk_largest f _ (Nat.min_le_left _ _)⟩
  unfold modify
  rw [if_neg (by simp)]
  dsimp only [fit]
  rw [if_neg (by omega), if_neg (by omega)]

example : topk ⟨1, 1, [fun _ _ => 1, fun _ _ => 5, fun _ _ => 3]⟩ 2 = [1, 2] := by decide +kernel

/-- DISAGREEMENT: the grid is compared with `topk` before `topk` is limited to the number
of channels, so a grid with room for every channel is refused. -/
theorem C94_arrangement_violated (interp : Nat × Nat → Nat × Nat → Plane → Plane) (f : Feat) (k row col : Int) (hk : 0 < k)
    (h : row * col < k) : modify interp true f none none k row col none = .error .assertion ∧
    ∃ f : Feat, ∃ k row col : Int, 0 < k ∧ row * col < k ∧ (min f.chans.length k.toNat : Int) ≤ row * col := by
  constructor
  · unfold modify
    rw [if_neg (by simp)]
    dsimp only [fit]
    rw [if_neg (by omega), if_pos h]
  · exact ⟨⟨1, 1, [fun _ _ => 1, fun _ _ => 2, fun _ _ => 3]⟩, 20, 1, 3, by decide, by decide, by decide⟩

/-- With `topk` at most zero only feature maps of one or three channels are drawn, as
they are. -/
theorem C94_raw (interp : Nat × Nat → Nat × Nat → Plane → Plane) (f : Feat) (k row col : Int) (hk : k ≤ 0) (d : Drawn) :
    modify interp true f none none k row col none = .ok (some d) ↔
      (f.chans.length = 1 ∨ f.chans.length = 3) ∧ d = .heat f.h f.w f.chans := by
  unfold modify
  rw [if_neg (by simp)]
  dsimp only [fit]
  rw [if_pos hk]
  by_cases h : f.chans.length = 1 ∨ f.chans.length = 3
  · rw [if_pos h]
    simp only [Except.ok.injEq, Option.some.injEq]
    exact ⟨fun e => ⟨h, e.symm⟩, fun e => e.2.symm⟩
  · rw [if_neg h]
    simp [h]

/-- Any other reduction is refused, and only the main process draws. -/
theorem C94_refused (interp : Nat × Nat → Nat × Nat → Plane → Plane) (f : Feat) (mode : String) (k row col : Int)
    (h : mode ∉ ["squeeze_mean", "select_max", "pixel_wise_max"]) (overlay resize : Option (Nat × Nat)) (red : Option String) :
    modify interp true f none (some mode) k row col none = .error .assertion ∧
    modify interp false f overlay red k row col resize = .ok none := by
  simp only [List.mem_cons, List.not_mem_nil, or_false, not_or] at h
  constructor
  · unfold modify
    rw [if_neg (by simp)]
    dsimp only [fit]
    unfold reduce
    rw [if_neg h.2.1, if_neg h.1, if_neg h.2.2]
  · rfl

/-- With epochs of equal length the number of the iteration within its epoch. -/
theorem C94_iteration (info : List (String × Int)) (per epochs e i : Nat) (hi : i < per) (he : e < epochs)
    (h1 : info.lookup "max_iters" = some ((epochs * per : Nat) : Int)) (h2 : info.lookup "max_epochs" = some (epochs : Int))
    (h3 : info.lookup "iter" = some ((e * per + i : Nat) : Int)) : iterPerEpoch info = .ok per ∧ iterByEpoch info = .ok i := by
  have hp : iterPerEpoch info = .ok per := by
    unfold iterPerEpoch getInfo
    rw [h1, h2]
    dsimp only
    rw [if_neg (by omega)]
    congr 1
    have hx : (-((epochs * per : Nat) : Int)) = (epochs : Int) * (-(per : Int)) := by push_cast; ring
    rw [hx, Int.mul_fdiv_cancel_left _ (by omega)]
    omega
  refine ⟨hp, ?_⟩
  unfold iterByEpoch
  rw [hp]
  dsimp only
  unfold getInfo
  rw [h3]
  dsimp only
  rw [if_neg (by omega)]
  congr 1
  rw [Int.fmod_eq_emod_of_nonneg _ (by omega)]
  push_cast
  rw [Int.mul_comm, Int.add_comm, Int.add_mul_emod_self_left]
  exact Int.emod_eq_of_lt (by omega) (by omega)

example : iterByEpoch [("iter", 23), ("max_iters", 40), ("max_epochs", 4)] = .ok 3 := by decide +kernel

/-- Missing information is a key error, and no epochs or no iterations a division by
zero. -/
theorem C94_missing_fails (info : List (String × Int)) :
    (∀ key, info.lookup key = none → getInfo info key = .error .key) ∧
    (info.lookup "max_iters" = none → iterByEpoch info = .error .key) ∧
    (∀ a, info.lookup "max_iters" = some a → info.lookup "max_epochs" = some 0 → iterByEpoch info = .error .zeroDivision) ∧
    (∀ b i, info.lookup "max_iters" = some 0 → info.lookup "max_epochs" = some b → info.lookup "iter" = some i →
      iterByEpoch info = .error .zeroDivision) := by
  refine ⟨?_, ?_, ?_, ?_⟩
  · intro key h
    unfold getInfo
    rw [h]
  · intro h
    unfold iterByEpoch iterPerEpoch getInfo
    rw [h]
  · intro a h1 h2
    unfold iterByEpoch iterPerEpoch getInfo
    rw [h1]
    dsimp only
    rw [h2]
    rfl
  · intro b i h1 h2 h3
    unfold iterByEpoch iterPerEpoch getInfo
    rw [h1, h2, h3]
    dsimp only
    by_cases hb : b = 0
    · rw [if_pos hb]
    · rw [if_neg hb]
      simp

/-- Setting up a process, when it succeeds: the threads of opencv are those of the
configuration (0 by default), a thread variable that was set keeps its value, one that
was not is set to 1 exactly with more than one worker, and no other variable changes. -/
theorem C94_setup (cfg : MpCfg) (e e' : Env) (h : setup cfg e = .ok e') :
    e'.cv = cfg.cv.getD 0 ∧ (∀ n, n ≠ "OMP_NUM_THREADS" → n ≠ "MKL_NUM_THREADS" → e'.vars.lookup n = e.vars.lookup n) ∧
    ∀ n ∈ ["OMP_NUM_THREADS", "MKL_NUM_THREADS"], (∀ v, e.vars.lookup n = some v → e'.vars.lookup n = some v) ∧
      (e.vars.lookup n = none → ((∃ k, cfg.workers = some k ∧ 1 < k) → e'.vars.lookup n = some "1") ∧
        (¬ (∃ k, cfg.workers = some k ∧ 1 < k) → e'.vars.lookup n = none)) := by
  unfold setup at h
  generalize hq : setThreads cfg "OMP_NUM_THREADS" { e with cv := cfg.cv.getD 0 } = q at h
  cases q with
  | error x => simp at h
  | ok a =>
    dsimp only at h
    obtain ⟨c1, o1, s1⟩ := setThreads_ok hq
    obtain ⟨c2, o2, s2⟩ := setThreads_ok h
    have hO : e'.vars.lookup "OMP_NUM_THREADS" = (e.vars.lookup "OMP_NUM_THREADS").or
        (if (∃ n, cfg.workers = some n ∧ 1 < n) then some "1" else none) := by
      rw [o2 _ (by decide), s1]
    have hM : e'.vars.lookup "MKL_NUM_THREADS" = (e.vars.lookup "MKL_NUM_THREADS").or
        (if (∃ n, cfg.workers = some n ∧ 1 < n) then some "1" else none) := by
      rw [s2, o1 _ (by decide)]
    refine ⟨by rw [c2, c1], fun n h1 h2 => by rw [o2 n h2, o1 n h1], ?_⟩
    intro n hn
    have hN : e'.vars.lookup n = (e.vars.lookup n).or
        (if (∃ n, cfg.workers = some n ∧ 1 < n) then some "1" else none) := by
      simp only [List.mem_cons, List.not_mem_nil, or_false] at hn
      rcases hn with h3 | h3
      · rw [h3]; exact hO
      · rw [h3]; exact hM
    rw [hN]
    refine ⟨fun v hv => by rw [hv]; rfl, fun hv => ?_⟩
    rw [hv]
    exact ⟨fun h3 => by rw [if_pos h3]; rfl, fun h3 => by rw [if_neg h3]; rfl⟩

example : setup ⟨none, some 4⟩ ⟨[("OMP_NUM_THREADS", "8")], 3⟩ =
    .ok ⟨[("MKL_NUM_THREADS", "1"), ("OMP_NUM_THREADS", "8")], 0⟩ := by decide +kernel

/-- DISAGREEMENT: configurations of mmengine have no section `data`: setting up a process
with one fails unless both thread variables are already set. -/
theorem C94_setup_fails (cv : Option Int) (e : Env)
    (h : e.vars.lookup "OMP_NUM_THREADS" = none ∨ e.vars.lookup "MKL_NUM_THREADS" = none) :
    setup ⟨cv, none⟩ e = .error .attribute := by
  unfold setup setThreads
  by_cases h1 : (e.vars.lookup "OMP_NUM_THREADS").isSome = true
  · rw [if_pos h1]
    dsimp only
    rcases h with h2 | h2
    · rw [h2] at h1; cases h1
    · rw [h2, if_neg (by simp)]
  · rw [if_neg h1]

/-- Registering all modules makes the scope of the library the current one, whatever
scopes were created before, as long as the time has not been used for a name. Missing: a time that has been used for a name. -/
theorem C94_scope_partial (s : Scopes) (ops : List ScopeOp) (now : String) (hn : "mmrazor-" ++ now ∉ (scopesAfter s ops).map (·.1)) :
    current (scopesAfter s (ops ++ [.register true now])) = some "mmrazor" ∧
    scopesAfter s ops <+: scopesAfter s (ops ++ [.register true now]) := by
  have happ : ∀ (ops : List ScopeOp) (s : Scopes), scopesAfter s (ops ++ [.register true now]) = registerAll true now (scopesAfter s ops) := by
    intro ops
    induction ops with
    | nil => intro s; rfl
    | cons o os ih =>
      intro s
      cases o with
      | get n c => exact ih _
      | register b t => exact ih _
  rw [happ]
  generalize scopesAfter s ops = t at hn ⊢
  unfold registerAll
  rw [if_neg (by simp)]
  by_cases h1 : t = [] ∨ "mmrazor" ∉ t.map (·.1)
  · rw [if_pos h1]
    unfold getInstance
    rw [if_neg (by
      rcases h1 with h2 | h2
      · rw [h2]; simp
      · exact h2)]
    exact ⟨by simp [current], List.prefix_append _ _⟩
  · rw [if_neg h1]
    by_cases h2 : current t ≠ some "mmrazor"
    · rw [if_pos h2]
      unfold getInstance
      rw [if_neg hn]
      exact ⟨by simp [current], List.prefix_append _ _⟩
    · rw [if_neg h2]
      exact ⟨not_not.1 h2, List.prefix_refl _⟩

example : scopesAfter [] [.register true "12:00", .get "mmdet" "mmdet", .register true "12:01"] =
    [("mmrazor", "mmrazor"), ("mmdet", "mmdet"), ("mmrazor-12:01", "mmrazor")] := by decide +kernel

/-- Registering twice in a row is registering once, and without `init_default_scope` the
scopes stay as they are. -/
theorem C94_scope_again (s : Scopes) (a b : String) (hn : "mmrazor-" ++ a ∉ s.map (·.1)) (h : "mmrazor" ∈ s.map (·.1)) :
    registerAll true b (registerAll true a s) = registerAll true a s ∧ registerAll false a s = s := by
  refine ⟨?_, rfl⟩
  have h1 := (C94_scope_partial s [] a hn).1
  have h2 := (C94_scope_partial s [] a hn).2
  have e : scopesAfter s ([] ++ [.register true a]) = registerAll true a s := rfl
  rw [e] at h1 h2
  have h3 : "mmrazor" ∈ (registerAll true a s).map (·.1) := by
    obtain ⟨x, hx, hy⟩ := List.mem_map.1 h
    exact List.mem_map.2 ⟨x, h2.subset hx, hy⟩
  generalize registerAll true a s = t at *
  unfold registerAll
  rw [if_neg (by simp), if_neg (by
    rintro (h4 | h4)
    · rw [h4] at h3; simp at h3
    · exact h4 h3), if_neg (by rw [h1]; simp)]

/-- The number of a level: a number is itself, a name that of the level with that name in
upper case, and anything else is refused. -/
theorem C94_levels (upper : String → String) (l : Level) (n : Int) : getLevel upper l = .ok n ↔
    l = .number n ∨ ∃ s, l = .name s ∧ (upper s, n) ∈ [("CRITICAL", (50 : Int)), ("FATAL", 50), ("ERROR", 40), ("WARN", 30),
      ("WARNING", 30), ("INFO", 20), ("DEBUG", 10), ("NOTSET", 0)] := by
  cases l with
  | number k => simp [getLevel]
  | other => simp [getLevel]
  | name s =>
    have hl : ∀ u : String, levels.lookup u = some n ↔ (u, n) ∈ levels := by
      intro u
      unfold levels
      simp only [List.lookup_cons, List.lookup_nil, List.mem_cons, Prod.mk.injEq, List.not_mem_nil, or_false]
      by_cases h1 : u = "CRITICAL"
      · subst h1; simp [eq_comm]
      by_cases h2 : u = "FATAL"
      · subst h2; simp [eq_comm]
      by_cases h3 : u = "ERROR"
      · subst h3; simp [eq_comm]
      by_cases h4 : u = "WARN"
      · subst h4; simp [eq_comm]
      by_cases h5 : u = "WARNING"
      · subst h5; simp [eq_comm]
      by_cases h6 : u = "INFO"
      · subst h6; simp [eq_comm]
      by_cases h7 : u = "DEBUG"
      · subst h7; simp [eq_comm]
      by_cases h8 : u = "NOTSET"
      · subst h8; simp [eq_comm]
      simp [h1, h2, h3, h4, h5, h6, h7, h8, beq_eq_false_iff_ne.2 h1, beq_eq_false_iff_ne.2 h2, beq_eq_false_iff_ne.2 h3,
        beq_eq_false_iff_ne.2 h4, beq_eq_false_iff_ne.2 h5, beq_eq_false_iff_ne.2 h6, beq_eq_false_iff_ne.2 h7, beq_eq_false_iff_ne.2 h8]
    have hg : getLevel upper (.name s) = .ok n ↔ levels.lookup (upper s) = some n := by
      unfold getLevel
      dsimp only
      generalize levels.lookup (upper s) = q
      cases q with
      | none => simp
      | some m => simp
    rw [hg, hl]
    constructor
    · exact fun h => Or.inr ⟨s, rfl, h⟩
    · rintro (h | ⟨t, h, h2⟩)
      · cases h
      · cases h; exact h2

/-- A message is printed with its level by every process, or only by the first. Missing: levels that do not exist, see
`C94_level_violated`. -/
theorem C94_log_partial (upper : String → String) (only0 : Bool) (rank : Option Nat) (l : Level) (n : Int) (hl : getLevel upper l = .ok n) :
    printLog upper only0 rank l = .ok (if only0 = true ∧ ∃ r, rank = some r ∧ r ≠ 0 then none else some n) := by
  unfold printLog
  rw [hl]
  cases only0
  · simp
  · cases rank with
    | none => simp
    | some r =>
      by_cases h : r = 0
      · simp [h]
      · simp [h]

example : getLevel (fun _ => "INFO") (.name "info") = .ok 20 := by decide +kernel

/-- DISAGREEMENT: a level that does not exist is only noticed by the process that prints:
the first one stops with an error while the others go on. -/
theorem C94_level_violated (upper : String → String) (s : String) (h : ∀ n, (upper s, n) ∉ levels) (r : Nat) (hr : r ≠ 0) :
    printLog upper true (some 0) (.name s) = .error .assertion ∧ printLog upper true (some r) (.name s) = .ok none := by
  have hl : levels.lookup (upper s) = none := by
    rw [List.lookup_eq_none_iff]
    intro p hp
    rw [bne_iff_ne]
    intro e
    exact h p.2 (e ▸ hp)
  constructor
  · have hg : getLevel upper (.name s) = .error .assertion := by
      unfold getLevel
      dsimp only
      rw [hl]
    unfold printLog
    rw [hg]
    rfl
  · unfold printLog
    rw [if_pos (by simp), if_neg (by simpa using hr)]

/-- DISAGREEMENT: `set_log_level` changes the logger and the first handler only: a log
file keeps its level, so after asking for more output the file still misses the messages
below its own level. -/
theorem C94_file_level_violated (upper : String → String) (l : Level) (n : Int) (hl : getLevel upper l = .ok n) (g : Logger)
    (a : Int) (hs : List Int) (hg : g.handlers = a :: hs) :
    ∃ g', setLogLevel upper l g = .ok g' ∧ (∀ m, g'.writes 0 m = decide (n ≤ m)) ∧
    ∀ i h m, hs[i]? = some h → m < h → g'.writes (i + 1) m = false := by
  refine ⟨⟨n, n :: hs⟩, by unfold setLogLevel; rw [hl]; dsimp only; rw [hg], ?_, ?_⟩
  · intro m
    simp [Logger.writes]
  · intro i h m hi hm
    unfold Logger.writes
    simp only [List.getElem?_cons_succ, hi]
    rw [Bool.and_eq_false_iff]
    right
    simpa using hm

example : (⟨10, [10, 20]⟩ : Logger).writes 1 15 = false ∧ (⟨10, [10, 20]⟩ : Logger).writes 0 15 = true := by decide

/-- Levels that are neither names nor numbers are not implemented; unknown names are an assertion; nothing else fails, except that a
logger without any handler has no first one. -/
theorem C94_levels_refused (upper : String → String) (l : Level) (g : Logger) (e : Err) :
    setLogLevel upper l g = .error e ↔
      (l = .other ∧ e = .notImplemented) ∨ (∃ s, l = .name s ∧ levels.lookup (upper s) = none ∧ e = .assertion) ∨
      (l ≠ .other ∧ (∀ s, l = .name s → levels.lookup (upper s) ≠ none) ∧ g.handlers = [] ∧ e = .index) := by
  unfold setLogLevel getLevel
  cases l with
  | other => simp [eq_comm (a := e)]
  | number n => cases h : g.handlers <;> simp [eq_comm (a := e)]
  | name s =>
    simp only [Level.name.injEq, exists_eq_left', forall_eq', reduceCtorEq, false_and, false_or, ne_eq, not_false_eq_true, true_and]
    generalize levels.lookup (upper s) = q
    cases q with
    | none => simp [eq_comm (a := e)]
    | some n => cases h2 : g.handlers <;> simp [eq_comm (a := e)]

example : setLogLevel id .other ⟨20, [20]⟩ = .error .notImplemented ∧ setLogLevel id (.number 10) ⟨20, []⟩ = .error .index :=
  ⟨by rfl, by rfl⟩

end Verif.Utils
