import Verif.Spec.Augment

/-! Helper lemmas for `Verif/Props/Augment.lean`. -/

namespace Verif.Augment
open Verif

theorem clamp_mem (m : ℚ) : 0 ≤ clamp m ∧ clamp m ≤ 10 := by
  unfold clamp
  exact ⟨le_min (by norm_num) (le_max_left _ _), min_le_left _ _⟩

theorem clamp_mono {m m' : ℚ} (h : m ≤ m') : clamp m ≤ clamp m' := by
  unfold clamp
  exact min_le_min_left _ (max_le_max_left _ h)

theorem negate_range {u v b : ℚ} (h0 : 0 ≤ v) (hb : v ≤ b) : -b ≤ negate u v ∧ negate u v ≤ b := by
  unfold negate
  split_ifs <;> constructor <;> linarith

theorem negate_abs (u v : ℚ) : |negate u v| = |v| := by
  unfold negate
  split_ifs
  · exact abs_neg v
  · rfl

theorem trunc_range {x : ℚ} {b : Int} (h0 : 0 ≤ x) (hb : x ≤ b) : 0 ≤ trunc x ∧ trunc x ≤ b := by
  unfold trunc
  refine ⟨Int.floor_nonneg.2 h0, ?_⟩
  have : (⌊x⌋ : ℚ) ≤ b := (Int.floor_le x).trans hb
  exact_mod_cast this

theorem level_within (op : Op) (m u : ℚ) : (level op (clamp m) u).within op := by
  obtain ⟨h0, h1⟩ := clamp_mem m
  generalize clamp m = c at h0 h1
  cases op
  case autoContrast | equalize | invert => rfl
  case posterize =>
    obtain ⟨a, b⟩ := trunc_range (x := c / 10 * 4) (b := 4) (by positivity) (by push_cast; linarith)
    exact ⟨_, rfl, by omega, by omega⟩
  case posterize2 =>
    obtain ⟨a, b⟩ := trunc_range (x := c / 10 * 4) (b := 4) (by positivity) (by push_cast; linarith)
    exact ⟨_, rfl, by omega, by omega⟩
  case solarize =>
    obtain ⟨a, b⟩ := trunc_range (x := c / 10 * 256) (b := 256) (by positivity) (by push_cast; linarith)
    exact ⟨_, rfl, by omega, by omega⟩
  case solarizeAdd =>
    obtain ⟨a, b⟩ := trunc_range (x := c / 10 * 110) (b := 110) (by positivity) (by push_cast; linarith)
    exact ⟨_, rfl, by omega, by omega⟩
  case color | contrast | brightness | sharpness => exact ⟨_, rfl, by linarith, by linarith⟩
  all_goals exact ⟨_, rfl, negate_range (by positivity) (by linarith)⟩

theorem add_images (r : Results) (k : String) (e : Effect) (hk : k ∈ r.images.map Prod.fst) :
    r.add k e = .ok { r with images := r.images.map fun x => if x.1 = k then (x.1, x.2 ++ [e]) else x } := by
  unfold Results.add
  rw [if_pos hk]

theorem map_fst_if (l : List (String × List Effect)) (c : String → Prop) [DecidablePred c] (f : String × List Effect → List Effect) :
    (l.map fun x => if c x.1 then (x.1, f x) else x).map Prod.fst = l.map Prod.fst := by
  rw [List.map_map]
  refine List.map_congr_left fun x _ => ?_
  by_cases h : c x.1 <;> simp [h]

theorem addAll_ok (f : String → Effect) : ∀ (keys : List String) (r : Results), keys.Nodup → (∀ k ∈ keys, k ∈ r.images.map Prod.fst) →
    addAll f keys r = .ok { r with images := r.images.map fun x => if x.1 ∈ keys then (x.1, x.2 ++ [f x.1]) else x }
  | [], r, _, _ => by
    show Except.ok r = _
    simp
  | k :: keys, r, hn, hk => by
    obtain ⟨hn1, hn2⟩ := List.nodup_cons.1 hn
    show (do let r ← r.add k (f k); addAll f keys r) = _
    rw [add_images r k _ (hk k (by simp))]
    show addAll f keys _ = _
    rw [addAll_ok f keys _ hn2 (fun k' hk' => by rw [map_fst_if r.images (· = k) fun x => x.2 ++ [f k]]; exact hk k' (by simp [hk']))]
    congr 2
    rw [List.map_map]
    refine List.map_congr_left fun x _ => ?_
    show (if (if x.1 = k then _ else x).1 ∈ keys then _ else _) = _
    by_cases h : x.1 = k
    · have : x.1 ∉ keys := h ▸ hn1
      simp [h, hn1]
    · simp [h]

theorem transform_extend (a : Aug) (c : Call) (r : Results) (hr : r.ok) :
    a.transform c r = .ok (r.extend fun k => if a.prob < c.u then [] else [a.effect (c.pick k)]) := by
  unfold Aug.transform
  by_cases h : a.prob < c.u
  · rw [if_pos h]
    simp [h, Results.extend]
  · rw [if_neg h]
    simp only [if_neg h]
    exact addAll_ok _ _ _ hr.1 hr.2

theorem extend_ok (r : Results) (f : String → List Effect) (hr : r.ok) : (r.extend f).ok ∧ (r.extend f).keys = r.keys := by
  refine ⟨⟨hr.1, fun k hk => ?_⟩, rfl⟩
  have : (r.extend f).images.map Prod.fst = r.images.map Prod.fst := map_fst_if r.images (· ∈ r.keys) fun x => x.2 ++ f x.1
  rw [this]
  exact hr.2 k hk

theorem extend_extend (r : Results) (f g : String → List Effect) :
    (r.extend f).extend g = r.extend fun k => f k ++ g k := by
  unfold Results.extend Results.keys
  congr 1
  rw [List.map_map]
  refine List.map_congr_left fun x _ => ?_
  by_cases h : x.1 ∈ r.fields.getD ["img"]
  · simp [h]
  · simp [h]

theorem runAll_extend : ∀ (sub : List Aug) (calls : List Call) (r : Results), r.ok → runAll sub calls r = .ok (r.extend (effects sub calls))
  | a :: as, c :: cs, r, hr => by
    unfold runAll
    rw [transform_extend a c r hr]
    show runAll as cs _ = _
    rw [runAll_extend as cs _ (extend_ok r _ hr).1, extend_extend]
    congr 2
    funext k
    unfold effects
    rw [List.zip_cons_cons, List.filterMap_cons]
    by_cases h : a.prob < c.u <;> simp [h]
  | [], _, r, _ => by
    unfold runAll effects Results.extend
    simp
  | _ :: _, [], r, _ => by
    unfold runAll effects Results.extend
    simp

theorem mapM_zip_ok {α β : Type} (f : α × Nat → Except Err β) : ∀ (l : List (α × Nat)), (∀ x ∈ l, ∃ y, f x = .ok y) →
    ∃ ys, l.mapM f = .ok ys ∧ List.Forall₂ (fun x y => f x = .ok y) l ys
  | [], _ => ⟨[], rfl, .nil⟩
  | x :: l, h => by
    obtain ⟨y, hy⟩ := h x (by simp)
    obtain ⟨ys, h1, h2⟩ := mapM_zip_ok f l fun z hz => h z (by simp [hz])
    refine ⟨y :: ys, ?_, .cons hy h2⟩
    rw [List.mapM_cons, hy, h1]
    rfl

theorem policy_ok (name : String) (ps : Policy) (h : policy name = .ok ps) :
    ∀ sp ∈ ps, ∀ a ∈ sp, ∃ op, Op.ofName a.1 = .ok op := by
  have : ps = original ∨ ps = v0 := by
    unfold policy at h
    split at h
    · exact .inl (by cases h; rfl)
    · exact .inr (by cases h; rfl)
    · cases h
  have key : ∀ ps ∈ [original, v0], ∀ sp ∈ ps, ∀ a ∈ sp, (match Op.ofName a.1 with | .ok _ => true | .error _ => false) = true := by
    decide +kernel
  intro sp hsp a ha
  have := key ps (by rcases this with h | h <;> simp [h]) sp hsp a ha
  cases ho : Op.ofName a.1 with
  | ok op => exact ⟨op, rfl⟩
  | error e => rw [ho] at this; cases this

theorem packAll_used (ss : List Sample) : packAll .used ss = ss.map fun s => { Packed.of [] s with info := [] } := by
  induction ss with
  | nil => rfl
  | cons s ss ih =>
    unfold packAll
    rw [List.map_cons]
    cases h : s.lookup "sample_idx" with
    | none =>
      have : pack .used s = ({ Packed.of [] s with info := [] }, .used) := by
        unfold pack Packed.of
        rw [h]
        rfl
      rw [this, ih]
    | some i =>
      have : pack .used s = ({ Packed.of [] s with info := [] }, .used) := by
        unfold pack Packed.of
        rw [h]
        rfl
      rw [this, ih]

theorem pack_tuple (ks : List String) (s : Sample) :
    pack (.tuple ks) s = (Packed.of ks s, if (s.lookup "sample_idx").isSome then .used else .tuple ks) := by
  unfold pack Packed.of
  cases h : s.lookup "sample_idx" with
  | some i => rfl
  | none =>
    have : (ks.filter (· ≠ "sample_idx")).filterMap (fun k => (s.lookup k).map (k, ·)) = ks.filterMap fun k => (s.lookup k).map (k, ·) := by
      rw [List.filterMap_filter]
      congr 1
      funext k
      by_cases hk : k = "sample_idx"
      · simp [hk, h]
      · simp [hk]
    rw [this]
    rfl

theorem packAll_append (ks : List String) (pre : List Sample) (s : Sample) (hs : (s.lookup "sample_idx").isSome) (post : List Sample)
    (hp : ∀ s ∈ pre, s.lookup "sample_idx" = none) :
    packAll (.tuple ks) (pre ++ s :: post) =
      pre.map (Packed.of ks) ++ Packed.of ks s :: post.map fun s => { Packed.of ks s with info := [] } := by
  induction pre with
  | nil =>
    show (pack (.tuple ks) s).1 :: packAll (pack (.tuple ks) s).2 post = _
    rw [pack_tuple, if_pos hs, packAll_used]
    rfl
  | cons x pre ih =>
    show (pack (.tuple ks) x).1 :: packAll (pack (.tuple ks) x).2 (pre ++ s :: post) = _
    rw [pack_tuple, hp x (by simp)]
    show _ :: packAll (.tuple ks) _ = _
    rw [ih fun y hy => hp y (by simp [hy])]
    rfl

end Verif.Augment
