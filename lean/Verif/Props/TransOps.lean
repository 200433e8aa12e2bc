import Verif.Lemmas.TransOps

namespace Verif.TransOps
open Verif

/-! ## Property C92 -/

/-- A layer norm with a registered mask normalises over the active features with exactly their weights and biases, whatever the
layer was used for before: earlier runs and choices leave no trace. -/
theorem C92_norm {A X : Type} (norm : List X → List X) (ap : A → X → X) (p : List A) (m : List Bool) (f : Bool)
    (hm : m.length = p.length) (us : List (Use X)) (hc : ∀ m', Use.choose m' ∈ us → m'.length = p.length) (x : List X)
    (hx : x.length = (lastMask m us).count true) :
    (((⟨p.length, some p, some m, f⟩ : LN A).after norm ap us).forward norm ap 3 x).1 =
      .ok (List.zipWith ap (activeOf (lastMask m us) p) (norm x)) := by
  obtain ⟨n', h1, h2⟩ := ln_after norm ap p f us p.length m hm hc
  rw [h1, ln_forward norm ap n' p _ f h2]; dsimp only; rw [if_pos (show x.length = active _ from hx)]

example : (((⟨3, some [2, 3, 5], some [true, true, true], true⟩ : LN Nat).after id (· * ·)
    [.run 3 [1, 1, 1], .choose [true, false, true]]).forward id (· * ·) 3 [10, 10]).1 = .ok [20, 50] := by rfl

/-- The exported layer norm gives the same outputs as the dynamic one. -/
theorem C92_norm_static {A X : Type} (norm : List X → List X) (ap : A → X → X) (l l' : LN A) (attr : String) (m : List Bool)
    (hl : l.mask = none) (hp : ∀ p, l.affine = some p → p.length = l.normalized) (h : l.register attr m true = .ok l') (x : List X) :
    ∃ s, l'.toStatic = .ok s ∧ s.normalized = m.count true ∧ s.forward norm ap x = (l'.forward norm ap 3 x).1 := by
  have hr : l.registerFeatures m true = .ok l' := by
    unfold LN.register at h
    by_cases h1 : attr = "in_channels" ∨ attr = "out_channels"
    · rw [if_pos h1, hl] at h; exact h
    · rw [if_neg h1] at h
      by_cases h2 : attr = "num_features"
      · rw [if_pos h2] at h; exact h
      · rw [if_neg h2] at h; cases h
  unfold LN.registerFeatures at hr
  cases ha : l.affine with
  | none => rw [ha] at hr; cases hr
  | some p =>
    rw [ha] at hr; dsimp only at hr
    by_cases hlen : m.length ≠ l.normalized
    · rw [if_pos hlen] at hr; cases hr
    · rw [if_neg hlen] at hr; cases hr
      have hmp : m.length = p.length := by rw [hp p ha]; simpa using hlen
      have hpar : (⟨l.normalized, some p, some m, true⟩ : LN A).params = .ok (some (activeOf m p)) := ln_params _ p m true hmp
      refine ⟨⟨active m, some (activeOf m p)⟩, ?_, rfl, ?_⟩
      · unfold LN.toStatic
        rw [if_neg (by simp), hpar]
      · unfold StaticLN.forward LN.forward
        rw [if_neg (by simp), hpar]

example : (⟨3, some [2, 3, 5], none, true⟩ : LN Nat).register "in_channels" [true, false, true] true =
    .ok ⟨3, some [2, 3, 5], some [true, false, true], true⟩ := by rfl

/-- DISAGREEMENT: a dynamic layer norm without a registered mutable cannot be run, although a new dynamic layer is said to behave as
the static one (and can be exported). -/
theorem C92_norm_unregistered_fails {A X : Type} (norm : List X → List X) (ap : A → X → X) (n : Nat) (p : Option (List A)) (f : Bool)
    (x : List X) : ((⟨n, p, none, f⟩ : LN A).forward norm ap 3 x).1 = .error .key ∧
      (⟨n, p, none, f⟩ : LN A).toStatic = .ok ⟨n, p⟩ := by
  constructor
  · cases p <;> rfl
  · cases p <;> rfl

/-- DISAGREEMENT: running the layer shrinks its own width: afterwards a mutable for all its features is refused, and one for as many
features as were active is accepted, with which the layer cannot run. -/
theorem C92_norm_shrunk_violated {A X : Type} (norm : List X → List X) (ap : A → X → X) (p : List A) (m : List Bool) (f : Bool)
    (hm : m.length = p.length) (hk : m.count true < p.length) (x : List X) (full small : List Bool) (hf : full.length = p.length)
    (hs : small.length = m.count true) :
    let l := ((⟨p.length, some p, some m, f⟩ : LN A).forward norm ap 3 x).2
    l.register "num_features" full f = .error .value ∧
    ∃ l', l.register "num_features" small f = .ok l' ∧ ∀ y, (l'.forward norm ap 3 y).1 = .error .index := by
  dsimp only
  rw [ln_forward norm ap p.length p m f hm]; dsimp only
  have hact : active m = m.count true := rfl
  constructor
  · unfold LN.register LN.registerFeatures
    rw [if_neg (by decide), if_pos rfl]; dsimp only; rw [if_pos (by rw [hact, hf]; omega)]
  · refine ⟨⟨active m, some p, some small, f⟩, ?_, ?_⟩
    · unfold LN.register LN.registerFeatures
      rw [if_neg (by decide), if_pos rfl]; dsimp only; rw [if_neg (by rw [hact, hs]; simp)]
    · intro y
      unfold LN.forward LN.params keep
      rw [if_neg (by simp)]; dsimp only; rw [if_neg (by omega)]

example : ([true, false, true] : List Bool).count true < [2, 3, 5].length := by decide

/-- A layer norm without weights takes no mutable, an unfixed one is not exported, a mask of another size and other attributes are
refused, and a second registration by channels is ignored. -/
theorem C92_norm_register {A : Type} (l : LN A) (m : List Bool) (f : Bool) :
    (l.affine = none → l.register "num_features" m f = .error .runtime) ∧
    (l.affine ≠ none → m.length ≠ l.normalized → l.register "num_features" m f = .error .value) ∧
    (∀ attr, attr ∉ ["in_channels", "out_channels", "num_features"] → l.register attr m f = .error .assertion) ∧
    (∀ old, l.mask = some old → l.register "in_channels" m f = .ok l ∧ l.register "out_channels" m f = .ok l) ∧
    (l.mask ≠ none → l.fixed = false → l.toStatic = .error .runtime) := by
  refine ⟨?_, ?_, ?_, ?_, ?_⟩
  · intro h
    unfold LN.register LN.registerFeatures
    rw [if_neg (by decide), if_pos rfl, h]
  · intro h hm
    unfold LN.register LN.registerFeatures
    rw [if_neg (by decide), if_pos rfl]
    cases ha : l.affine with
    | none => exact absurd ha h
    | some p => dsimp only; rw [if_pos hm]
  · intro attr h
    simp only [List.mem_cons, List.not_mem_nil, or_false, not_or] at h
    unfold LN.register
    rw [if_neg (by tauto), if_neg h.2.2]
  · intro old h
    unfold LN.register
    rw [if_pos (.inl rfl), if_pos (.inr rfl), h]; exact ⟨rfl, rfl⟩
  · intro h hf
    unfold LN.toStatic
    rw [if_pos ⟨Option.isSome_iff_ne_none.2 h, hf⟩]

example : (⟨3, none, none, true⟩ : LN Nat).register "num_features" [true, true, true] true = .error .runtime := by rfl

/-- The exported patch embedding gives the outputs of the dynamic one, if the projection has a bias and no padding and there is
no norm. What is missing is any other embedding. -/
theorem C92_embed_static_partial {W B N X Y : Type} (corr : Nat → Nat → W → X → Y) (add : B → Y → Y) (run : N → List Y → Except Err (List Y))
    (e : DynEmbed W B N) (m : List Bool) (b : List B) (hm : e.mask = some m) (hf : e.fixed = true) (hb : e.base.bias = some b)
    (hw : m.length = e.base.weight.length) (hl : m.length = b.length) (hn : e.base.norm = none) (hp : e.base.padding = 0) (x : X) :
    ∃ s, e.toStatic = .ok s ∧ s.forward corr add run x = e.forward corr add run x ∧
      e.forward corr add run x = .ok (List.zipWith add (activeOf m b) ((activeOf m e.base.weight).map fun v => corr 16 0 v x)) := by
  have hpar : e.params = .ok (activeOf m e.base.weight, some (activeOf m b)) := by
    unfold DynEmbed.params keepBias
    rw [hm]; dsimp only; rw [keep_ok m _ hw, hb]; dsimp only; rw [keep_ok m b hl]
  refine ⟨⟨e.base.img, 16, 0, activeOf m e.base.weight, some (activeOf m b), none⟩, ?_, ?_, ?_⟩
  · unfold DynEmbed.toStatic
    rw [if_neg (by rw [hf]; simp), hm]; dsimp only; rw [hpar]
  · unfold DynEmbed.forward Embed.forward
    rw [hpar]; dsimp only; rw [hn, hp]
  · unfold DynEmbed.forward
    rw [hpar]; dsimp only; rw [hn, hp]; rfl

example : (⟨⟨224, 16, 0, [2, 3, 5], some [1, 1, 1], none⟩, some [true, false, true], true⟩ : DynEmbed Nat Nat Unit).toStatic =
    .ok ⟨224, 16, 0, [2, 5], some [1, 1], none⟩ := by rfl

/-- DISAGREEMENT: the norm of a patch embedding is left out of the exported one: it returns the features before the norm. -/
theorem C92_embed_norm_violated {W B N X Y : Type} (corr : Nat → Nat → W → X → Y) (add : B → Y → Y) (run : N → List Y → Except Err (List Y))
    (e : DynEmbed W B N) (s : Embed W B N) (n : N) (hn : e.base.norm = some n) (hp : e.base.padding = 0) (h : e.toStatic = .ok s) (x : X) :
    ∃ y, s.forward corr add run x = .ok y ∧ e.forward corr add run x = run n y := by
  unfold DynEmbed.toStatic at h
  by_cases h1 : e.mask.isSome ∧ e.fixed = false
  · rw [if_pos h1] at h; cases h
  · rw [if_neg h1] at h
    cases hm : e.mask with
    | none => rw [hm] at h; cases h
    | some m =>
      rw [hm] at h; dsimp only at h
      cases hq : e.params with
      | error r => rw [hq] at h; cases h
      | ok q =>
        obtain ⟨w, b⟩ := q
        cases b with
        | none => rw [hq] at h; cases h
        | some b =>
          rw [hq] at h; cases h
          refine ⟨conv corr add 16 0 w (some b) x, rfl, ?_⟩
          unfold DynEmbed.forward
          rw [hq]; dsimp only; rw [hn, hp]; rfl

example : (⟨⟨224, 16, 0, [2, 3], some [1, 1], some ()⟩, some [true, true], true⟩ : DynEmbed Nat Nat Unit).toStatic =
    .ok ⟨224, 16, 0, [2, 3], some [1, 1], none⟩ := by rfl

/-- DISAGREEMENT: a patch embedding without a bias, or without a registered mutable, cannot be exported. -/
theorem C92_embed_export_fails {W B N : Type} (e : DynEmbed W B N) (hf : e.fixed = true) :
    (e.mask = none → e.toStatic = .error .key) ∧
    (∀ m, e.mask = some m → m.length = e.base.weight.length → e.base.bias = none → e.toStatic = .error .attribute) := by
  constructor
  · intro h
    unfold DynEmbed.toStatic
    rw [if_neg (by rw [hf]; simp), h]
  · intro m h hw hb
    unfold DynEmbed.toStatic DynEmbed.params keepBias
    rw [if_neg (by rw [hf]; simp), h]; dsimp only; rw [keep_ok m _ hw, hb]

/-- A converted patch embedding gives the outputs of the given one, if its stride is 16. Missing: other strides, see
`C92_embed_stride_violated`. -/
theorem C92_embed_convert_partial {W B N X Y : Type} (corr : Nat → Nat → W → X → Y) (add : B → Y → Y)
    (run : N → List Y → Except Err (List Y)) (e : Embed W B N) (x : X) (h : e.stride = 16) :
    (DynEmbed.convert e).forward corr add run x = e.forward corr add run x := by
  unfold Embed.forward
  rw [h]; rfl

/-- DISAGREEMENT: a converted patch embedding uses stride 16 whatever the stride of the given one. -/
theorem C92_embed_stride_violated {W B N X Y : Type} (corr : Nat → Nat → W → X → Y) (add : B → Y → Y)
    (run : N → List Y → Except Err (List Y)) (e : Embed W B N) (x : X) :
    (DynEmbed.convert e).forward corr add run x = ({ e with stride := 16 } : Embed W B N).forward corr add run x := rfl

example : (DynEmbed.convert ⟨224, 8, 0, [1], none, none⟩ : DynEmbed Nat Nat Unit).forward (fun s _ w x => x / s * w) (fun _ y => y)
      (fun _ y => .ok y) 32 = .ok [2] ∧
    (⟨224, 8, 0, [1], none, none⟩ : Embed Nat Nat Unit).forward (fun s _ w x => x / s * w) (fun _ y => y) (fun _ y => .ok y) 32 = .ok [4] :=
  ⟨rfl, rfl⟩

/-- A resizer with a registered size resizes to the current choice, whatever size it is called with, and so does its exported
version, which is called without a size. Missing: resizers without a registered size, see `C92_resize_unregistered_fails`, and
other interpolations, see `C92_resize_modes_fails`. -/
theorem C92_resize_partial (mode : String) (align : Option Bool) (b : Resizer) (hb : Resizer.new mode align none = .ok b)
    (hm : align = none ∨ mode ∉ ["nearest", "area", "nearest-exact"]) (s : List Nat) (hs : 1 ≤ s.length ∧ s.length ≤ 3) (arg : Size) :
    ∃ r, (DynResizer.mk b none true).register s true = .ok r ∧ (r.forward arg).1 = .ok (.inl s) ∧
      ∃ st, r.toStatic = .ok st ∧ st.forward .none = .ok (.inl s) := by
  have hmo : modes.contains mode = true := by
    unfold Resizer.new at hb
    by_cases h : modes.contains mode = true
    · exact h
    · rw [if_neg h] at hb; cases hb
  have hb' : b = ⟨mode, align, none, .none⟩ := by
    unfold Resizer.new at hb
    rw [if_pos hmo] at hb; cases hb; rfl
  subst hb'
  have hi : interpolate mode align (.given s) none = .ok (.inl s) := by
    unfold interpolate
    rw [if_neg]
    rintro ⟨h1, h2⟩
    rcases hm with rfl | hm
    · cases h2
    · exact hm (by simpa using h1)
  obtain ⟨a, l, rfl⟩ : ∃ a l, s = a :: l := by
    cases s with
    | nil => simp at hs
    | cons a l => exact ⟨a, l, rfl⟩
  refine ⟨⟨⟨mode, align, none, .none⟩, some (a :: l), true⟩, ?_, ?_, ⟨mode, align, none, .given (a :: l)⟩, ?_, ?_⟩
  · unfold DynResizer.register
    rw [if_pos]
    have h3 : (a :: l).length = 1 ∨ (a :: l).length = 2 ∨ (a :: l).length = 3 := by omega
    rcases h3 with h3 | h3 | h3 <;> rw [h3] <;> rfl
  · exact hi
  · unfold DynResizer.toStatic Resizer.new
    rw [if_neg (by simp), if_pos hmo]
  · exact hi

example : Resizer.new "bicubic" (some false) none = .ok ⟨"bicubic", some false, none, .none⟩ := by decide +kernel

/-- A static resizer uses the size it is called with, and its stored size if it is called without. -/
theorem C92_resize_static (r : Resizer) (hm : r.align = none ∨ r.mode ∉ ["nearest", "area", "nearest-exact"]) (hs : r.scale = none)
    (s t : List Nat) (ht : r.size = .given t) : r.forward (.given s) = .ok (.inl s) ∧ r.forward .none = .ok (.inl t) := by
  have hn : ¬ (["nearest", "area", "nearest-exact"].contains r.mode ∧ r.align.isSome) := by
    rintro ⟨h1, h2⟩
    rcases hm with hm | hm
    · rw [hm] at h2; cases h2
    · exact hm (by simpa using h1)
  unfold Resizer.forward interpolate
  rw [if_neg hn, if_neg hn, hs, ht]
  exact ⟨rfl, rfl⟩

example : (⟨"bicubic", some false, none, .given [224, 224]⟩ : Resizer).forward (.given [32, 32]) = .ok (.inl [32, 32]) := by decide +kernel

/-- DISAGREEMENT: three of the documented interpolation types (nearest, area and nearest-exact) always fail with the default
`align_corners=False`, which PyTorch does not accept for them. -/
theorem C92_resize_modes_fails (mode : String) (hm : mode ∈ ["nearest", "area", "nearest-exact"]) (align : Bool) (scale : Option ℚ) :
    ∃ r, Resizer.new mode (some align) scale = .ok r ∧ ∀ size, r.forward size = .error .value := by
  have hmo : modes.contains mode = true := by
    simp only [List.mem_cons, List.not_mem_nil, or_false] at hm
    rcases hm with rfl | rfl | rfl <;> decide +kernel
  refine ⟨⟨mode, some align, scale, .none⟩, by unfold Resizer.new; rw [if_pos hmo], fun size => ?_⟩
  unfold Resizer.forward interpolate
  dsimp only
  rw [if_pos ⟨by simpa using hm, rfl⟩]

/-- DISAGREEMENT: a dynamic resizer without a registered size fails unless it is called with one: the default of its argument is
a type, not `None`; so it does with a scale factor, which works in the static resizer. -/
theorem C92_resize_unregistered_fails (mode : String) (align : Option Bool)
    (hm : align = none ∨ mode ∉ ["nearest", "area", "nearest-exact"]) (f : Bool) (q : ℚ) :
    ((⟨⟨mode, align, none, .none⟩, none, f⟩ : DynResizer).forward .typing).1 = .error .type ∧
    ((⟨⟨mode, align, some q, .none⟩, none, f⟩ : DynResizer).forward .typing).1 = .error .value ∧
    (⟨mode, align, some q, .none⟩ : Resizer).forward .none = .ok (.inr q) := by
  have hn : ¬ (["nearest", "area", "nearest-exact"].contains mode ∧ align.isSome) := by
    rintro ⟨h1, h2⟩
    rcases hm with rfl | hm
    · cases h2
    · exact hm (by simpa using h1)
  unfold DynResizer.forward Resizer.forward interpolate DynResizer.size
  dsimp only
  rw [if_neg hn, if_neg hn, if_neg hn]
  exact ⟨rfl, rfl, rfl⟩

example : "bicubic" ∉ ["nearest", "area", "nearest-exact"] := by decide +kernel

/-- Building the searched input sizes: the option must be there and start with a list. -/
theorem C92_sizes (s : Option (List SizeEntry)) (r : List SizeEntry) :
    buildSizes s = .ok r ↔ s = some r ∧ ∃ a l, r = .list a :: l := by
  match s with
  | none => simp [buildSizes]
  | some [] => simp [buildSizes]; rintro rfl; simp
  | some (.num n :: l) =>
    simp [buildSizes]; rintro rfl a l' h; simp at h
  | some (.list a :: l) =>
    simp [buildSizes]; rintro rfl; exact ⟨a, l, rfl⟩

/-- DISAGREEMENT: "a list of lists" is checked for the first entry only: later numbers are accepted. -/
theorem C92_sizes_violated (a : List Nat) (n : Nat) : buildSizes (some [.list a, .num n]) = .ok [.list a, .num n] := rfl

/-- Connecting the head: exactly the named methods of the head are called, in order, each with the named attribute of the
named component; names that are not of the form component.attribute are refused. -/
theorem C92_connect (attrs : String → Option (String → Option Nat)) (methods : List String) :
    ∀ (l : List (String × List String)) (r : List (String × Nat)),
      connectHead true attrs methods l = .ok r ↔
        List.Forall₂ (fun e c => c.1 = e.1 ∧ e.1 ∈ methods ∧ ∃ comp attr f, e.2 = [comp, attr] ∧ attrs comp = some f ∧ f attr = some c.2) l r
  | [], r => by
    rw [connectHead]
    constructor
    · intro h; cases h; exact .nil
    · intro h; cases h; rfl
  | (k, p) :: l, r => by
    have one : ∀ c, connectOne attrs methods k p = .ok c ↔
        (c.1 = k ∧ k ∈ methods ∧ ∃ comp attr f, p = [comp, attr] ∧ attrs comp = some f ∧ f attr = some c.2) := by
      intro c
      unfold connectOne
      match p with
      | [] => simp
      | [a] => simp
      | a :: b :: d :: e => simp
      | [comp, attr] =>
        dsimp only
        cases h1 : attrs comp with
        | none => simp [h1]
        | some f =>
          dsimp only
          cases h2 : f attr with
          | none =>
            dsimp only
            constructor
            · intro h; cases h
            · rintro ⟨_, _, c', a', f', h5, h6, h7⟩
              cases h5
              rw [h1] at h6; cases h6
              rw [h2] at h7; cases h7
          | some v =>
            dsimp only
            by_cases h3 : k ∈ methods
            · rw [if_pos (by simpa using h3)]
              constructor
              · intro h; cases h; exact ⟨rfl, h3, comp, attr, f, rfl, h1, h2⟩
              · rintro ⟨h4, _, c', a', f', h5, h6, h7⟩
                cases h5
                rw [h1] at h6; cases h6
                rw [h2] at h7
                cases c; cases h7; cases h4; rfl
            · rw [if_neg (by simpa using h3)]
              simp [h3]
    rw [connectHead, if_pos rfl]
    cases h1 : connectOne attrs methods k p with
    | error e =>
      dsimp only
      constructor
      · intro h; cases h
      · intro h
        cases h with
        | cons h _ => rw [(one _).2 h] at h1; cases h1
    | ok c =>
      dsimp only
      cases h2 : connectHead true attrs methods l with
      | error e =>
        dsimp only
        constructor
        · intro h; cases h
        · intro h
          cases h with
          | cons _ h => rw [(C92_connect attrs methods l _).2 h] at h2; cases h2
      | ok r' =>
        dsimp only
        constructor
        · intro h; cases h
          exact .cons ((one c).1 h1) ((C92_connect attrs methods l r').1 h2)
        · intro h
          cases h with
          | cons h h' =>
            rw [(one _).2 h] at h1; cases h1
            rw [(C92_connect attrs methods l _).2 h'] at h2; cases h2; rfl

example : connectHead true (fun c => if c = "backbone" then some fun a => if a = "last_mutable" then some 7 else none else none)
    ["connect_with_backbone"] [("connect_with_backbone", ["backbone", "last_mutable"])] = .ok [("connect_with_backbone", 7)] := by
  decide +kernel

/-- DISAGREEMENT: `simple_test` leaves out the input resizer that prediction uses: the two agree only if resizing does not
matter. -/
theorem C92_simple_test_violated {X Y Z : Type} (r : X → X) (feat : X → Y) (head : Y → Z) (x : X) :
    simpleTest (some r) feat head x = predict (some r) feat head x ↔ head (feat x) = head (feat (r x)) := Iff.rfl

/-- Replacing layers: exactly the named layers whose class has a dynamic counterpart are replaced, by that counterpart with the same
hyperparameters; all others stay; doing it again, or for a unit that shares layers, changes nothing more. -/
theorem C92_replaced {H P : Type} (map : List (String × String)) (fresh : String → H → P)
    (hm : ∀ s c, map.lookup s = some c → map.lookup c = none) (names : List String) (m : String → Option (Layer H P)) :
    (∀ k, k ∉ names → replaceAll map fresh names m k = m k) ∧
    (∀ k l, k ∈ names → m k = some l → map.lookup l.cls = none → replaceAll map fresh names m k = some l) ∧
    (∀ k l c, k ∈ names → m k = some l → map.lookup l.cls = some c →
      ∃ p, replaceAll map fresh names m k = some ⟨c, l.hyper, p⟩) ∧
    (∀ names', (∀ k ∈ names', k ∈ names) → replaceAll map fresh names' (replaceAll map fresh names m) = replaceAll map fresh names m) := by
  have sp := replaceAll_spec map fresh hm
  refine ⟨?_, ?_, ?_, ?_⟩
  · intro k hk; rw [sp, if_neg hk]
  · intro k l hk hl hc
    rw [sp, if_pos hk, hl, Option.map_some]
    unfold replaceOne; rw [hc]
  · intro k l c hk hl hc
    rw [sp, if_pos hk, hl, Option.map_some]
    unfold replaceOne; rw [hc]
    exact ⟨_, rfl⟩
  · intro names' hsub
    funext k
    rw [sp]
    by_cases hk : k ∈ names'
    · rw [if_pos hk, sp, if_pos (hsub k hk)]
      cases hmk : m k with
      | none => rfl
      | some l =>
        rw [Option.map_some, Option.map_some]
        congr 1
        unfold replaceOne
        cases hl : map.lookup l.cls with
        | none => dsimp only; rw [hl]
        | some c => dsimp only; rw [hm _ _ hl]
    · rw [if_neg hk]

example : replaceAll [("Conv2d", "DynamicConv2d")] (fun _ _ => 0) ["a", "c"]
    (fun k => if k = "a" then some ⟨"Conv2d", 3, 42⟩ else if k = "b" then some ⟨"Conv2d", 3, 43⟩ else none) "a" =
    some (⟨"DynamicConv2d", 3, 0⟩ : Layer Nat Nat) := by decide +kernel

/-- DISAGREEMENT: preparing a model for pruning discards the weights it has: every replaced layer has newly initialised parameters, so
a trained model that is prepared behaves as an untrained one until a checkpoint is loaded. -/
theorem C92_weights_violated {H P : Type} (map : List (String × String)) (fresh : String → H → P)
    (hm : ∀ s c, map.lookup s = some c → map.lookup c = none) (names : List String) (m : String → Option (Layer H P)) (k c : String)
    (l : Layer H P) (hk : k ∈ names) (hl : m k = some l) (hc : map.lookup l.cls = some c) :
    replaceAll map fresh names m k = some ⟨c, l.hyper, fresh c l.hyper⟩ := by
  rw [replaceAll_spec map fresh hm, if_pos hk, hl, Option.map_some]
  unfold replaceOne; rw [hc]

/-- C92: an embedding takes a mask exactly if it has one entry per embedding feature. -/
theorem C92_embed_register {W B N : Type} (e : DynEmbed W B N) (m : List Bool) (f : Bool) :
    (m.length = e.base.weight.length → ∃ e', e.register m f = .ok e' ∧ e'.mask = some m ∧ e'.fixed = f ∧ e'.base = e.base) ∧
    (m.length ≠ e.base.weight.length → e.register m f = .error .value) := by
  unfold DynEmbed.register
  refine ⟨fun h => ?_, fun h => if_pos h⟩
  rw [if_neg (not_not.2 h)]
  exact ⟨_, rfl, rfl, rfl, rfl⟩

example : ((⟨⟨4, 16, 0, [1, 2], none, none⟩, none, true⟩ : DynEmbed Nat Nat Nat).register [true, false] true).isOk = true := by
  rfl

/-- What resizing refuses: alignment of corners in a mode that has none, neither size nor scale, both of them, and as a `TypeError` a
size that is only a type. -/
theorem C92_interpolate_refused (mode : String) (align : Option Bool) (size : Size) (scale : Option ℚ) (e : Err) :
    interpolate mode align size scale = .error e ↔
      (mode ∈ ["nearest", "area", "nearest-exact"] ∧ align ≠ none ∧ e = .value) ∨
      (¬ (mode ∈ ["nearest", "area", "nearest-exact"] ∧ align ≠ none) ∧
        ((size = .none ∧ scale = none ∧ e = .value) ∨ (size = .typing ∧ scale = none ∧ e = .type) ∨
         (size ≠ .none ∧ scale ≠ none ∧ e = .value))) := by
  have hc : (["nearest", "area", "nearest-exact"].contains mode = true ∧ align.isSome = true) ↔
      (mode ∈ ["nearest", "area", "nearest-exact"] ∧ align ≠ none) := by
    rw [List.contains_iff_mem, Option.isSome_iff_ne_none]
  unfold interpolate
  by_cases h : ["nearest", "area", "nearest-exact"].contains mode = true ∧ align.isSome = true
  · rw [if_pos h]
    have h' := hc.1 h
    simp only [h', and_self, not_true_eq_false, true_and, false_and, or_false, Except.error.injEq, eq_comm (a := e), ne_eq,
      not_false_eq_true]
  · rw [if_neg h]
    have h' := mt hc.2 h
    have h2 : ¬ (mode ∈ ["nearest", "area", "nearest-exact"] ∧ align ≠ none ∧ e = .value) := fun x => h' ⟨x.1, x.2.1⟩
    simp only [h', h2, not_false_eq_true, true_and, false_or]
    cases size <;> cases scale <;> simp [eq_comm (a := e)]

example : interpolate "area" (some true) .none (some 2) = .error .value ∧ interpolate "bilinear" none (.given [4]) (some 2) = .error .value :=
  ⟨(C92_interpolate_refused _ _ _ _ _).2 (by simp), (C92_interpolate_refused _ _ _ _ _).2 (by simp)⟩

end Verif.TransOps
