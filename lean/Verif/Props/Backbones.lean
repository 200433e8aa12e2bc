import Verif.Lemmas.Backbones

namespace Verif.Backbones
open Verif SearchOps

/-! ## Specification -/

/-! ## Lemmas -/

/-! ## Properties -/

/-- C78: SearchableMobileNetV2.  For every architecture, every choice of a
candidate in each block and every image, the network can be built and run, and
returns the stages asked for: each with its number of channels and the size of
the image divided by all strides so far, rounded up. -/
theorem C78_mobilenet_v2 {stem last : ℕ} {stages : List Stage} {outIdx : List ℤ} {frozen : ℤ}
    {choice : List (List Op)} {h w : ℕ}
    (hi : ∀ i ∈ outIdx, 0 ≤ i ∧ i < 8) (hz : -1 ≤ frozen ∧ frozen < 8)
    (hg : ∀ st ∈ stages, MobileStage st) (hf : List.Forall₂ Chosen stages choice)
    (hh : 1 ≤ h) (hw : 1 ≤ w) :
    ∃ n, makeNet 8 stem stages (some last) outIdx frozen = .ok n
      ∧ runNet n choice ⟨3, h, w⟩ = .ok (selected outIdx
          (stageShapes h w 2 (stages.map (fun st => (st.width, st.stride)))
            ++ lastShape h w (stages.map Stage.stride) (some last))) :=
  net_ok hi hz (fun st hst => mobile_good (hg st hst)) hf hh hw

example : ∃ n, makeNet 8 32 [⟨16, 1, 1, [.mb 3 1 false false]⟩,
      ⟨24, 2, 2, [.mb 3 3 false false, .mb 7 6 false false, .identity]⟩] (some 1280) [1, 2] (-1)
      = .ok n
    ∧ runNet n [[.mb 3 1 false false], [.mb 7 6 false false, .identity]] ⟨3, 225, 224⟩
      = .ok [⟨24, 57, 56⟩, ⟨1280, 57, 56⟩] := ⟨_, rfl, by decide⟩

/-- C78 (partial): SearchableShuffleNetV2, with or without last layer, if all
numbers of channels are even. Missing: odd numbers of channels, see `C78_shufflenet_v2_violated`. -/
theorem C78_shufflenet_v2_partial {indices : ℤ} {stem : ℕ} {last : Option ℕ}
    {stages : List Stage} {outIdx : List ℤ} {frozen : ℤ} {choice : List (List Op)} {h w : ℕ}
    (hi : ∀ i ∈ outIdx, 0 ≤ i ∧ i < indices) (hz : -1 ≤ frozen ∧ frozen < indices)
    (hg : ∀ st ∈ stages, ShuffleStage st) (hf : List.Forall₂ Chosen stages choice)
    (hh : 1 ≤ h) (hw : 1 ≤ w) :
    ∃ n, makeNet indices stem stages last outIdx frozen = .ok n
      ∧ runNet n choice ⟨3, h, w⟩ = .ok (selected outIdx
          (stageShapes h w 2 (stages.map (fun st => (st.width, st.stride)))
            ++ lastShape h w (stages.map Stage.stride) last)) := by
  have := net_ok (stem := stem) (lastOut := last) hi hz (fun st hst => shuffle_good (hg st hst))
    hf hh hw
  cases last <;> exact this

example : ∃ n, makeNet 5 16 [⟨64, 2, 2, [.shuffle 3, .xception]⟩] none [0] (-1) = .ok n
    ∧ runNet n [[.xception, .shuffle 3]] ⟨3, 225, 224⟩ = .ok [⟨64, 57, 56⟩] :=
  ⟨_, rfl, by decide⟩

/-- C78, DISAGREEMENT: `round(channel * widen_factor)` may be odd.  Then a stage of
two or more blocks cannot be built (AssertionError), and one of a single block
can, but the next convolution fails on every image. -/
theorem C78_shufflenet_v2_violated {st : Stage} {op : Op} {cin : ℕ} (ho : st.width % 2 = 1)
    (hs : st.stride = 2) (hop : op ∈ st.cands) (hall : ∀ o ∈ st.cands, IsShuffle o) :
    (2 ≤ st.blocks → ∀ l, makeLayers cin (st :: l) = .error .assertion)
    ∧ (st.blocks = 1 → ∀ last outIdx h w, (∀ i ∈ outIdx, (0 : ℤ) ≤ i ∧ i < 5) → 1 ≤ h → 1 ≤ w →
      ∃ n, makeNet 5 cin [st] (some last) outIdx (-1) = .ok n
        ∧ runNet n [[op]] ⟨3, h, w⟩ = .error .runtime) := by
  have hmake : ∀ o ∈ st.cands, o.make cin st.width 2 = .ok () := by
    intro o ho
    exact (shuffle_fits (cin := cin) (x := ⟨cin, 1, 1⟩) (hall o ho) (by omega) rfl le_rfl
      le_rfl).1.2 (fun h => by omega)
  constructor
  · intro hb l
    obtain ⟨n, hn⟩ : ∃ n, st.blocks = n + 1 + 1 := ⟨st.blocks - 2, by omega⟩
    have e : makeLayer cin st = .error .assertion := by
      unfold makeLayer
      dsimp only
      rw [hn, blks_eq, hs, List.replicate_succ]
      dsimp only
      obtain ⟨bs, hbs⟩ := mapM_exists (f := Op.make cin st.width 2) (l := st.cands)
        (fun o ho => ⟨(), hmake o ho⟩)
      have hbad : st.cands.mapM (Op.make st.width st.width 1) = .error .assertion := by
        cases hcs : st.cands with
        | nil => rw [hcs] at hop; cases hop
        | cons o os =>
          have ho2 := hall o (by rw [hcs]; exact List.Mem.head _)
          have hm : o.make st.width st.width 1 = .error .assertion := by
            have : (1 = 1 ∧ st.width ≠ st.width / 2 * 2) := ⟨rfl, by omega⟩
            rcases ho2 with rfl | rfl | rfl | rfl <;>
            · show (if 1 = 1 ∧ st.width ≠ st.width / 2 * 2 then _ else _) = _
              rw [if_pos this]
          rw [List.mapM_cons, hm]; rfl
      rw [List.mapM_cons, List.mapM_cons, hbs, hbad]; rfl
    unfold makeLayers
    rw [e]; rfl
  · intro hb last outIdx h w hi hh hw
    have e : makeLayer cin st = .ok ([⟨cin, st.width, 2⟩], st.width) := by
      unfold makeLayer
      dsimp only
      rw [hb, blks_eq, hs]
      dsimp only
      obtain ⟨bs, hbs⟩ := mapM_exists (f := Op.make cin st.width 2) (l := st.cands)
        (fun o ho => ⟨(), hmake o ho⟩)
      rw [List.replicate_zero, List.mapM_cons, hbs]; rfl
    refine ⟨⟨cin, [[⟨cin, st.width, 2⟩]], st.width, some last, outIdx⟩, ?_, ?_⟩
    · unfold makeNet
      rw [if_neg, if_neg (by decide)]
      · unfold makeLayers makeLayers
        rw [e]; rfl
      intro hc
      obtain ⟨i, hi1, hi2⟩ := List.any_eq_true.1 hc
      have := hi i hi1
      simp [this] at hi2
    · have e0 : conv 3 cin 3 2 1 1 ⟨3, h, w⟩ = .ok ⟨cin, up h 2, up w 2⟩ :=
        conv_same (k := 3) rfl (by omega) rfl hh hw
      have e1 := (shuffle_fits (cout := st.width) (s := 2) (x := ⟨cin, up h 2, up w 2⟩)
        (hall op hop) (by omega) rfl (up_pos hh (by omega)) (up_pos hw (by omega))).2
        (fun h => by omega)
      have e2 : runLayer [(⟨cin, st.width, 2⟩, op)] ⟨cin, up h 2, up w 2⟩
          = .ok (expected (st.width / 2 * 2) 2 ⟨cin, up h 2, up w 2⟩) := by
        show (do
          let y ← op.run cin st.width 2 ⟨cin, up h 2, up w 2⟩
          runLayer [] y) = _
        rw [e1]; rfl
      have e3 : conv st.width last 1 1 0 1 (expected (st.width / 2 * 2) 2 ⟨cin, up h 2, up w 2⟩)
          = .error .runtime := if_neg (by show ¬ st.width / 2 * 2 = st.width; omega)
      unfold runNet
      dsimp only
      rw [e0]
      show (do
        let y ← runLayer [(⟨cin, st.width, 2⟩, op)] ⟨cin, up h 2, up w 2⟩
        let rest ← (do
          let y2 ← conv st.width last 1 1 0 1 y
          let rest ← runAll outIdx (0 + 1 + 1) [] y2
          Except.ok (if 0 + 1 ∈ outIdx then y2 :: rest else rest))
        Except.ok (if 0 ∈ outIdx then y :: rest else rest)) = _
      rw [e2]
      dsimp only [bind, Except.bind]
      rw [e3]

example : makeLayers 16 [⟨161, 4, 2, [.shuffle 3]⟩] = .error .assertion :=
  (C78_shufflenet_v2_violated (op := .shuffle 3) (by decide) rfl (by decide)
    (fun o h => Or.inl (List.mem_singleton.1 h))).1 (by decide) []

/-- C78 (partial): AttentiveMobileNetV3 with the shortcuts of AttentiveNAS, on
square images.  Whatever is chosen for channels, depths, kernel sizes and expand
ratios, in normal and in fine-grained mode, all layers agree on the active
channels; every stage returns the chosen channels and the size divided by the
strides, the last layer the chosen channels at size 1x1. Missing: the other kind of shortcuts, see `C78_residual_violated`, a
depth of zero, see `C78_depth_zero_violated`, and other images. -/
theorem C78_mobilenet_v3_partial {outIdx : List ℤ} {mFirst first ratio last h : ℕ}
    {l : List (VStage × VChoice)} (hm : 1 ≤ mFirst)
    (hg : ∀ p ∈ l, VGood p.1 ∧ VChosen p.1 p.2) (hh : 1 ≤ h) :
    runNetV true outIdx mFirst first l ratio last ⟨3, h, h⟩ = .ok (selected outIdx
      (stageShapes h h 2 (l.map (fun p => (p.2.c, p.1.stride))) ++ [⟨last, 1, 1⟩])) := by
  obtain ⟨e1, e2⟩ := layersV_ok hh (mIn := mFirst) (cin := first) (t := 2) hg hm (by omega)
  have e0 : conv 3 first 3 2 1 1 ⟨3, h, h⟩ = .ok ⟨first, up h 2, up h 2⟩ :=
    conv_same (k := 3) rfl (by omega) rfl hh hh
  unfold runNetV
  dsimp only
  rw [e0]
  refine runAll_steps (n := 0) (steps_append e2 ⟨?_, trivial⟩)
  rw [stageShapes_last, e1]
  have m1 : (l.map (fun p => (p.2.c, p.1.stride))).map Prod.fst
      = l.map (fun p => p.2.c) := by rw [List.map_map]; rfl
  have hp : 1 ≤ 2 * ((l.map (fun p => (p.2.c, p.1.stride))).map Prod.snd).prod := by
    refine Nat.mul_pos (by omega) (prod_one_le ?_)
    intro a ha
    rw [List.map_map] at ha
    obtain ⟨p, hp, rfl⟩ := List.mem_map.1 ha
    have := (hg p hp).1.2.2.2.2
    show 1 ≤ p.1.stride
    omega
  rw [m1]
  have e3 : ∀ c d : ℕ, conv c (c * ratio) 1 1 0 1 ⟨c, up h d, up h d⟩
      = if 1 ≤ up h d then .ok ⟨c * ratio, up h d, up h d⟩
        else conv c (c * ratio) 1 1 0 1 ⟨c, up h d, up h d⟩ := by
    intro c d
    by_cases hd : 1 ≤ up h d
    · rw [if_pos hd]; exact conv_one rfl hd hd
    · rw [if_neg hd]
  unfold lastV
  rw [e3, if_pos (up_pos hh hp)]
  exact conv_one rfl le_rfl le_rfl

example : runNetV true [0, 1] 16 8 [(exStage, exChoice)] 6 1984 ⟨3, 224, 224⟩
    = .ok [⟨24, 56, 56⟩, ⟨1984, 1, 1⟩] := by
  have := C78_mobilenet_v3_partial (outIdx := [0, 1]) (mFirst := 16) (first := 8) (ratio := 6)
    (last := 1984) (h := 224) (l := [(exStage, exChoice)]) (by decide) (by
      intro p hp
      rw [List.mem_singleton.1 hp]
      refine ⟨by unfold VGood; decide, by decide, by decide, fun i => ?_, fun i => ?_⟩
      · show (if i = 0 then 5 else 3) ∈ [3, 5]
        split_ifs <;> decide
      · show 4 + i % 3 ∈ [4, 5, 6]
        have : i % 3 = 0 ∨ i % 3 = 1 ∨ i % 3 = 2 := by omega
        rcases this with h | h | h <;> rw [h] <;> decide) (by decide)
  exact this

/-- C78, DISAGREEMENT: without the shortcuts of AttentiveNAS, whether input and
output of a block are added is decided by the largest candidates.  Where these
are equal for two layers in a row and the stride is 1, every choice of two
different numbers of channels above one makes the network fail. -/
theorem C78_residual_violated {st : VStage} {ch : VChoice} {cin h w : ℕ} (hg : VGood st)
    (hc : VChosen st ch) (hs : st.stride = 1) (hne : cin ≠ ch.c) (h2 : 2 ≤ cin) (hc2 : 2 ≤ ch.c)
    (hh : 1 ≤ h) (hw : 1 ≤ w) :
    layerV false (top st.chans) cin st ch ⟨cin, h, w⟩ = .error .runtime := by
  have hd1 := hg.2.1 _ hc.2.1
  have hd2 := le_top hc.2.1
  have hk := hg.2.2.1 _ (hc.2.2.1 0)
  unfold layerV
  rw [Nat.min_eq_left hd2]
  obtain ⟨n, hn⟩ : ∃ n, ch.d = n + 1 := ⟨ch.d - 1, by omega⟩
  rw [hn]
  have e1 : opt (top st.chans * top st.ratios ≠ top st.chans)
      (conv cin (cin * ch.r 0) 1 1 0 1) ⟨cin, h, w⟩ = .ok ⟨cin * ch.r 0, h, w⟩ := by
    by_cases hx : decide (top st.chans * top st.ratios ≠ top st.chans) = true
    · rw [hx]; exact conv_one rfl hh hw
    · have hx := Bool.eq_false_iff.2 hx
      rw [hx, expand_ok (le_trans (hg.1 _ hc.1) (le_top hc.1)) (hc.2.2.2 0)
        (hg.2.2.2.1 _ (hc.2.2.2 0)) hx]
      rfl
  have e2 : conv (cin * ch.r 0) (cin * ch.r 0) (ch.k 0) 1 (ch.k 0 / 2) 1 ⟨cin * ch.r 0, h, w⟩
      = .ok ⟨cin * ch.r 0, h, w⟩ := conv_keep hk rfl hh hw
  have e3 : opt st.se (keep (cin * ch.r 0)) ⟨cin * ch.r 0, h, w⟩ = .ok ⟨cin * ch.r 0, h, w⟩ := by
    cases st.se with
    | true => exact keep_ok _ _ _
    | false => rfl
  have e4 : conv (cin * ch.r 0) ch.c 1 1 0 1 ⟨cin * ch.r 0, h, w⟩ = .ok ⟨ch.c, h, w⟩ :=
    conv_one rfl hh hw
  have e5 : add ⟨cin, h, w⟩ ⟨ch.c, h, w⟩ = .error .runtime := by
    unfold add bdim
    dsimp only
    rw [if_neg hne, if_neg (by omega), if_neg (by omega)]; rfl
  have e : mbRun (top st.chans * top st.ratios ≠ top st.chans)
      (1 = 1 ∧ top st.chans = top st.chans ∧ false = false) st.se false cin ch.c 1
      (ch.k 0) (ch.r 0) ⟨cin, h, w⟩ = .error .runtime := by
    unfold mbRun
    dsimp only
    rw [e1]
    dsimp only [bind, Except.bind]
    rw [e2]
    dsimp only
    rw [e3]
    dsimp only
    rw [e4]
    dsimp only
    rw [if_pos (by simp)]
    exact e5
  show (do
    let y ← mbRun (top st.chans * top st.ratios ≠ top st.chans)
      (st.stride = 1 ∧ top st.chans = top st.chans ∧ false = false) st.se false cin ch.c st.stride
      (ch.k 0) (ch.r 0) ⟨cin, h, w⟩
    runV false st ch n (0 + 1) (top st.chans) ch.c y) = _
  rw [hs, e]; rfl

example : layerV false 24 16 { exStage with stride := 1 } exChoice ⟨16, 56, 56⟩
    = .error .runtime := by decide

/-- C78, DISAGREEMENT: zero is accepted as a candidate for the number of blocks of
a layer.  If it is chosen the layer passes its input on, but the next layer
expects the channels chosen for the skipped one and fails unless they happen to
agree. -/
theorem C78_depth_zero_violated {att : Bool} {st : VStage} {ch : VChoice} {outIdx : List ℤ}
    {mFirst first ratio last h w : ℕ} (hd : ch.d = 0) (hne : first ≠ ch.c) (hh : 1 ≤ h)
    (hw : 1 ≤ w) :
    runNetV att outIdx mFirst first [(st, ch)] ratio last ⟨3, h, w⟩ = .error .runtime := by
  have e0 : conv 3 first 3 2 1 1 ⟨3, h, w⟩ = .ok ⟨first, up h 2, up w 2⟩ :=
    conv_same (k := 3) rfl (by omega) rfl hh hw
  have e1 : layerV att mFirst first st ch ⟨first, up h 2, up w 2⟩
      = .ok ⟨first, up h 2, up w 2⟩ := by
    unfold layerV
    rw [hd, Nat.zero_min]; rfl
  have e2 : lastV ch.c ratio last ⟨first, up h 2, up w 2⟩ = .error .runtime := by
    unfold lastV conv
    rw [if_neg hne]; rfl
  unfold runNetV
  rw [e0]
  show (do
    let y ← layerV att mFirst first st ch ⟨first, up h 2, up w 2⟩
    let rest ← (do
      let y2 ← lastV ch.c ratio last y
      let rest ← runAll outIdx (0 + 1 + 1) [] y2
      Except.ok (if 0 + 1 ∈ outIdx then y2 :: rest else rest))
    Except.ok (if 0 ∈ outIdx then y :: rest else rest)) = _
  rw [e1]
  dsimp only [bind, Except.bind]
  rw [e2]

example : runNetV true [] 16 8 [(exStage, { exChoice with d := 0 })] 6 1984 ⟨3, 224, 224⟩
    = .error .runtime := C78_depth_zero_violated rfl (by decide) (by decide) (by decide)

/-- C78: the first activation is that of the stem, the last one that of the last
layer, and those between belong to the layers in order. -/
theorem C78_activations {α : Type} (swish a z : α) (l : List α) :
    (takeActs swish l.length (a :: l ++ [z])).1 = .ok (a, l, z) := by
  have h1 : (l ++ [z]).getLast? = some z := List.getLast?_concat ..
  have h2 : (l ++ [z]).dropLast = l := List.dropLast_concat ..
  unfold takeActs
  rw [List.cons_append]
  dsimp only [List.isEmpty_cons]
  rw [if_neg (by decide)]
  dsimp only
  rw [h1]
  dsimp only
  rw [h2, if_neg (lt_irrefl _), List.take_length]

/-- C78, DISAGREEMENT: the list given by the caller is emptied from both ends.  A
second backbone built from the same list (as when a config is used twice) raises
IndexError. -/
theorem C78_activations_violated {α : Type} (swish a z : α) {l : List α} (hl : l ≠ []) :
    (takeActs swish l.length (takeActs swish l.length (a :: l ++ [z])).2).1
      = .error .index := by
  have h1 : (l ++ [z]).getLast? = some z := List.getLast?_concat ..
  have h2 : (l ++ [z]).dropLast = l := List.dropLast_concat ..
  have e : (takeActs swish l.length (a :: l ++ [z])).2 = l := by
    unfold takeActs
    rw [List.cons_append]
    dsimp only [List.isEmpty_cons]
    rw [if_neg (by decide)]
    dsimp only
    rw [h1]
    dsimp only
    rw [h2, if_neg (lt_irrefl _)]
    dsimp only
    rw [if_neg (by decide)]
  rw [e]
  cases l with
  | nil => exact absurd rfl hl
  | cons b l =>
    unfold takeActs
    dsimp only [List.isEmpty_cons]
    rw [if_neg (by decide)]
    dsimp only
    cases hr : l.getLast? with
    | none => rfl
    | some y =>
      dsimp only
      rw [if_pos (by rw [List.length_dropLast, List.length_cons]; omega)]

example : (takeActs "Swish" 2 (takeActs "Swish" 2 ["ReLU", "ReLU", "Swish", "Swish"]).2).1
    = .error .index :=
  C78_activations_violated "Swish" "ReLU" "Swish" (l := ["ReLU", "Swish"]) (by decide)

/-- C78 (partial): freezing.  After `train(mode)` the first `frozen_stages` layers
are in evaluation mode and not trained, all others are in the mode asked for and
trained as before; with `norm_eval` no batch norm is in training mode.  The stem
is in the mode asked for, and not trained if any stage (from 0 on) is frozen. Missing: the mode of a frozen stem, see
`C78_freeze_stem_violated`, and more frozen stages than layers, see `C78_freeze_bound_violated`. -/
theorem C78_freeze_partial {frozen : ℤ} {normEval mode : Bool} {p : Parts}
    (hz : frozen.toNat ≤ p.layers.length) :
    ∃ q, train frozen normEval mode p = .ok q
      ∧ q.layers.length = p.layers.length
      ∧ (∀ (i : ℕ) x, q.layers[i]? = some x → (i : ℤ) < frozen → x = ⟨false, false, false⟩)
      ∧ (∀ (i : ℕ) x y, q.layers[i]? = some x → p.layers[i]? = some y → frozen ≤ (i : ℤ) →
          x = ⟨mode, mode && !normEval, y.grad⟩)
      ∧ q.last = ⟨mode, mode && !normEval, p.last.grad⟩
      ∧ q.stem = ⟨mode, mode && !normEval, p.stem.grad && decide (frozen < 0)⟩ := by
  obtain ⟨q, hq, h1, h2, h3, h4, h5⟩ := train_eq (frozen := frozen) (normEval := normEval) (mode := mode) hz
  refine ⟨q, hq, ?_, ?_, ?_, h2, ?_⟩
  · rw [h1, List.length_map, List.length_append, List.length_map, List.length_take,
      List.length_drop, List.length_map]
    omega
  · intro i x hx hi
    rw [h1, List.getElem?_map, mix_get _ _ (by rwa [List.length_map]), if_pos (by omega)] at hx
    cases hl : (p.layers.map (Part.setMode mode))[i]? with
    | none => rw [hl] at hx; cases hx
    | some y => rw [hl] at hx; cases hx; cases (mode && normEval) <;> rfl
  · intro i x y hx hy hi
    rw [h1, List.getElem?_map, mix_get _ _ (by rwa [List.length_map]), if_neg (by omega),
      List.getElem?_map, hy] at hx
    cases hx
    cases mode <;> cases normEval <;> rfl
  · have h6 : q.stem.grad = (p.stem.grad && decide (frozen < 0)) := by
      rw [h3]
      by_cases h : 0 ≤ frozen
      · rw [if_pos h, decide_eq_false (by omega), Bool.and_false]
      · rw [if_neg h, decide_eq_true (by omega), Bool.and_true]
    rw [← h4, ← h6]
    cases hs : q.stem with
    | mk a b c =>
      rw [hs] at h4 h5
      dsimp only at h4 h5 ⊢
      rw [h5, h4]

example : train 1 false true ⟨⟨true, true, true⟩, [⟨true, true, true⟩, ⟨true, true, true⟩],
      ⟨true, true, true⟩⟩
    = .ok ⟨⟨true, true, false⟩, [⟨false, false, false⟩, ⟨true, true, true⟩],
      ⟨true, true, true⟩⟩ := by decide

/-- C78, DISAGREEMENT: the stem of a frozen network stays in training mode, so
without `norm_eval` its batch norm statistics keep changing. -/
theorem C78_freeze_stem_violated {frozen : ℤ} {p : Parts} (hf : 0 ≤ frozen)
    (hz : frozen.toNat ≤ p.layers.length) :
    ∃ q, train frozen false true p = .ok q ∧ q.stem.grad = false ∧ q.stem.train = true
      ∧ q.stem.bn = true := by
  unfold train freezeStages
  dsimp only
  rw [if_pos hf, if_neg (by rw [List.length_map]; omega)]
  exact ⟨_, rfl, rfl, rfl, rfl⟩

example : ∃ q, train 0 false true ⟨⟨true, true, true⟩, [], ⟨true, true, true⟩⟩ = .ok q
    ∧ q.stem.bn = true := ⟨_, rfl, rfl⟩

/-- C78, DISAGREEMENT: numbers of frozen stages up to 7 are accepted whatever the
number of layers; asking for more than there are fails only when training
starts. -/
theorem C78_freeze_bound_violated {frozen : ℤ} {normEval mode : Bool} {p : Parts}
    (hz : p.layers.length < frozen.toNat) :
    train frozen normEval mode p = .error .attribute := by
  unfold train freezeStages
  dsimp only
  by_cases h : 0 ≤ frozen
  · rw [if_pos h, if_pos (by rw [List.length_map]; exact hz)]; rfl
  · rw [if_neg h, if_pos (by rw [List.length_map]; exact hz)]; rfl

example : makeNet 8 32 [⟨16, 1, 1, [.mb 3 1 false false]⟩] (some 1280) [1] 5
      = .ok ⟨32, [[⟨32, 16, 1⟩]], 16, some 1280, [1]⟩
    ∧ train 5 false true ⟨⟨true, true, true⟩, [⟨true, true, true⟩], ⟨true, true, true⟩⟩
      = .error .attribute := ⟨by decide, C78_freeze_bound_violated (by decide)⟩

/-- The constructors refuse an output index or a frozen stage out of range, before anything is built. -/
theorem C78_range (indices : ℤ) (stem : ℕ) (stages : List Stage) (lastOut : Option ℕ) (outIdx : List ℤ) (frozen : ℤ)
    (h : (∃ i ∈ outIdx, i < 0 ∨ indices ≤ i) ∨ frozen < -1 ∨ indices ≤ frozen) :
    makeNet indices stem stages lastOut outIdx frozen = .error .value := by
  unfold makeNet
  split
  · rfl
  · rename_i h1
    rw [if_pos]
    rcases h with ⟨i, hi, h⟩ | h | h
    · exfalso
      apply h1
      rw [List.any_eq_true]
      exact ⟨i, hi, by simp; omega⟩
    · omega
    · omega

example : makeNet 8 32 [] none [3, 8] (-1) = .error .value := C78_range _ _ _ _ _ _ (.inl ⟨8, by simp, by omega⟩)

end Verif.Backbones
