import Verif.Lemmas.Estimator

namespace Verif.Estimator
open Verif

/-- The counts do not depend on the batch size: running the same network on a batch `B`
times as large gives the same numbers (upsampling and keyword inputs excepted). Missing: upsampling and keyword inputs, see
`C30_upsample_violated` and `C30_keyword_violated`. -/
theorem C30_batch_partial (mods : List Nat) (kinds : Nat → Kind) (calls : List Call) (b B : Nat) (hb : 0 < b) (hB : 0 < B)
    (h : ∀ c ∈ calls, Plain kinds c) :
    estimate mods kinds (calls.map (Call.scale B)) (some (B * b)) = estimate mods kinds calls (some b) := by
  have hr := run_scale kinds B calls h (fun _ => (0, 0)) (fun _ => (0, 0)) (by simp)
  have hBb : B * b ≠ 0 := by positivity
  unfold estimate average batchCount
  simp only [hBb, hb.ne', if_false]
  congr 2
  · rw [sum_mul_map mods _ _ B (fun m _ => (hr m).1)]
    push_cast
    have hB' : (B : ℚ) ≠ 0 := by exact_mod_cast hB.ne'
    have hb' : (b : ℚ) ≠ 0 := by exact_mod_cast hb.ne'
    field_simp
  · congr 1
    apply List.map_congr_left
    intro m _
    exact (hr m).2

/-- The FLOPs reported for a network of ordinary layers are the operations of all the calls,
per sample of the batch; an empty batch is an error. -/
theorem C30_flops (mods : List Nat) (hn : mods.Nodup) (kinds : Nat → Kind) (calls : List Call) (b : Nat)
    (h : ∀ c ∈ calls, c.mod ∈ mods ∧ (kinds c.mod).Fits c.inp c.out) :
    (0 < b → ∃ p, estimate mods kinds calls (some b) =
      .ok (((calls.map fun c => (kinds c.mod).work c.inp c.out).sum : Nat) / b, p)) ∧
    (b = 0 → estimate mods kinds calls (some b) = .error .zeroDivision) := by
  constructor
  · intro hb
    unfold estimate average batchCount
    dsimp only
    rw [if_neg (by omega)]
    refine ⟨_, congrArg _ (Prod.ext ?_ rfl)⟩
    simp only
    congr 1
    have e : (mods.map fun m => (run kinds (fun _ => (0, 0)) calls m).1) =
        mods.map fun m => ((calls.filter (·.mod = m)).map fun c => (((kinds c.mod).work c.inp c.out : Nat) : ℚ)).sum := by
      apply List.map_congr_left
      intro m _
      rw [(run_eq _ _ _ _).1]
      simp only [zero_add]
      congr 1
      apply List.map_congr_left
      intro c hc
      simp at hc
      rw [← hc.2]
      exact hook_work _ _ _ (h c hc.1).2
    rw [e, sum_by_mod mods hn calls _ (fun c hc => (h c hc).1)]
    push_cast
    simp [List.map_map, Function.comp_def]
  · intro hb
    simp [estimate, average, batchCount, hb]

example : (Kind.conv [3, 3] 4 8 2 true).Fits ⟨2, [4, 5, 5]⟩ ⟨2, [8, 5, 5]⟩ ∧ (Kind.linear 6).Fits ⟨2, [7, 2]⟩ ⟨2, [7, 3]⟩ ∧
    (Kind.conv [3, 3] 4 8 2 true).work ⟨2, [4, 5, 5]⟩ ⟨2, [8, 5, 5]⟩ = 400 * 19 ∧
    (Kind.linear 6).work ⟨2, [7, 2]⟩ ⟨2, [7, 3]⟩ = 84 := by
  refine ⟨⟨by decide, by decide, rfl, rfl⟩, ⟨[7], 2, 3, rfl, rfl⟩, by decide, by decide⟩

/-- Upsampling counts only the first sample: with two samples half the FLOPs are reported. -/
theorem C30_upsample_violated :
    estimate [0] (fun _ => .upsample 0) [⟨0, ⟨1, [3, 4, 4]⟩, ⟨1, [3, 8, 8]⟩⟩] (some 1) = .ok (192, 0) ∧
    estimate [0] (fun _ => .upsample 0) [⟨0, ⟨2, [3, 4, 4]⟩, ⟨2, [3, 8, 8]⟩⟩] (some 2) = .ok (96, 0) := by
  constructor <;> decide +kernel

/-- Inputs passed by name (an input constructor): the batch is taken to be one, and twice
the FLOPs are reported for two samples. -/
theorem C30_keyword_violated :
    estimate [0] (fun _ => .act 0) [⟨0, ⟨1, [3]⟩, ⟨1, [3]⟩⟩] none = .ok (3, 0) ∧
    estimate [0] (fun _ => .act 0) [⟨0, ⟨2, [3]⟩, ⟨2, [3]⟩⟩] none = .ok (6, 0) := by
  constructor <;> decide +kernel

/-- Parameters are counted per call: a network of ordinary layers reports, for each
layer, its number of elements times the number of calls. -/
theorem C30_calls (mods : List Nat) (kinds : Nat → Kind) (calls : List Call) (b : Nat) (hb : 0 < b)
    (hv : ∀ m ∈ mods, (kinds m).Valid) :
    ∃ f, estimate mods kinds calls (some b) =
      .ok (f, (mods.map fun m => ((calls.filter (·.mod = m)).length * (kinds m).numel : Int)).sum) := by
  unfold estimate average batchCount
  simp only [hb.ne', if_false]
  refine ⟨(mods.map fun m => (run kinds (fun _ => (0, 0)) calls m).1).sum / b, ?_⟩
  congr 3
  apply List.map_congr_left
  intro m hm
  rw [(run_eq _ _ _ _).2]
  simp only [hook_params _ _ _ (hv m hm)]
  simp

/-- In a network of ordinary layers in which every layer is called once, the parameters
reported are the elements the network holds. Missing: layers that are called twice, see `C30_reuse_violated`. -/
theorem C30_once_partial (mods : List Nat) (kinds : Nat → Kind) (calls : List Call) (b : Nat) (hb : 0 < b)
    (hv : ∀ m ∈ mods, (kinds m).Valid) (h1 : ∀ m ∈ mods, (calls.filter (·.mod = m)).length = 1) :
    ∃ f, estimate mods kinds calls (some b) = .ok (f, ((mods.map fun m => (kinds m).numel).sum : Nat)) := by
  obtain ⟨f, hf⟩ := C30_calls mods kinds calls b hb hv
  refine ⟨f, ?_⟩
  rw [hf]
  congr 2
  push_cast
  rw [List.map_map]
  apply congrArg
  apply List.map_congr_left
  intro m hm
  simp [h1 m hm]

/-- A layer called twice has its parameters counted twice. -/
theorem C30_reuse_violated :
    estimate [0] (fun _ => .linear 6) [⟨0, ⟨1, [3]⟩, ⟨1, [2]⟩⟩, ⟨0, ⟨1, [3]⟩, ⟨1, [2]⟩⟩] (some 1) = .ok (12, 12) ∧
    (Kind.linear 6).numel = 6 := by
  constructor <;> decide +kernel

/-- For searchable convolutions whose groups are kept on export (every convolution that
is not depthwise, and depthwise ones with all channels active): the FLOPs and parameters
reported at the current choice are those of the exported network, for all choices, shapes
and call sequences. Missing: depthwise convolutions with inactive channels, see `C30_depthwise_violated`. -/
theorem C30_export_partial (mods : List Nat) (net : Nat → Layer) (calls : List Call) (top : Option Nat)
    (h : ∀ m, (net m).SameGroups) :
    estimate mods (fun m => (net m).counted) calls top = estimate mods (fun m => (net m).exported) calls top := by
  unfold estimate
  rw [run_congr _ (fun m => (net m).exported) _ _ (fun m i o => hook_same (net m) (h m) i o)]

/-- Searchable linear layers: the FLOPs are those of the exported network. Missing: the parameters, see `C30_linear_violated`. -/
theorem C30_export_flops_partial (mods : List Nat) (net : Nat → Layer) (calls : List Call) (top : Option Nat)
    (h : ∀ m, (net m).SameGroups ∨ ∃ cin cout b ai ao, net m = .linear cin cout b ai ao) (f p : _)
    (he : estimate mods (fun m => (net m).counted) calls top = .ok (f, p)) :
    ∃ p', estimate mods (fun m => (net m).exported) calls top = .ok (f, p') := by
  unfold estimate average at he ⊢
  split at he
  · simp at he
  · rename_i hb
    simp only [Except.ok.injEq, Prod.mk.injEq] at he
    rw [if_neg hb]
    refine ⟨(mods.map fun m => (run (fun m => (net m).exported) (fun _ => (0, 0)) calls m).2).sum, ?_⟩
    congr 2
    rw [← he.1]
    congr 2
    apply List.map_congr_left
    intro m _
    symm
    apply run_congr_flops _ _ _ _ _ (fun _ => rfl)
    intro m i o
    rcases h m with hs | ⟨cin, cout, b, ai, ao, e⟩
    · rw [hook_same _ hs]
    · rw [e]; rfl

/-- A depthwise convolution of 8 channels with 4 active: the exported one has 36
parameters and 36·hw FLOPs, half of that is reported. -/
theorem C30_depthwise_violated :
    estimate [0] (fun _ => (Layer.conv "DynamicConv2d" [3, 3] 8 8 8 false (some 4) (some 4)).counted)
      [⟨0, ⟨1, [4, 5, 5]⟩, ⟨1, [4, 5, 5]⟩⟩] (some 1) = .ok (450, 18) ∧
    estimate [0] (fun _ => (Layer.conv "DynamicConv2d" [3, 3] 8 8 8 false (some 4) (some 4)).exported)
      [⟨0, ⟨1, [4, 5, 5]⟩, ⟨1, [4, 5, 5]⟩⟩] (some 1) = .ok (900, 36) := by
  constructor <;> decide +kernel

/-- Which counter each searchable layer gets: only the plain searchable convolution has one
that looks at the active channels; the batch norms have none. -/
theorem C30_counters :
    counterType registry listed (mro "DynamicConv2d") = "DynamicConv2dCounter" ∧
    counterType registry listed (mro "BigNasConv2d") = "Conv2dCounter" ∧
    counterType registry listed (mro "OFAConv2d") = "Conv2dCounter" ∧
    counterType registry listed (mro "FuseConv2d") = "Conv2dCounter" ∧
    counterType registry listed (mro "DynamicConv2dAdaptivePadding") = "Conv2dCounter" ∧
    counterType registry listed (mro "DynamicLinear") = "DynamicLinearCounter" ∧
    counterType registry listed (mro "DynamicLayerNorm") = "LayerNormCounter" ∧
    counterType registry listed (mro "DMCPBatchNorm2d") = "DMCPBatchNorm2dCounter" ∧
    counterType registry listed (mro "DynamicBatchNorm2d") ∉ registry := by
  refine ⟨?_, ?_, ?_, ?_, ?_, ?_, ?_, ?_, ?_⟩ <;> decide

/-- A BigNAS convolution from 8 to 8 channels with 2 active on both sides is reported at
full width. -/
theorem C30_bignas_violated :
    estimate [0] (fun _ => (Layer.conv "BigNasConv2d" [1, 1] 8 8 1 false (some 2) (some 2)).counted)
      [⟨0, ⟨1, [2, 1, 1]⟩, ⟨1, [2, 1, 1]⟩⟩] (some 1) = .ok (64, 64) ∧
    estimate [0] (fun _ => (Layer.conv "BigNasConv2d" [1, 1] 8 8 1 false (some 2) (some 2)).exported)
      [⟨0, ⟨1, [2, 1, 1]⟩, ⟨1, [2, 1, 1]⟩⟩] (some 1) = .ok (4, 4) := by
  constructor <;> decide +kernel

/-- A searchable batch norm is not counted, the exported one is. -/
theorem C30_norm_violated :
    estimate [0] (fun _ => (Layer.norm "DynamicBatchNorm2d" 8 true (some 4)).counted)
      [⟨0, ⟨1, [4, 5, 5]⟩, ⟨1, [4, 5, 5]⟩⟩] (some 1) = .ok (0, 0) ∧
    estimate [0] (fun _ => (Layer.norm "DynamicBatchNorm2d" 8 true (some 4)).exported)
      [⟨0, ⟨1, [4, 5, 5]⟩, ⟨1, [4, 5, 5]⟩⟩] (some 1) = .ok (200, 8) := by
  constructor <;> decide +kernel

/-- The parameters of a searchable linear layer are reported at full width. -/
theorem C30_linear_violated :
    estimate [0] (fun _ => (Layer.linear 8 10 true (some 4) none).counted)
      [⟨0, ⟨1, [4]⟩, ⟨1, [10]⟩⟩] (some 1) = .ok (40, 90) ∧
    estimate [0] (fun _ => (Layer.linear 8 10 true (some 4) none).exported)
      [⟨0, ⟨1, [4]⟩, ⟨1, [10]⟩⟩] (some 1) = .ok (40, 50) := by
  constructor <;> decide +kernel

/-- A transposed convolution with bias on an output of 4 by 6 counts 4 · 4 positions for
the bias. -/
theorem C30_deconv_violated :
    hook (.deconv 1 1 1 1 1 true 2) ⟨1, [1, 4, 6]⟩ ⟨1, [1, 4, 6]⟩ = (24 + 16, 2) := by decide +kernel

/-! ### Sub-modules -/

/-- In a network without shared modules every module gets the sum over the counted
modules below it, per sample and in the unit asked for. Missing: shared modules, see `C30_shared_violated`. -/
theorem C30_modules_partial (conv : ℚ → ℚ) (b : Nat) (st : Nat → ℚ) (t m : Tree) (hn : t.ids.Nodup) (hm : Tree.Below m t) :
    accumulateModules conv b st t m.id = conv ((m.leaves.map st).sum / b) :=
  ((modules_fresh t [] hn (by simp)).2 conv b st).2 m hm

/-- A module shared by two parents: the second parent sees the value that was already
divided and converted. Batch of 2, no units: 4 FLOPs per sample for the first, 2 for the
second. -/
theorem C30_shared_violated :
    accumulateModules id 2 (fun j => if j = 3 then 8 else 0) (.node 0 [.node 1 [.leaf 3], .node 2 [.leaf 3]]) 1 = 4 ∧
    accumulateModules id 2 (fun j => if j = 3 then 8 else 0) (.node 0 [.node 1 [.leaf 3], .node 2 [.leaf 3]]) 2 = 2 := by
  constructor <;> decide +kernel

/-- The reported number is the count in the unit asked for, to half a thousandth; any
other unit is refused. -/
theorem C30_units (x : ℚ) (hx : 0 ≤ x) (u : String) :
    (∀ y, convert u x = .ok y → ∃ k, (u, k) ∈ [("G", 9), ("M", 6), ("K", 3)] ∧ |y - x / 10 ^ k| ≤ 1 / 2000) ∧
    (u ∉ ["G", "M", "K"] → convert u x = .error .value) := by
  have hr : ∀ z : ℚ, 0 ≤ z → |round3 z - z| ≤ 1 / 2000 := by
    intro z hz
    unfold round3
    have h := roundHalfEven_near (z * 1000).num.toNat (z * 1000).den (z * 1000).den_pos
    have e : (((z * 1000).num.toNat : Nat) : ℚ) / (z * 1000).den = z * 1000 := by
      have h0 : 0 ≤ (z * 1000).num := Rat.num_nonneg.2 (by positivity)
      have : (((z * 1000).num.toNat : Nat) : ℚ) = ((z * 1000).num : ℚ) := by
        exact_mod_cast Int.toNat_of_nonneg h0
      rw [this, Rat.num_div_den]
    rw [e, abs_le] at h
    rw [abs_le]
    constructor <;> linarith
  refine ⟨?_, ?_⟩
  · intro y hy
    unfold convert at hy
    split at hy
    · rename_i h; simp only [Except.ok.injEq] at hy
      exact ⟨9, by simp [h], by rw [← hy]; exact hr _ (by positivity)⟩
    · split at hy
      · rename_i h; simp only [Except.ok.injEq] at hy
        exact ⟨6, by simp [h], by rw [← hy]; exact hr _ (by positivity)⟩
      · split at hy
        · rename_i h; simp only [Except.ok.injEq] at hy
          exact ⟨3, by simp [h], by rw [← hy]; exact hr _ (by positivity)⟩
        · simp at hy
  · intro h
    simp at h
    simp [convert, h]

example : Plain (fun _ => .conv [3, 3] 3 8 1 true) ⟨0, ⟨1, [3, 5, 5]⟩, ⟨1, [8, 5, 5]⟩⟩ ∧
    estimate [0] (fun _ => .conv [3, 3] 3 8 1 true) [⟨0, ⟨2, [3, 5, 5]⟩, ⟨2, [8, 5, 5]⟩⟩] (some 2) = .ok (5600, 224) ∧
    (Kind.conv [3, 3] 3 8 1 true).Valid ∧ (Kind.conv [3, 3] 3 8 1 true).numel = 224 := by
  refine ⟨⟨by simp, by simp⟩, by decide +kernel, ⟨by decide, by decide⟩, by decide⟩

example : (Layer.conv "DynamicConv2d" [3, 3] 8 16 1 true (some 4) (some 6)).SameGroups ∧
    estimate [0] (fun _ => (Layer.conv "DynamicConv2d" [3, 3] 8 16 1 true (some 4) (some 6)).counted)
      [⟨0, ⟨1, [4, 5, 5]⟩, ⟨1, [6, 5, 5]⟩⟩] (some 1) = .ok (5550, 222) := by
  refine ⟨⟨rfl, by simp⟩, by decide +kernel⟩

example : (Tree.node 0 [.node 1 [.leaf 3], .leaf 2]).ids.Nodup ∧
    accumulateModules id 2 (fun j => j * 4) (.node 0 [.node 1 [.leaf 3], .leaf 2]) 0 = 10 ∧
    convert "K" 12345 = .ok (12345 / 1000) := by
  refine ⟨by decide, by decide +kernel, by decide +kernel⟩

/-- C30: the layers that are said to be supported, all but the two upsampling layers, have a counter of their own; and a layer
of another class without a counter of its own is counted like the first of its base classes that is one of these. Missing: the
two upsampling layers, see `C30_upsampling_violated`. -/
theorem C30_supported_partial :
    ["Conv1d", "Conv2d", "Conv3d", "ReLU", "PReLU", "ELU", "LeakyReLU", "ReLU6", "MaxPool1d", "AvgPool1d", "AvgPool2d",
      "MaxPool2d", "MaxPool3d", "AvgPool3d", "AdaptiveMaxPool1d", "AdaptiveAvgPool1d", "AdaptiveMaxPool2d",
      "AdaptiveAvgPool2d", "AdaptiveMaxPool3d", "AdaptiveAvgPool3d", "BatchNorm1d", "BatchNorm2d", "BatchNorm3d",
      "GroupNorm", "InstanceNorm1d", "InstanceNorm2d", "InstanceNorm3d", "LayerNorm", "Linear", "Upsample",
      "ConvTranspose2d"] = listed.filter (fun c => c ≠ "UpsamplingNearest2d" ∧ c ≠ "UpsamplingBilinear2d") ∧
    ∀ c ∈ listed, c ≠ "UpsamplingNearest2d" → c ≠ "UpsamplingBilinear2d" →
      c ++ "Counter" ∈ registry ∧
      (∀ rest, counterType registry listed (c :: rest) = c ++ "Counter") ∧
      ∀ k before rest, k ++ "Counter" ∉ registry → (∀ b ∈ k :: before, b ∉ listed) →
        counterType registry listed (k :: (before ++ c :: rest)) = c ++ "Counter" := by
  refine ⟨by decide +kernel, ?_⟩
  intro c hc h1 h2
  have hr : c ++ "Counter" ∈ registry := by
    have : ∀ c ∈ listed, c ≠ "UpsamplingNearest2d" → c ≠ "UpsamplingBilinear2d" → c ++ "Counter" ∈ registry := by
      decide +kernel
    exact this c hc h1 h2
  refine ⟨hr, ?_, ?_⟩
  · intro rest
    unfold counterType
    rw [List.headD_cons]
    exact if_pos hr
  · intro k before rest hk hb
    unfold counterType
    rw [List.headD_cons]
    dsimp only
    rw [if_neg hk]
    have hf : (k :: (before ++ c :: rest)).find? (fun x => decide (x ∈ listed)) = some c := by
      rw [← List.cons_append, List.find?_append, List.find?_eq_none.2 (by simpa using hb)]
      simp [hc]
    rw [hf]

example : counterType registry listed ["ConvAWS2d", "Conv2d", "_ConvNd", "Module"] = "Conv2dCounter" := by decide +kernel

/-- DISAGREEMENT: the two upsampling layers are in the list of supported layers, and are subclasses of `Upsample`, which has
a counter; but the name of a counter that does not exist is chosen for them, and they are left out of the estimate. -/
theorem C30_upsampling_violated (rest : List String) :
    ∀ c ∈ ["UpsamplingNearest2d", "UpsamplingBilinear2d"], c ∈ listed ∧ "UpsampleCounter" ∈ registry ∧
      counterType registry listed (c :: "Upsample" :: rest) ∉ registry := by
  intro c hc
  have h1 : c ∈ listed := by
    have : ∀ c ∈ ["UpsamplingNearest2d", "UpsamplingBilinear2d"], c ∈ listed := by decide +kernel
    exact this c hc
  have h2 : c ++ "Counter" ∉ registry := by
    have : ∀ c ∈ ["UpsamplingNearest2d", "UpsamplingBilinear2d"], c ++ "Counter" ∉ registry := by decide +kernel
    exact this c hc
  refine ⟨h1, by decide +kernel, ?_⟩
  unfold counterType
  rw [List.headD_cons]
  dsimp only
  rw [if_neg h2, List.find?_cons_of_pos (by simpa using h1)]
  exact h2

end Verif.Estimator
