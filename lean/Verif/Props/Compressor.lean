import Verif.Lemmas.Compressor

namespace Verif.Compressor
open Verif

/-! ## statements -/

/-- If `prepare` succeeds, every convolution and linear layer that is to be compressed and is not
skipped is exchanged for one of the new class with the same weights, at all paths; nothing else
changes and what was shared stays shared. Missing: layers held by two attributes, models that are
a single layer (see below). -/
theorem C87_prepare_partial (c : Cfg) (m : Net) (hs : m.Sound) (ho : m.Once) (hr : m.root.kind = .other)
    (hok : (prepare c m).2 = none) :
    ∃ f : Obj → Obj, (prepare c m).1 = ⟨m.root, m.slots.map fun s => { s with obj := f s.obj }⟩ ∧
      (∀ s ∈ m.slots, ∀ t ∈ m.slots, (f s.obj).id = (f t.obj).id → s.obj.id = t.obj.id) ∧
      ∀ s ∈ m.slots, match target c s.obj.kind with
        | none => f s.obj = s.obj
        | some k => if m.firstPath s.obj.id ∈ skippedPaths c then f s.obj = s.obj
            else (f s.obj).kind = k ∧ (f s.obj).weight = s.obj.weight :=
  prepare_spec c m hs ho hr hok

example : (prepare (.gptq true true false [["out"]] none none false) shared) = (⟨⟨0, .other, 0⟩,
    [⟨["conv"], 0, "conv", ⟨5, .gptqConv, 10⟩⟩, ⟨["p"], 0, "p", ⟨2, .other, 0⟩⟩, ⟨["p", "fc"], 2, "fc", ⟨6, .gptqLinear, 11⟩⟩,
     ⟨["q"], 0, "q", ⟨2, .other, 0⟩⟩, ⟨["q", "fc"], 2, "fc", ⟨6, .gptqLinear, 11⟩⟩, ⟨["out"], 0, "out", ⟨4, .linear 8 2, 12⟩⟩]⟩, none) := by
  decide

example : shared.Sound ∧ shared.Once ∧ shared.root.kind = .other ∧
    (prepare (.gptq true true false [["out"]] none none false) shared).2 = none :=
  ⟨shared_sound, shared_once, rfl, by decide⟩

/-- Preparing for SparseGPT never fails. Preparing for GPTQ does not fail when the keyword arguments
fit the kind of linear layers: a bit width of 2, 4 or 8 and a group size for those with the special
kernel (and no quantisation of activations), neither for the others. -/
theorem C87_arguments (m : Net) :
    (∀ a b, (prepare (.sparse a b) m).2 = none) ∧
    (∀ a b sk bits group, bits ∈ [2, 4, 8] → 0 < group → (prepare (.gptq a b true sk (some bits) (some group) false) m).2 = none) ∧
    (∀ a b sk aq, (prepare (.gptq a b false sk none none aq) m).2 = none) := by
  refine ⟨fun a b => ?_, fun a b sk bits group hb hg => ?_, fun a b sk aq => ?_⟩
  · exact replaceAll_ok _ (fun k _ => sparse_convert a b k) _ _ _
  · apply replaceAll_ok
    intro k _
    cases k with
    | linear i o =>
      refine ⟨.fresh (.tritonLinear bits), ?_⟩
      show makeTriton (some bits) (some group) false i = _
      unfold makeTriton
      have h1 : ¬(bits ≠ 2 ∧ bits ≠ 4 ∧ bits ≠ 8) := by
        simp only [List.mem_cons, List.not_mem_nil, or_false] at hb
        omega
      have h2 : ¬ (group = -1) := by omega
      have h3 : ¬ (group = 0) := by omega
      have h4 : ¬ (group < 0 ∧ -group ≤ i) := by omega
      simp only [Bool.false_eq_true, if_false, h1, h2, h3, h4]
    | conv => exact ⟨_, rfl⟩
    | gptqConv => exact ⟨_, rfl⟩
    | gptqLinear => exact ⟨_, rfl⟩
    | tritonLinear b => exact ⟨_, rfl⟩
    | sparseConv => exact ⟨_, rfl⟩
    | sparseLinear => exact ⟨_, rfl⟩
    | other => exact ⟨_, rfl⟩
  · apply replaceAll_ok
    intro k _
    cases k with
    | linear i o => exact ⟨.fresh .gptqLinear, rfl⟩
    | conv => exact ⟨_, rfl⟩
    | gptqConv => exact ⟨_, rfl⟩
    | gptqLinear => exact ⟨_, rfl⟩
    | tritonLinear b => exact ⟨_, rfl⟩
    | sparseConv => exact ⟨_, rfl⟩
    | sparseLinear => exact ⟨_, rfl⟩
    | other => exact ⟨_, rfl⟩

example : (prepare (.gptq true true true [] (some 4) (some 128) false) shared).2 = none := by decide

/-- DISAGREEMENT: with its default arguments `GPTQCompressor.prepare(model)` raises a `TypeError` for
every model with a linear layer, because the default linear layers need `bits` and `groupsize`; the
layers met before are replaced already. -/
theorem C87_default_arguments_fails :
    (∀ (m : Net), m.Sound → (∃ s ∈ m.slots, ∃ i o, s.obj.kind = .linear i o) →
      (prepare (.gptq true true true [] none none false) m).2 = some .type) ∧
    ∃ m, m.Sound ∧ (prepare (.gptq true true true [] none none false) m).1 ≠ m := by
  refine ⟨?_, shared, shared_sound, by decide⟩
  rintro m hs ⟨s, h, i, o, hk⟩
  exact default_type m hs true false s h i o hk

/-- DISAGREEMENT: SparseGPT silently leaves every linear layer with fewer outputs than inputs
as it is; a model of such layers is not pruned at all. -/
theorem C87_narrow_violated (m : Net) (hs : m.Sound) (ho : m.Once) (hr : m.root.kind = .other)
    (h : ∀ s ∈ m.slots, s.obj.kind = .other ∨ ∃ i o, o < i ∧ s.obj.kind = .linear i o) (a b : Bool) :
    prepare (.sparse a b) m = (m, none) := narrow_same m hs ho hr h a b

/-- DISAGREEMENT: a layer that is held by two attributes is exchanged at the first only; the second
keeps the old layer, which is never compressed, and the two no longer share their weights. -/
theorem C87_two_holders_violated :
    tied.Sound ∧
    (prepare (.gptq true true false [] none none false) tied).1.slots.map (fun s => s.obj) = [⟨2, .gptqLinear, 7⟩, ⟨1, .linear 4 4, 7⟩] ∧
    (prepare (.sparse true true) tied).1.slots.map (fun s => s.obj) = [⟨2, .sparseLinear, 7⟩, ⟨1, .linear 4 4, 7⟩] := by
  refine ⟨?_, by decide, by decide⟩
  constructor <;> decide

/-- DISAGREEMENT: a model that is itself a layer stays as it is and gets a copy as an attribute with
an empty name: only the copy, which is never called, is compressed. -/
theorem C87_root_violated :
    prepare (.gptq true true false [] none none false) single = (⟨⟨0, .linear 4 4, 7⟩, [⟨[""], 0, "", ⟨1, .gptqLinear, 7⟩⟩]⟩, none) ∧
    prepare (.gptq true true false [] none none false) holding =
      (⟨⟨0, .linear 4 4, 7⟩, [⟨["act"], 0, "act", ⟨1, .other, 0⟩⟩, ⟨[""], 0, "", ⟨2, .gptqLinear, 7⟩⟩]⟩, none) := by
  decide

/-- DISAGREEMENT: skipping a layer by a path other than the first has no effect. -/
theorem C87_skip_path_violated :
    shared.Sound ∧ ["q", "fc"] ∈ shared.slots.map (fun s => s.path) ∧
    prepare (.gptq true true false [["q", "fc"]] none none false) shared = prepare (.gptq true true false [] none none false) shared :=
  ⟨shared_sound, by decide, by decide⟩

/-! ## calibration -/

section Layers
variable {W D : Type}

/-- A new layer that is initialised, gets its hook (once or several times), sees the inputs `xs`, loses
its hooks and then sees other inputs, holds twice the second moment of `xs` over the number of
samples of `xs`: registering more than once does not change the matrix, and after the removal nothing
does. Its weights and its place are as before. -/
theorem C87_calibration (a : Algo W) (dev : D) (w : W) (k : Nat) (hk : 0 < k) (xs : List Calibration.Input) (ys : List (List Calibration.Input))
    (hne : xs ≠ []) (hx : ∀ x ∈ xs, x ≠ Calibration.Input.other) (hc : ∀ x ∈ xs, 0 < Calibration.counted x) :
    ∃ l h, (Lay.new dev w).runs a ([Op.init] ++ List.replicate k .register ++ (xs.map fun x => .forward [x]) ++ [.remove] ++ ys.map .forward) = .ok l ∧
      l.mat = some (some h) ∧ l.w = w ∧ l.dev = dev ∧
      ∀ i j, h i j = 2 * Calibration.moment (xs.flatMap Calibration.allRows) i j / ((xs.map Calibration.counted).sum : Nat) := by
  have e1 : (Lay.new dev w).runs a [Op.init] = .ok ⟨some (some fun _ _ => 0), 0, 0, dev, w⟩ := rfl
  have e2 := registers a k (⟨some (some fun _ _ => 0), 0, 0, dev, w⟩ : Lay W D)
  dsimp only at e2
  rw [Nat.zero_add] at e2
  obtain ⟨h, e3, e4⟩ := calibrated a (⟨some (some fun _ _ => 0), 0, k, dev, w⟩ : Lay W D) xs rfl hx hc hne hk
  dsimp only at e3 e4
  refine ⟨⟨some (some h), 0 + k * (xs.map Calibration.counted).sum, 0, dev, w⟩, h, ?_, rfl, rfl, rfl, ?_⟩
  · rw [List.append_assoc, List.append_assoc, List.append_assoc, runs_append a _ _ _ _ e1, runs_append a _ _ _ _ e2, runs_append a _ _ _ _ e3]
    show Lay.runs a _ (Op.remove :: ys.map .forward) = _
    rw [Lay.runs]
    exact idle a ys _ rfl
  · intro i j
    rw [e4, Nat.zero_add]
    push_cast
    have hkq : (k : ℚ) ≠ 0 := by exact_mod_cast hk.ne'
    rw [mul_comm (2 : ℚ) (k : ℚ), mul_assoc, mul_div_mul_left _ _ hkq]

/-- DISAGREEMENT: initialising again does not reset the number of samples. After a second
calibration the matrix is the second moment over the number of all samples ever seen, which is
too small by the factor `B / (n + B)`. -/
theorem C87_init_again_violated (a : Algo W) (l : Lay W D) (hk : l.hooks = 1) (xs : List Calibration.Input)
    (hne : xs ≠ []) (hx : ∀ x ∈ xs, x ≠ Calibration.Input.other) (hc : ∀ x ∈ xs, 0 < Calibration.counted x) :
    ∃ l' h, l.runs a (Op.init :: xs.map fun x => .forward [x]) = .ok l' ∧ l'.mat = some (some h) ∧
      ∀ i j, h i j = 2 * Calibration.moment (xs.flatMap Calibration.allRows) i j / ((l.n + (xs.map Calibration.counted).sum : Nat) : ℚ) := by
  obtain ⟨h, e3, e4⟩ := calibrated a { l with mat := some (some fun _ _ => 0) } xs rfl hx hc hne (by dsimp only; omega)
  dsimp only at e3 e4
  rw [hk, Nat.one_mul] at e4
  refine ⟨_, h, e3, rfl, ?_⟩
  intro i j
  rw [e4]
  norm_num

example : ∃ xs : List Calibration.Input, xs ≠ [] ∧ (∀ x ∈ xs, x ≠ Calibration.Input.other) ∧ ∀ x ∈ xs, 0 < Calibration.counted x :=
  ⟨[.rows [fun _ => 1]], by simp, by simp, by simp [Calibration.counted]⟩

/-- DISAGREEMENT: compressing a layer that was never calibrated, or a second time with GPTQ, does
nothing but move the layer to the computing device, and no error is reported. -/
theorem C87_uncalibrated_violated (a : Algo W) (l : Lay W D) (dev : D) :
    (l.mat = none → l.runs a [.compress dev] = .ok { l with dev := dev }) ∧
    (∀ h, a.frees = true → l.mat = some h → (a.run h l.w).2 = true →
      ∃ l', l.runs a [.compress dev] = .ok l' ∧ l'.w = (a.run h l.w).1 ∧ l'.dev = l.dev ∧
        l.runs a [.compress dev, .compress dev] = .ok { l' with dev := dev }) := by
  refine ⟨fun h => ?_, fun h hf hm hr => ?_⟩
  · rw [Lay.runs, Lay.step, h]
    rfl
  · have e : a.run h l.w = ((a.run h l.w).1, true) := Prod.ext rfl hr
    have s1 : l.step a (.compress dev) = .ok { l with w := (a.run h l.w).1, mat := none } := by
      rw [Lay.step, hm]
      dsimp only
      rw [e, hf]
      rfl
    refine ⟨{ l with w := (a.run h l.w).1, mat := none }, ?_, rfl, rfl, ?_⟩
    · rw [Lay.runs, s1]; rfl
    · rw [Lay.runs, s1]; rfl

/-- DISAGREEMENT: a layer whose compression fails stays on the computing device. -/
theorem C87_failed_layer_violated (a : Algo W) (l : Lay W D) (dev : D) (h : Option (Nat → Nat → ℚ)) (hm : l.mat = some h)
    (hr : (a.run h l.w).2 = false) : l.runs a [.compress dev] = .ok { l with dev := dev, w := (a.run h l.w).1 } := by
  have e : a.run h l.w = ((a.run h l.w).1, false) := Prod.ext rfl hr
  rw [Lay.runs, Lay.step, hm]
  dsimp only
  rw [e]
  rfl

/-- DISAGREEMENT: if the hooks are not removed before GPTQ compresses a layer, every later
forward pass through it raises an `AttributeError`. -/
theorem C87_hooks_left_fails (a : Algo W) (l : Lay W D) (dev : D) (h : Option (Nat → Nat → ℚ)) (x : Calibration.Input) (hm : l.mat = some h)
    (hf : a.frees = true) (hr : (a.run h l.w).2 = true) (hk : 0 < l.hooks) :
    l.runs a [.compress dev, .forward [x]] = .error .attribute := by
  have e : a.run h l.w = ((a.run h l.w).1, true) := Prod.ext rfl hr
  have s1 : l.step a (.compress dev) = .ok { l with w := (a.run h l.w).1, mat := none } := by
    rw [Lay.step, hm]
    dsimp only
    rw [e, hf]
    rfl
  obtain ⟨k, hk⟩ : ∃ k, l.hooks = k + 1 := ⟨l.hooks - 1, by omega⟩
  rw [Lay.runs, s1]
  dsimp only
  rw [Lay.runs, Lay.step]
  dsimp only
  rw [hk, Lay.hookRun]
  rfl

end Layers

example : ∃ (a : Algo Nat) (l : Lay Nat Bool), l.mat = some (some fun _ _ => 0) ∧ a.frees = true ∧ (a.run (some fun _ _ => 0) l.w).2 = true ∧ 0 < l.hooks :=
  ⟨⟨fun _ w => (w + 1, true), true⟩, ⟨some (some fun _ _ => 0), 0, 1, false, 3⟩, rfl, rfl, rfl, by decide⟩

/-! ## memory efficient forward -/

/-- In a forward pass with memory efficient hooks, started with everything in main memory, whenever a
module below the root uses its own tensors they are on the device, and then exactly the modules of
one hooked block are; afterwards everything is in main memory again. Missing: the root's own
tensors, modules reached over two paths. -/
theorem C87_forward_partial (root : Tree) (hn : root.ids.Nodup) (body : List Call) (hb : OkIn root body) :
    ((Call.mk root body).exec (enable root) cpu).2 = cpu ∧
    ∀ e ∈ ((Call.mk root body).exec (enable root) cpu).1, e.1 ≠ root.id →
      e.2 e.1 = true ∧ ∃ u ∈ root.subs, u.id ∈ enable root ∧ ∀ j, e.2 j = true ↔ j ∈ u.ids := by
  obtain ⟨h1, h2⟩ := forward_spec root hn body hb
  refine ⟨h1, ?_⟩
  intro e he hne
  rcases h2 e he with ⟨h, _⟩ | ⟨g1, u, hu, g2⟩
  · exact absurd (by rw [h]) hne
  · exact ⟨g1, u, children_subs root u hu, g2⟩

example : (blockNet false).ids.Nodup ∧ enable (blockNet false) = [2, 3, 5] ∧
    OkIn (blockNet false) [.mk (.node 1 false false [.node 2 false true [], .node 3 true false [.node 4 false true []]])
      [.mk (.node 2 false true []) [.use 2]], .mk (.node 5 false true []) [.use 5]] := by
  refine ⟨by decide, by decide, ?_⟩
  simp [OkIn, Call.Ok, blockNet, Tree.children, Tree.id, Tree.own]

/-- DISAGREEMENT: the parameters and buffers of the model itself never get to the device: whenever
the root uses them, they are in main memory. -/
theorem C87_root_tensors_violated (root : Tree) (hn : root.ids.Nodup) (body : List Call) (hb : OkIn root body) :
    ∀ e ∈ ((Call.mk root body).exec (enable root) cpu).1, e.1 = root.id → e.2 root.id = false := by
  intro e he h
  rcases (forward_spec root hn body hb).2 e he with ⟨h, _⟩ | ⟨_, u, hu, g3, g4⟩
  · rw [h]; rfl
  · by_contra hc
    rw [Bool.not_eq_false] at hc
    have hmem := (g4 root.id).1 hc
    exact (root_ids root hn).1 (subsIn_ids _ u hu _ hmem)

/-- Hooks are gone after the context; DISAGREEMENT: entering the same context object twice
loses the handles of the first time, whose hooks then stay on the model for good. -/
theorem C87_context_violated :
    (∀ (k : Nat) (c : Ctx), (∀ h ∈ c.live, h < c.next) → (c.enter true k).exit.live = c.live) ∧
    ((((⟨[], [], 0⟩ : Ctx).enter true 2).enter true 2).exit.exit.live = [0, 1]) :=
  ⟨leak, by decide⟩

/-! ## dtype -/

/-- After `with torch_setting(dtype)` the default is what it was before, whatever happens inside. Missing: a default that is
changed between making and entering the object, see `C87_dtype_stale_violated`. -/
theorem C87_dtype_partial {T : Type} (bs : List (Block T)) (cur : T) (h : ∀ b ∈ bs, b.NoSet) : runBlocks bs cur = cur := by
  induction bs with
  | nil => rw [runBlocks]
  | cons b bs ih =>
    rw [runBlocks]
    have hb := h b (by simp)
    cases b with
    | set d => exact absurd hb (by simp [Block.NoSet])
    | within d body =>
      have e : (Block.within d body).run cur = cur := by rw [Block.run]; rfl
      rw [e]
      exact ih (fun b hb => h b (by simp [hb]))

example : runBlocks [Block.within (some "float32") [.set "float64", .within none []]] "float16" = "float16" := by decide

/-- DISAGREEMENT: the default is remembered when the object is made, not when it is entered: if it
is changed in between, leaving restores the older value. -/
theorem C87_dtype_stale_violated {T : Type} (d : Option T) (made entered : T) (hne : made ≠ entered) :
    let s := Setting.new d made
    s.exit (s.enter entered) ≠ entered := hne

/-- What the layer for GPUs refuses when both of its arguments are given: other widths than 2, 4 and 8, groups of no column, and
negative groups that fit (`-1` is the whole row). -/
theorem C87_triton_refused (b g : Int) (inF : Nat) (e : Err) :
    makeTriton (some b) (some g) false inF = .error e ↔
      (b ∉ [2, 4, 8] ∧ e = .notImplemented) ∨ (b ∈ [2, 4, 8] ∧ (g = 0 ∨ (g = -1 ∧ inF = 0)) ∧ e = .zeroDivision) ∨
      (b ∈ [2, 4, 8] ∧ g < -1 ∧ -g ≤ inF ∧ e = .runtime) := by
  have hb : (b ≠ 2 ∧ b ≠ 4 ∧ b ≠ 8) ↔ b ∉ [2, 4, 8] := by simp
  simp only [makeTriton, Bool.false_eq_true, if_false]
  by_cases h : b ≠ 2 ∧ b ≠ 4 ∧ b ≠ 8
  · rw [if_pos h]
    have := hb.1 h
    simp only [this, not_false_eq_true, true_and, false_and, or_false, Except.error.injEq, eq_comm (a := e)]
  · rw [if_neg h]
    have h' : b ∈ [2, 4, 8] := by by_contra hc; exact h (hb.2 hc)
    simp only [h', not_true_eq_false, true_and, false_and, false_or]
    by_cases h1 : g = -1
    · subst h1
      by_cases h2 : inF = 0
      · simp [h2, eq_comm (a := e)]
      · have h3 : (0 : Int) ≤ inF := by omega
        simp [h2, not_lt.2 h3]
    · simp only [if_neg h1]
      by_cases h2 : g = 0
      · simp [h2, eq_comm (a := e)]
      · by_cases h3 : g < 0 ∧ -g ≤ inF
        · have h4 : g < -1 := by omega
          simp [h1, h2, h3, h4, eq_comm (a := e)]
        · have h4 : ¬ (g < -1 ∧ -g ≤ inF) := by omega
          rw [if_neg h2, if_neg h3]
          simp only [h1, h2, false_and, or_self, reduceCtorEq, false_or, false_iff]
          rintro ⟨a, b, -⟩
          exact h4 ⟨a, b⟩

example : makeTriton (some 3) (some 128) false 64 = .error .notImplemented ∧ makeTriton (some 4) (some (-2)) false 64 = .error .runtime :=
  ⟨(C87_triton_refused _ _ _ _).2 (by decide), (C87_triton_refused _ _ _ _).2 (by decide)⟩

end Verif.Compressor
