import Verif.Lemmas.WideNet

/-! C84: wide residual networks. -/

namespace Verif.WideNet
open Verif

/-- C84, the network: with usable arguments and no freezing the network is built, with the given
number of stages of `n` blocks each; every image of any size passes, its side is divided by the
strides, rounding up, and the returned channels are as announced and as the last norm layer
expects: the base channels times the width, doubled at every further stage. Missing: freezing, other norm layers and other
depths, see `C84_freeze_fails`, `C84_norm_fails` and `C84_depths_violated`. -/
theorem C84_network_partial {c : Cfg} {n x : ℕ} (u : Usable c n x) (hf : c.frozen < 0)
    (hb : c.bn = true) :
    ∃ net, build c = .ok net ∧ net.stages.length = min c.numStages 3 ∧
      (∀ s ∈ net.stages, s.length = n) ∧
      net.feat = c.base * x * 2 ^ (min c.numStages 3 - 1) ∧
      ∀ h, 0 < h → forward net (c.inCh, h) =
        .ok (net.feat, (c.strides.take (min c.numStages 3)).foldl ceilDiv h) := by
  obtain ⟨st, h1, h2, h3, ⟨s, hs, b, hb1, hb2⟩, h5⟩ := build_stages u
  rw [finish_ok hf hs hb1] at h1
  refine ⟨_, h1, h2, ?_, hb2, ?_⟩
  · intro s hs
    obtain ⟨ci, co, r, d, rfl⟩ := h5 s hs
    have hn := (arch_ok u.depth).2.1
    unfold resLayer
    rw [List.length_cons, List.length_replicate]
    omega
  · intro h hh
    unfold forward
    dsimp only
    rw [stem_ok _ _ _ hh]
    dsimp only
    rw [hb, h3 h hh]
    dsimp only
    have hk : 0 < min c.numStages 3 := by have := u.stages; omega
    rw [half_pow _ _ hk, hb2]
    unfold normShape
    rw [if_neg (by simp)]

/-- C84, the depth: with three stages the network has as many convolutions as its depth says,
shortcuts counted; one fewer if the first stage changes neither channels nor size. -/
theorem C84_depth {c : Cfg} {n x : ℕ} (u : Usable c n x) (hf : c.frozen < 0)
    (h3 : 3 ≤ c.numStages) (hx : 0 < c.base * x) :
    ∃ net, build c = .ok net ∧
      (c.strides[0]? ≠ some 1 ∨ c.stem ≠ c.base * x → net.convs.length = c.depth) ∧
      (c.strides[0]? = some 1 → c.stem = c.base * x → net.convs.length = c.depth - 1) := by
  obtain ⟨ea, hn, hd⟩ := arch_ok u.depth
  have ex := expansion_ok u.width
  have hsl := u.strides
  have hdl := u.dilations
  have a0 : c.strides[0]? = some c.strides[0] := List.getElem?_eq_getElem (by omega)
  have a1 : c.strides[1]? = some c.strides[1] := List.getElem?_eq_getElem (by omega)
  have a2 : c.strides[2]? = some c.strides[2] := List.getElem?_eq_getElem (by omega)
  have b0 : c.dilations[0]? = some c.dilations[0] := List.getElem?_eq_getElem (by omega)
  have b1 : c.dilations[1]? = some c.dilations[1] := List.getElem?_eq_getElem (by omega)
  have b2 : c.dilations[2]? = some c.dilations[2] := List.getElem?_eq_getElem (by omega)
  have ht : [n, n, n].take c.numStages = [n, n, n] := List.take_of_length_le (by simpa using h3)
  set X := c.base * x with hX
  have e : mkStages c [n, n, n] 0 c.stem X = .ok
      ([resLayer n c.stem X c.strides[0] c.dilations[0],
        resLayer n X (X * 2) c.strides[1] c.dilations[1],
        resLayer n (X * 2) (X * 2 * 2) c.strides[2] c.dilations[2]], X * 2 * 2 * 2) := by
    rw [mkStages, a0]
    dsimp only
    rw [b0]
    dsimp only
    rw [mkStages, a1]
    dsimp only
    rw [b1]
    dsimp only
    rw [mkStages, a2]
    dsimp only
    rw [b2]
    dsimp only
    rw [mkStages]
  obtain ⟨b, hb, -⟩ := resLayer_last n (X * 2) (X * 2 * 2) c.strides[2] c.dilations[2]
  have hbuild : build c = .ok ⟨⟨c.inCh, c.stem, 3, 1, 1, 1⟩,
      [resLayer n c.stem X c.strides[0] c.dilations[0],
        resLayer n X (X * 2) c.strides[1] c.dilations[1],
        resLayer n (X * 2) (X * 2 * 2) c.strides[2] c.dilations[2]],
      X * 2 * 2 * 2 / 2, b.conv2.cout, c.bn⟩ := by
    unfold build
    rw [ea]
    dsimp only
    rw [ex]
    dsimp only
    rw [ht, e]
    dsimp only
    exact finish_ok hf (s := resLayer n (X * 2) (X * 2 * 2) c.strides[2] c.dilations[2]) rfl hb
  have hcount : ∀ f, (Net.convs ⟨⟨c.inCh, c.stem, 3, 1, 1, 1⟩,
      [resLayer n c.stem X c.strides[0] c.dilations[0],
        resLayer n X (X * 2) c.strides[1] c.dilations[1],
        resLayer n (X * 2) (X * 2 * 2) c.strides[2] c.dilations[2]],
      X * 2 * 2 * 2 / 2, f, c.bn⟩).length =
      6 * n + 3 + if c.strides[0] ≠ 1 ∨ c.stem ≠ X then 1 else 0 := by
    intro f
    unfold Net.convs
    dsimp only
    rw [List.length_cons, List.flatten_cons, List.flatten_cons, List.flatten_cons,
      List.flatten_nil, List.append_nil, List.flatMap_append, List.flatMap_append,
      List.length_append, List.length_append, convs_resLayer _ _ _ _ _ hn,
      convs_resLayer _ _ _ _ _ hn, convs_resLayer _ _ _ _ _ hn,
      if_pos (show c.strides[1] ≠ 1 ∨ X ≠ X * 2 from Or.inr (by omega)),
      if_pos (show c.strides[2] ≠ 1 ∨ X * 2 ≠ X * 2 * 2 from Or.inr (by omega))]
    omega
  refine ⟨_, hbuild, ?_, ?_⟩
  · intro h
    rw [hcount, if_pos]
    · omega
    · rcases h with h | h
      · left
        intro h'
        rw [a0, h'] at h
        exact h rfl
      · exact Or.inr h
  · intro h h'
    rw [a0] at h
    injection h with h
    rw [hcount, if_neg]
    · omega
    · rintro (k | k)
      · exact k h
      · exact k h'

/-- A network of depth 28 and width 10 for images of side 32. -/
example : Usable { depth := 28, widen := 10 } 4 10 ∧
    (build { depth := 28, widen := 10 }).toOption.map (fun n => (n.convs.length, n.feat)) =
      some (28, 640) ∧
    (build { depth := 28, widen := 10 }).toOption.map (fun n => forward n (3, 32)) =
      some (.ok (640, 8)) := by
  refine ⟨⟨by decide, Or.inr ⟨rfl, rfl⟩, by decide, by decide, by decide, by decide, by decide⟩,
    by decide +kernel, by decide +kernel⟩

/-- DISAGREEMENT: freezing stages is announced, but freezing accesses the last norm layer before
it is made: with any number of frozen stages from zero on, no network can be built. -/
theorem C84_freeze_fails {c : Cfg} {n x : ℕ} (u : Usable c n x) (hf : 0 ≤ c.frozen) :
    build c = .error .attribute := by
  obtain ⟨st, h1, -⟩ := build_stages u
  rw [h1]
  unfold finish
  rw [if_pos hf]

example : Usable { depth := 16, frozen := 1 } 2 4 :=
  ⟨by decide, Or.inr ⟨rfl, rfl⟩, by decide, by decide, by decide, by decide, by decide⟩

/-- DISAGREEMENT: the kind of norm layer is configurable, but blocks look for layers with the
names of batch norm: with any other kind the network is built and fails on every image. -/
theorem C84_norm_fails {c : Cfg} {n x : ℕ} (u : Usable c n x) (hf : c.frozen < 0)
    (hb : c.bn = false) :
    ∃ net, build c = .ok net ∧ ∀ h, 0 < h → forward net (c.inCh, h) = .error .attribute := by
  obtain ⟨st, h1, h2, -, ⟨s, hs, b, hb1, -⟩, h5⟩ := build_stages u
  rw [finish_ok hf hs hb1] at h1
  refine ⟨_, h1, ?_⟩
  intro h hh
  unfold forward
  dsimp only
  rw [stem_ok _ _ _ hh]
  dsimp only
  cases st with
  | nil => cases hs
  | cons a st =>
    obtain ⟨ci, co, r, d, rfl⟩ := h5 a List.mem_cons_self
    rw [List.flatten_cons]
    unfold resLayer
    rw [List.cons_append, seqShape, hb]
    have e : ∀ b x, blockShape false b x = .error .attribute := fun b x => rfl
    rw [e]

/-- DISAGREEMENT: depths 50, 101 and 152 are announced (and deeper networks only warned about),
but exactly the depths 10, 16, 22, 28 and 40 are supported. -/
theorem C84_depths_violated (c : Cfg) :
    (c.depth ∉ [10, 16, 22, 28, 40] → build c = .error .key) ∧
    (c.depth ∈ [50, 101, 152] → build c = .error .key) := by
  have h : c.depth ∉ [10, 16, 22, 28, 40] → build c = .error .key := by
    intro h
    simp only [List.mem_cons, List.not_mem_nil, or_false, not_or] at h
    unfold build archSetting
    rw [if_neg h.1, if_neg h.2.1, if_neg h.2.2.1, if_neg h.2.2.2.1, if_neg h.2.2.2.2]
  refine ⟨h, fun h' => h ?_⟩
  simp only [List.mem_cons, List.not_mem_nil, or_false, not_or] at h' ⊢
  omega

/-- C84, zero initialisation: with weight and bias of the second norm layer set to zero, a block
without a shortcut layer returns its input, whatever its other layers are. -/
theorem C84_zero_init {T U : Type} [AddCommGroup T] [Module ℝ T] [AddCommGroup U] [Module ℝ U]
    (conv1 : T → U) (norm relu : U → U) (hr : relu 0 = 0) (conv2 : U →ₗ[ℝ] T) (act1 : T → T)
    (x : T) : blockValue conv1 norm relu 0 0 conv2 act1 x = x := by
  unfold blockValue
  rw [zero_smul, add_zero, hr, map_zero, zero_add]

/-- A stage without a stride or a dilation makes the constructor raise `IndexError`. -/
theorem C84_missing_stage {c : Cfg} {l : List ℕ} {x : ℕ} (hd : archSetting c.depth = some l)
    (hx : getExpansion c.widen c.expansion = .ok x)
    (hm : c.strides.length < min c.numStages l.length ∨ c.dilations.length < min c.numStages l.length) :
    build c = .error .index := by
  have key : ∀ (l : List ℕ) (i cin cout : ℕ), i ≤ c.strides.length → i ≤ c.dilations.length →
      (c.strides.length < i + l.length ∨ c.dilations.length < i + l.length) → mkStages c l i cin cout = .error .index := by
    intro l
    induction l with
    | nil => intro i cin cout h1 h2 h; simp at h; omega
    | cons n l ih =>
      intro i cin cout h1 h2 h
      rw [mkStages]
      cases hs : c.strides[i]? with
      | none => rfl
      | some s =>
        dsimp only
        cases hdl : c.dilations[i]? with
        | none => rfl
        | some d =>
          dsimp only
          have e1 := (List.getElem?_eq_some_iff.1 hs).1
          have e2 := (List.getElem?_eq_some_iff.1 hdl).1
          rw [ih (i + 1) cout (cout * 2) (by omega) (by omega) (by simp at h; omega)]
  unfold build
  rw [hd]; dsimp only
  rw [hx]; dsimp only
  rw [key (l.take c.numStages) 0 c.stem (c.base * x) (by omega) (by omega) (by simpa using hm)]

/-- An expansion that is not positive is refused by an assertion; without a stage the last layer has no name. -/
theorem C84_refused (c : Cfg) {l : List ℕ} (hl : archSetting c.depth = some l) :
    (∀ e, c.expansion = some e → e ≤ 0 → build c = .error .assertion) ∧
    ((∀ e, c.expansion = some e → 0 < e) → c.numStages = 0 → c.frozen < 0 → build c = .error .name) := by
  constructor
  · intro e he h0
    simp [build, hl, getExpansion, he, not_lt.2 h0]
  · intro h h1 h2
    have hx : ∃ x, getExpansion c.widen c.expansion = .ok x := by
      cases h3 : c.expansion with
      | none => exact ⟨_, rfl⟩
      | some e => exact ⟨_, by simp [getExpansion, h e h3]; rfl⟩
    obtain ⟨x, hx⟩ := hx
    simp [build, hl, hx, h1, mkStages, finish, not_le.2 h2]

example : build { depth := 16, expansion := some 0 } = .error .assertion ∧ build { depth := 16, numStages := 0 } = .error .name :=
  ⟨by rfl, by rfl⟩

/-- Every network that can be built refuses images with another number of channels than configured, of whatever size. -/
theorem C84_channels_refused {c : Cfg} {net : Net} (hn : build c = .ok net) (ch h : ℕ) (hc : ch ≠ c.inCh) :
    forward net (ch, h) = .error .runtime := by
  have hs : net.stem.cin = c.inCh := by
    unfold build at hn
    split at hn
    · cases hn
    · split at hn
      · cases hn
      · split at hn
        · cases hn
        · unfold finish at hn
          split at hn
          · cases hn
          · split at hn
            · cases hn
            · split at hn
              · cases hn
              · cases hn; rfl
  have : convShape net.stem (ch, h) = .error .runtime := by
    unfold convShape
    exact if_pos (Or.inl (by rw [hs]; exact hc))
  unfold forward
  rw [this]

example : ∃ net, build { depth := 16 } = .ok net ∧ forward net (1, 32) = .error .runtime := by
  obtain ⟨net, h, -⟩ := C84_network_partial (c := { depth := 16 }) (n := 2) (x := 4)
    ⟨by decide, Or.inr ⟨rfl, rfl⟩, by decide, by decide, by decide, by decide, by decide⟩ (by decide) rfl
  exact ⟨net, h, C84_channels_refused h 1 32 (by decide)⟩

end Verif.WideNet
