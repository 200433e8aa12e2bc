import Verif.Lemmas.Build

namespace Verif.Build
open Verif

/-! ### Building -/

/-- C76: a config of a known type with an architecture yields the object or, if asked for, its
architecture, and the config of the hub a model of the hub. Missing: a second use of the same config, see `C76_twice_violated`,
and the wish given as `False`, see `C76_false_violated`. -/
theorem C76_build_partial (types : String → Option Ty) (t : String) (y : Ty) (ht : types t = some y) (ha : y.arch = true) (p : Option String) :
    (build types ⟨some t, p, none⟩).1 = .ok (.whole t) ∧ (build types ⟨some t, p, some true⟩).1 = .ok (.inner t) ∧
      ∀ q r, (build types ⟨none, some q, r⟩).1 = .ok (.hub q) := by
  refine ⟨?_, ?_, fun q r => rfl⟩
  · cases p <;> simp [build, buildFromCfg, ht]
  · cases p <;> simp [build, buildFromCfg, ht, ha]

/-- C76: a config without a type, or with an unknown one, is a `KeyError`. -/
theorem C76_build_unknown (types : String → Option Ty) (c : Cfg)
    (h : c.type = none ∧ c.path = none ∨ ∃ t, c.type = some t ∧ types t = none) : (build types c).1 = .error .key := by
  obtain ⟨ty, p, r⟩ := c
  rcases h with ⟨h1, h2⟩ | ⟨t, h1, h2⟩
  · simp only at h1 h2
    subst h1 h2
    rcases r with _ | (_ | _) <;> rfl
  · simp only at h1
    subst h1
    rcases r with _ | (_ | _) <;> cases p <;> simp [build, buildFromCfg, h2]

/-- C76, DISAGREEMENT: asking for the architecture removes this wish from the caller's config: building
a second time from the same config gives the whole algorithm instead. -/
theorem C76_twice_violated (types : String → Option Ty) (t : String) (y : Ty) (ht : types t = some y) (ha : y.arch = true) (p : Option String) :
    let first := build types ⟨some t, p, some true⟩
    first.1 = .ok (.inner t) ∧ (build types first.2).1 = .ok (.whole t) := by
  refine ⟨?_, ?_⟩
  · cases p <;> simp [build, buildFromCfg, ht, ha]
  · cases p <;> simp [build, buildFromCfg, ht, ha]

/-- C76, DISAGREEMENT: `_return_architecture_=False`, which asks for what happens anyway, is passed on
to the constructor and refused by it. -/
theorem C76_false_violated (types : String → Option Ty) (t : String) (y : Ty) (ht : types t = some y) (hk : y.kwargs = false)
    (p : Option String) : (build types ⟨some t, p, some false⟩).1 = .error .type := by
  cases p <;> simp [build, buildFromCfg, ht, hk]

example : (build (fun t => if t = "SPOS" then some ⟨true, false⟩ else none) ⟨some "SPOS", none, some true⟩).1 = .ok (.inner "SPOS") := by
  decide +kernel

/-- C76: a sub-model is fixed; its weights are initialised once, as given by `init_cfg` or else by
the config of the model, and before the subnet is fixed exactly if asked for. -/
theorem C76_sub_model (own : Option String) (initCfg : Option String) (fromSupernet : Bool) :
    subModel ⟨false, own, false, none⟩ initCfg fromSupernet =
      ⟨true, initCfg.or own, true, some (initCfg.or own, !fromSupernet)⟩ := by
  cases initCfg <;> cases fromSupernet <;> rfl

/-! ### In-place modules -/

/-- C76: an algorithm uses its own preprocessor or else that of its architecture. If in-place modules
are not allowed and none lies inside another module with the attribute, no module of the architecture
works in place afterwards; nothing else changes. Missing: modules inside another module with the attribute, see
`C76_inplace_violated`. -/
theorem C76_inplace_partial (archPre pre : Option Nat) (arch : Mod) :
    (algorithm archPre pre false arch).1 = pre.or archPre ∧
      (arch.unnested = true → (algorithm archPre pre false arch).2.inPlace = false) ∧
      (algorithm archPre pre false arch).2.shape = arch.shape ∧ (algorithm archPre pre true arch).2 = arch := by
  refine ⟨?_, fun h => ?_, shape_setFalse arch, rfl⟩
  · cases pre <;> rfl
  · show arch.setFalse.inPlace = false
    rw [inPlace_setFalse]
    exact unnested_hidden arch h

/-- C76, DISAGREEMENT: in-place modules inside a module that also has the attribute are missed, such
as the activation of every `ConvModule`: the model works in place afterwards exactly if it has such a
module. -/
theorem C76_inplace_violated (archPre pre : Option Nat) (arch : Mod) :
    (algorithm archPre pre false arch).2.inPlace = arch.hidden ∧
      ∀ b rest, (Mod.mk (some b) (.cons "activate" (.mk (some true) .nil) rest)).hidden = true := by
  refine ⟨inPlace_setFalse arch, fun b rest => ?_⟩
  simp [Mod.hidden, Mods.inPlace, Mod.inPlace]

example : (Mod.mk none (.cons "relu" (.mk (some true) .nil) .nil)).setFalse.inPlace = false ∧
    (Mod.mk none (.cons "conv" (.mk (some true) (.cons "activate" (.mk (some true) .nil) .nil)) .nil)).setFalse.inPlace = true := by decide

/-! ### Optimizers -/

/-- C76: every configured key gets one optimizer, with its own settings, over exactly the parameters
of the child of that name, in order; a key that is not a child is a `KeyError`. A wrapped model is
treated as the model inside. -/
theorem C76_optimizers (cfg : List (String × OptCfg)) (m : Model) :
    let children := m.wrapped.getD m.children
    ((∀ x ∈ cfg, (children.lookup x.1).isSome) →
      ∃ os, construct cfg none m = .ok os ∧
        List.Forall₂ (fun x o => o.1 = x.1 ∧ o.2.rest = x.2.rest ∧ o.2.paramwise = x.2.paramwise ∧ children.lookup x.1 = some o.2.params) cfg os) ∧
    ((∃ x ∈ cfg, children.lookup x.1 = none) → construct cfg none m = .error .key) ∧
    ∀ p, construct cfg (some p) m = .error .assertion := by
  intro children
  have e : ∀ l : List (String × OptCfg), (l.mapM fun (x : String × OptCfg) =>
      match children.lookup x.1 with
      | none => (Except.error Err.key : Except Err (String × Optim))
      | some ps => .ok (x.1, ⟨x.2.rest, x.2.paramwise, ps⟩)) = construct l none m := fun _ => rfl
  refine ⟨?_, ?_, fun p => rfl⟩
  · intro h
    induction cfg with
    | nil => exact ⟨[], rfl, .nil⟩
    | cons x cfg ih =>
      obtain ⟨os, h1, h2⟩ := ih fun y hy => h y (by simp [hy])
      obtain ⟨ps, hps⟩ := Option.isSome_iff_exists.1 (h x (by simp))
      refine ⟨(x.1, ⟨x.2.rest, x.2.paramwise, ps⟩) :: os, ?_, .cons ⟨rfl, rfl, rfl, hps⟩ h2⟩
      rw [← e, List.mapM_cons, e, h1, hps]
      rfl
  · rintro ⟨x, hx, hn⟩
    induction cfg with
    | nil => cases hx
    | cons y cfg ih =>
      rw [← e, List.mapM_cons, e]
      cases hy : children.lookup y.1 with
      | none => rfl
      | some ps =>
        have hx' : x ∈ cfg := by
          rcases List.mem_cons.1 hx with h | h
          · rw [h, hy] at hn; cases hn
          · exact h
        rw [ih hx']
        rfl

/-- C76: parameters of children that are not configured belong to no optimizer. -/
theorem C76_untrained (cfg : List (String × OptCfg)) (m : Model) (os : List (String × Optim)) (h : construct cfg none m = .ok os)
    (q : Nat) (hq : ∀ x ∈ cfg, ∀ ps, (m.wrapped.getD m.children).lookup x.1 = some ps → q ∉ ps) : ∀ o ∈ os, q ∉ o.2.params := by
  have hs : ∀ x ∈ cfg, ((m.wrapped.getD m.children).lookup x.1).isSome := by
    intro x hx
    by_contra hn
    have := (C76_optimizers cfg m).2.1 ⟨x, hx, Option.not_isSome_iff_eq_none.1 hn⟩
    rw [this] at h
    cases h
  obtain ⟨os', h1, h2⟩ := (C76_optimizers cfg m).1 hs
  rw [h] at h1
  cases h1
  clear h hs
  intro o ho
  induction h2 with
  | nil => cases ho
  | cons hxy _ ih =>
    rcases List.mem_cons.1 ho with h | h
    · rw [h]
      exact hq _ (by simp) _ hxy.2.2.2
    · exact ih (fun x hx => hq x (by simp [hx])) h

/-- C76, DISAGREEMENT: a model that is not wrapped but has a child called `module` is taken for a
wrapper: its own children cannot be configured. -/
theorem C76_unwrap_violated (children inner : List (String × List Nat)) (k : String) (c : OptCfg) (hk : inner.lookup k = none) :
    construct [(k, c)] none ⟨children, some inner⟩ = .error .key :=
  (C76_optimizers [(k, c)] ⟨children, some inner⟩).2.1 ⟨(k, c), by simp, hk⟩

example : construct [("generator", ⟨none, 1⟩), ("head", ⟨some 4, 2⟩)] none ⟨[("head", [5, 6]), ("generator", [7]), ("neck", [8])], none⟩ =
    .ok [("generator", ⟨1, none, [7]⟩), ("head", ⟨2, some 4, [5, 6]⟩)] := by decide +kernel

/-! ### Drop path rates -/

/-- C76: in a network of blocks of the type, block number `n` of `total` (from zero) gets the rate
times `n / total` if its layer is a chosen stage (from one) and keeps its rate otherwise. Missing: other modules among the
blocks, see `C76_dropout_violated`. -/
theorem C76_dropout_partial (layers : List (List Block)) (stages : List Nat) (rate : ℚ) (h : ∀ l ∈ layers, ∀ b ∈ l, b.typed = true)
    (i j : Nat) (l : List Block) (hl : layers[i]? = some l) (b : Block) (hb : l[j]? = some b) :
    ∃ l', (rates (setDropout layers stages rate))[i]? = some l' ∧
      l'[j]? = some (if i + 1 ∈ stages
        then rate * ((((layers.take i).map List.length).sum + j : Nat) / (((layers.map List.length).sum : Nat) : ℚ)) else b.rate) := by
  obtain ⟨l', h1, h2⟩ := setLayers_get ((layers.map count).sum) stages rate layers 1 0 h i j l hl b hb
  refine ⟨l', h1, ?_⟩
  rw [h2, Nat.zero_add, Nat.add_comm 1 i]
  have : layers.map count = layers.map List.length := List.map_congr_left fun x hx => count_all (h x hx)
  rw [this]

/-- C76: these rates lie between zero and below the configured rate, and grow from block to block. -/
theorem C76_dropout_bounds (layers : List (List Block)) (rate : ℚ) (hr : 0 < rate) (i j : Nat) (l : List Block)
    (hl : layers[i]? = some l) (hj : j < l.length) (i' j' : Nat) (l' : List Block) (hl' : layers[i']? = some l') (hj' : j' < l'.length)
    (hlt : ((layers.take i).map List.length).sum + j < ((layers.take i').map List.length).sum + j') :
    let r := fun i j => rate * ((((layers.take i).map List.length).sum + j : Nat) / (((layers.map List.length).sum : Nat) : ℚ))
    0 ≤ r i j ∧ r i j < r i' j' ∧ r i' j' < rate := by
  intro r
  have h1 := sum_take_lt layers i' j' l' hl' hj'
  simp only [r]
  generalize ((layers.take i).map List.length).sum + j = a at *
  generalize ((layers.take i').map List.length).sum + j' = b at *
  generalize (layers.map List.length).sum = t at *
  have ht : (0 : ℚ) < t := by exact_mod_cast (by omega : 0 < t)
  have hab : (a : ℚ) < b := by exact_mod_cast hlt
  have hbt : (b : ℚ) < t := by exact_mod_cast h1
  refine ⟨by positivity, ?_, ?_⟩
  · exact mul_lt_mul_of_pos_left (div_lt_div_of_pos_right hab ht) hr
  · have : (b : ℚ) / t < 1 := (div_lt_one ht).2 hbt
    nlinarith

/-- C76, DISAGREEMENT: other modules in a layer count as positions but not in the total: a block behind
as many of them as there are blocks gets at least the full rate, which can exceed one. -/
theorem C76_dropout_violated (others : List Block) (ho : ∀ b ∈ others, b.typed = false) (b : Block) (hb : b.typed = true) (rate : ℚ) :
    rates (setDropout [others ++ [b]] [1] rate) = [others.map (·.rate) ++ [rate * others.length]] := by
  have hc : count (others ++ [b]) = 1 := by
    unfold count
    rw [List.filter_append, List.filter_eq_nil_iff.2 (by simpa using ho)]
    simp [hb]
  unfold setDropout
  simp only [List.map_cons, List.map_nil, List.sum_cons, List.sum_nil, hc]
  unfold setLayers
  rw [if_pos (by simp)]
  show [(setLayer 1 0 rate (others ++ [b])).map (·.rate)] = _
  congr 1
  unfold setLayer
  rw [List.zipIdx_append, List.map_append, List.map_append]
  congr 1
  · have : ∀ k, ((others.zipIdx k).map fun (x : Block × Nat) =>
        if x.1.typed then { x.1 with rate := rate * ((0 + x.2 : Nat) / ((1 : Nat) : ℚ)) } else x.1) = others := by
      induction others with
      | nil => intro k; rfl
      | cons o os ih =>
        intro k
        rw [List.zipIdx_cons, List.map_cons, ih (fun x hx => ho x (by simp [hx])) (by
          unfold count
          rw [List.filter_append, List.filter_eq_nil_iff.2 (by simpa using fun x hx => ho x (List.mem_cons_of_mem _ hx))]
          simp [hb])]
        simp [ho o (by simp)]
    rw [this]
  · simp [hb]

example : rates (setDropout [[⟨true, 0⟩], [⟨true, 0⟩, ⟨true, 0⟩], [⟨true, 7⟩]] [2] (3 / 10)) = [[0], [3 / 40, 3 / 20], [7]] := by decide +kernel

/-- Which configurations of models are refused, and with which error: unknown and missing types (KeyError), an explicit
`return_architecture` of False for types that do not take it (TypeError), and a wanted architecture of types without one
(AttributeError). Configurations of the hub are never refused. -/
theorem C76_build_refused (types : String → Option Ty) (c : Cfg) (e : Err) :
    (build types c).1 = .error e ↔ ¬ (c.path.isSome = true ∧ c.type = none) ∧
      ((e = .key ∧ ∀ t, c.type = some t → types t = none) ∨
        ∃ t y, c.type = some t ∧ types t = some y ∧
          ((c.ret = some false ∧ y.kwargs = false ∧ e = .type) ∨ (c.ret = some true ∧ y.arch = false ∧ e = .attribute))) := by
  obtain ⟨t, p, r⟩ := c
  cases t with
  | none =>
    cases p with
    | some p => simp [build]
    | none =>
      rcases r with _ | _ | _ <;> simp [build, buildFromCfg, @eq_comm _ e]
  | some t =>
    cases ht : types t with
    | none => rcases r with _ | _ | _ <;> cases p <;> simp [build, buildFromCfg, ht, @eq_comm _ e]
    | some y =>
      obtain ⟨a, k⟩ := y
      rcases r with _ | _ | _ <;> cases p <;> cases a <;> cases k <;> simp [build, buildFromCfg, ht, @eq_comm _ e]

end Verif.Build
