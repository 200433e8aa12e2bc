import Verif.Lemmas.QuantCfg

namespace Verif.QuantCfg
open Verif Verif.QParams

/-! ## Property C89 -/

/-- The arguments of the observers that a scheme gives: the type and its range of integers for the
number of bits, symmetric if wanted, no reduced range, axis 0 exactly when it is per channel; all
other entries of the scheme are passed on as they are. -/
theorem C89_params (pc : Bool) (d : Dict) (h : Handler) (hh : handler pc d = .ok h) :
    let signed := decide ((d.lookup "qdtype").getD (.str "quint8") = .str "qint8")
    let b := h.scheme.bit
    (d.lookup "bit").getD (.int 8) = .int b ∧
    h.params.lookup "dtype" = some (.str (if signed then "qint8" else "quint8")) ∧
    h.params.lookup "quant_min" = some (.int (intRange signed (isOn d "is_symmetric_range" false) b).1) ∧
    h.params.lookup "quant_max" = some (.int (intRange signed (isOn d "is_symmetric_range" false) b).2) ∧
    h.params.lookup "reduce_range" = some (.bool false) ∧
    h.params.lookup "qscheme" = some (.str ((if pc then "per_channel_" else "per_tensor_") ++ if isOn d "is_symmetry" true then "symmetric" else "affine")) ∧
    (pc = true → h.params.lookup "ch_axis" = some (.int 0)) ∧
    ∀ k, k ∉ computed → k ∉ schemeKeys → h.params.lookup k = d.lookup k := by
  obtain ⟨_, _, h3, h4, h5, h6, h7, h8⟩ := handler_ok hh
  rw [flag_eq] at h5 h6
  dsimp only
  refine ⟨bits_eq h3, ?_, ?_, ?_, ?_, ?_, ?_, ?_⟩
  · rw [params_lookup, if_pos rfl, h4]
  · rw [params_lookup, if_neg (by decide), if_pos rfl, range_eq, h4, h5]
  · rw [params_lookup, if_neg (by decide), if_neg (by decide), if_pos rfl, range_eq, h4, h5]
  · rw [params_lookup]; simp
  · rw [params_lookup, if_neg (by decide), if_neg (by decide), if_neg (by decide), if_pos rfl]
    unfold Handler.torchScheme
    rw [h6, h7]
    cases pc <;> cases isOn d "is_symmetry" true <;> rfl
  · intro hpc
    rw [params_lookup, if_neg (by decide), if_neg (by decide), if_neg (by decide), if_neg (by decide), if_neg (by decide), if_pos ⟨rfl, by rw [h7]; exact hpc⟩]
  · intro k hk hs
    unfold computed at hk
    simp only [List.mem_cons, List.not_mem_nil, or_false, not_or] at hk
    obtain ⟨a1, a2, a3, a4, a5, a6⟩ := hk
    rw [params_lookup, if_neg a1, if_neg a2, if_neg a3, if_neg a4, if_neg a5, if_neg (fun h => a6 h.1), h8,
      dlookup_filter (fun k => !schemeKeys.contains k), if_pos]
    simpa using hs

example : ∃ h, handler true exScheme = .ok h ∧ h.params.lookup "quant_min" = some (.int (-127)) ∧ h.params.lookup "quant_max" = some (.int 127) ∧
    h.params.lookup "averaging_constant" = some (.str "0.1") :=
  ⟨⟨⟨true, 8, true⟩, true, true, [("averaging_constant", .str "0.1")]⟩, by decide +kernel, by decide +kernel, by decide +kernel, by decide +kernel⟩

/-- DISAGREEMENT: what a scheme says about the range of integers itself (`quant_min`, `quant_max`,
`reduce_range`, `dtype`, `qscheme`) is overwritten silently: any two accepted schemes that differ only
in these entries give observers the same arguments. -/
theorem C89_given_range_violated (pc : Bool) (d d' : Dict)
    (hd : ∀ k, k ∉ ["dtype", "quant_min", "quant_max", "qscheme", "reduce_range"] → d.lookup k = d'.lookup k)
    (h h' : Handler) (hh : handler pc d = .ok h) (hh' : handler pc d' = .ok h') (k : String) : h.params.lookup k = h'.params.lookup k := by
  obtain ⟨_, _, h3, h4, h5, h6, h7, h8⟩ := handler_ok hh
  obtain ⟨_, _, g3, g4, g5, g6, g7, g8⟩ := handler_ok hh'
  have ebit : bitsOf d = bitsOf d' := by unfold bitsOf; rw [hd "bit" (by decide)]
  have eflag : ∀ k dflt, k ∉ ["dtype", "quant_min", "quant_max", "qscheme", "reduce_range"] → flag d k dflt = flag d' k dflt := by
    intro k dflt hk; unfold flag; rw [hd k hk]
  have es : h.scheme = h'.scheme := by
    rw [ebit, g3] at h3
    rw [hd "qdtype" (by decide), ← g4] at h4
    rw [eflag _ _ (by decide), ← g5] at h5
    have hb : h'.scheme.bit = h.scheme.bit := by injection h3
    exact scheme_ext h4 hb.symm h5
  have et : h.torchScheme = h'.torchScheme := by
    unfold Handler.torchScheme
    rw [h6, h7, g6, g7, eflag _ _ (by decide)]
  rw [params_lookup, params_lookup, es, et, h7, g7]
  by_cases hk : k ∈ ["dtype", "quant_min", "quant_max", "qscheme", "reduce_range"]
  · simp only [List.mem_cons, List.not_mem_nil, or_false] at hk
    rcases hk with rfl | rfl | rfl | rfl | rfl <;> simp
  · have : h.extra.lookup k = h'.extra.lookup k := by
      rw [h8, g8, dlookup_filter (fun k => !schemeKeys.contains k), dlookup_filter (fun k => !schemeKeys.contains k), hd k hk]
    rw [this]

example : ∃ h, handler false [("quant_min", .int (-8)), ("reduce_range", .bool true)] = .ok h ∧ h.params.lookup "quant_min" = some (.int 0) ∧
    h.params.lookup "reduce_range" = some (.bool false) :=
  ⟨⟨⟨false, 8, false⟩, true, false, [("quant_min", .int (-8)), ("reduce_range", .bool true)]⟩, by decide +kernel, by decide +kernel, by decide +kernel⟩

/-- A configuration with a part missing, or with a part that is not a dictionary, is refused with a
`ValueError`; one that is accepted names registered classes and gets the arguments of its schemes,
per channel exactly when the name of the observer's class contains `PerChannel`. -/
theorem C89_converted (reg : String → Option String) (q : QCfg) :
    ((∃ k ∈ required, ∀ d, q k ≠ some (.dict d)) → convert reg q = .error .value) ∧
    ∀ c, convert reg q = .ok c → (∀ k ∈ required, ∃ d, q k = some (.dict d)) ∧
      (∀ x ∈ [("w_observer", c.weight.observer), ("a_observer", c.activation.observer), ("w_fake_quant", c.weight.cls), ("a_fake_quant", c.activation.cls)],
        ∃ d t, q x.1 = some (.dict d) ∧ d.lookup "type" = some (.str t) ∧ reg t = some x.2) ∧
      (∃ d h, q "w_qscheme" = some (.dict d) ∧ handler (decide ("PerChannel".toList <:+: c.weight.observer.toList)) d = .ok h ∧
        c.weight.params = h.params) ∧
      ∃ d h, q "a_qscheme" = some (.dict d) ∧ handler (decide ("PerChannel".toList <:+: c.activation.observer.toList)) d = .ok h ∧
        c.activation.params = h.params := by
  constructor
  · rintro ⟨k, hk, hd⟩
    unfold convert
    have : check q = false := by
      rw [← Bool.not_eq_true, check_iff]
      intro h
      obtain ⟨d, hq⟩ := h k hk
      exact hd d hq
    rw [this]
    rfl
  · intro c hc
    obtain ⟨hck, w, a, h1, h2, h3, h4, h5, h6, h7, h8⟩ := convert_ok hc
    rw [check_iff] at hck
    refine ⟨hck, ?_, ?_, ?_⟩
    · intro x hx
      simp only [List.mem_cons, List.not_mem_nil, or_false] at hx
      rcases hx with rfl | rfl | rfl | rfl
      · obtain ⟨d, hd⟩ := hck "w_observer" (by decide)
        rw [hd] at h1
        obtain ⟨t, ht⟩ := getCls_ok h1
        exact ⟨d, t, hd, ht⟩
      · obtain ⟨d, hd⟩ := hck "a_observer" (by decide)
        rw [hd] at h2
        obtain ⟨t, ht⟩ := getCls_ok h2
        exact ⟨d, t, hd, ht⟩
      · obtain ⟨d, hd⟩ := hck "w_fake_quant" (by decide)
        rw [hd] at h5
        obtain ⟨t, ht⟩ := getCls_ok h5
        exact ⟨d, t, hd, ht⟩
      · obtain ⟨d, hd⟩ := hck "a_fake_quant" (by decide)
        rw [hd] at h6
        obtain ⟨t, ht⟩ := getCls_ok h6
        exact ⟨d, t, hd, ht⟩
    · obtain ⟨d, hd⟩ := hck "w_qscheme" (by decide)
      rw [hd, infixOf_eq] at h3
      exact ⟨d, w, hd, h3, h7⟩
    · obtain ⟨d, hd⟩ := hck "a_qscheme" (by decide)
      rw [hd, infixOf_eq] at h4
      exact ⟨d, a, hd, h4, h8⟩

example : convert exReg exCfg = .ok exConf := by decide +kernel

/-- DISAGREEMENT: of the configurations of observers and fake quantisers only the `type` is used; any
other option given there is dropped without a message. -/
theorem C89_options_dropped_violated (reg : String → Option String) (q q' : QCfg) (h : SameTypes q q') : convert reg q = convert reg q' := by
  obtain ⟨h1, h2⟩ := h
  have hw := h1 "w_qscheme" (by decide)
  have ha := h1 "a_qscheme" (by decide)
  obtain ⟨d1, d1', e1, e1', t1⟩ := h2 "w_observer" (by decide)
  obtain ⟨d2, d2', e2, e2', t2⟩ := h2 "a_observer" (by decide)
  obtain ⟨d3, d3', e3, e3', t3⟩ := h2 "w_fake_quant" (by decide)
  obtain ⟨d4, d4', e4, e4', t4⟩ := h2 "a_fake_quant" (by decide)
  have hc : check q = check q' := by
    unfold check required
    simp only [List.all_cons, List.all_nil, hw, ha, e1, e2, e3, e4, e1', e2', e3', e4']
    rfl
  unfold convert
  rw [hc, hw, ha, e1, e2, e3, e4, e1', e2', e3', e4']
  simp only [asDict]
  rw [getCls_congr reg t1, getCls_congr reg t2, getCls_congr reg t3, getCls_congr reg t4]

example : SameTypes exCfg (fun k => if k = "a_observer" then some (.dict [("type", .str "mmrazor.MovingAverageMinMaxObserver")]) else exCfg k) := by
  refine ⟨by decide +kernel, ?_⟩
  intro k hk
  simp only [List.mem_cons, List.not_mem_nil, or_false] at hk
  rcases hk with rfl | rfl | rfl | rfl <;> exact ⟨_, _, rfl, rfl, rfl⟩

/-- DISAGREEMENT: `is_per_channel`, a documented argument of a scheme, cannot be given: it stops with
a `TypeError` whatever its value. -/
theorem C89_per_channel_fails (pc : Bool) (d : Dict) (v : PV) (h : d.lookup "is_per_channel" = some v) : handler pc d = .error .type := by
  unfold handler
  rw [h]

/-- A native quantiser is built for configurations whose activations are quantised per tensor, and
for no others. -/
theorem C89_modes (reg : String → Option String) (objs : String → Except Err Obj) (fixed : List (Obj × String)) (q : QCfg) (no : NoObs)
    (c : QConf) (hc : convert reg q = .ok c) (m : Mapping) (hm : nativeMapping objs fixed c no = .ok m) :
    native reg objs fixed q no = if "PerChannel".toList <:+: c.activation.observer.toList then .error .assertion else .ok (c, m) := by
  have hmodes : ∀ x, modesOk x true = false ∧ modesOk x false = true := by
    intro x; cases x <;> decide +kernel
  unfold native
  rw [hc]
  dsimp only
  by_cases hp : "PerChannel".toList <:+: c.activation.observer.toList
  · have hy : infixOf "PerChannel".toList c.activation.observer.toList = true := by rw [infixOf_eq]; exact decide_eq_true hp
    rw [if_pos hp, if_neg (by rw [hy, (hmodes _).1]; exact Bool.false_ne_true)]
  · have hn : infixOf "PerChannel".toList c.activation.observer.toList = false := by rw [infixOf_eq]; exact decide_eq_false hp
    rw [if_neg hp, if_pos (by rw [hn]; exact (hmodes _).2), hm]

example : ∃ m, nativeMapping (fun s => .ok (.cls s)) [(.cls "torch.nn.Sigmoid", "FixedQParamsObserver")] exConf (.many ["torch.nn.ReLU"]) = .ok m := ⟨_, rfl⟩

/-- Modules of a listed type get no observers, operations with a fixed range get the fixed one, all
others the given configuration. Partial: a listed type that has a fixed range is not left out
(`C89_no_observer_violated`). -/
theorem C89_no_observer_partial (objs : String → Except Err Obj) (fixed : List (Obj × String)) (c : QConf) (l : List String) (m : Mapping)
    (hm : nativeMapping objs fixed c (.many l) = .ok m) (os : List Obj) (ho : str2classes objs l = .ok os) (name : String) (o : Obj)
    (hf : lastOf fixed o = none) : m.find name o = some (if o ∈ os then .nothing else .conf c) := by
  unfold nativeMapping noObsClasses at hm
  dsimp only at hm
  rw [ho] at hm
  dsimp only at hm
  cases hm
  unfold Mapping.find
  obtain ⟨a1, a2, a3⟩ := fold_fixed fixed (os.foldl (fun m o => m.setType o .nothing) { glob := some (.conf c) }) o
  obtain ⟨b1, b2, b3⟩ := fold_none os { glob := some (.conf c) } o
  rw [a1, a2, a3, b1, b2, b3, hf]
  by_cases h : o ∈ os
  · rw [if_pos h, if_pos h]; rfl
  · rw [if_neg h, if_neg h]; rfl

example : lastOf [(Obj.cls "torch.nn.Sigmoid", "FixedQParamsObserver")] (.cls "torch.nn.ReLU") = none := by decide

/-- DISAGREEMENT: `no_observer_modules` has no effect on types with a fixed range (sigmoid, tanh,
softmax, …): they are quantised although they are listed. -/
theorem C89_no_observer_violated (objs : String → Except Err Obj) (fixed : List (Obj × String)) (c : QConf) (no : NoObs) (m : Mapping)
    (hm : nativeMapping objs fixed c no = .ok m) (name : String) (o : Obj) (obs : String) (hf : lastOf fixed o = some obs) :
    m.find name o = some (.fixed obs) := by
  unfold nativeMapping at hm
  cases ho : noObsClasses objs no with
  | error e => rw [ho] at hm; cases hm
  | ok os =>
    rw [ho] at hm
    dsimp only at hm
    cases hm
    unfold Mapping.find
    obtain ⟨a1, a2, a3⟩ := fold_fixed fixed (os.foldl (fun m o => m.setType o .nothing) { glob := some (.conf c) }) o
    obtain ⟨b1, b2, b3⟩ := fold_none os { glob := some (.conf c) } o
    rw [a1, a2, a3, b1, b2, b3, hf]
    rfl

example : ∃ m, nativeMapping (fun s => .ok (.cls s)) [(.cls "torch.nn.Sigmoid", "FixedQParamsObserver")] exConf (.many ["torch.nn.Sigmoid"]) = .ok m ∧
    lastOf [(Obj.cls "torch.nn.Sigmoid", "FixedQParamsObserver")] (.cls "torch.nn.Sigmoid") = some "FixedQParamsObserver" := ⟨_, rfl, by decide⟩

/-- DISAGREEMENT: a single name as `no_observer_modules` never works, although `str2class` takes single
names: it stops with an error (for a class that exists, a `TypeError`). -/
theorem C89_single_module_fails (objs : String → Except Err Obj) (fixed : List (Obj × String)) (c : QConf) (s : String) :
    (∀ m, nativeMapping objs fixed c (.one s) ≠ .ok m) ∧ ∀ o, str2class objs s = .ok o → nativeMapping objs fixed c (.one s) = .error .type := by
  unfold nativeMapping noObsClasses
  constructor
  · intro m
    dsimp only
    cases hs : str2class objs s with
    | error e => exact fun h => nomatch h
    | ok o => exact fun h => nomatch h
  · intro o ho
    dsimp only
    rw [ho]

/-- The configuration of an operation in an academic quantiser: the last entry for its name, else the
last for its type, else the global one. -/
theorem C89_academic (reg : String → Option String) (objs : String → Except Err Obj) (glob : Option QCfg) (types names : List (String × QCfg))
    (m : Mapping) (h : academicMapping reg objs glob types names = .ok m) :
    ∃ (g : Option QConf) (ts : List (Obj × QConf)) (ns : List (String × QConf)),
      (match glob with
        | none => g = none
        | some q => ∃ c, convert reg q = .ok c ∧ g = some c) ∧
      List.Forall₂ (fun p o => str2class objs p.1 = .ok o.1 ∧ convert reg p.2 = .ok o.2) types ts ∧
      List.Forall₂ (fun p o => p.1 = o.1 ∧ convert reg p.2 = .ok o.2) names ns ∧
      ∀ name o, m.find name o = (((lastOf ns name).or (lastOf ts o)).or g).map Given.conf := by
  unfold academicMapping at h
  have hg : ∀ m0, globalOf reg glob = .ok m0 → m0.types = [] ∧ m0.names = [] ∧ ∃ g : Option QConf, (match glob with
        | none => g = none
        | some q => ∃ c, convert reg q = .ok c ∧ g = some c) ∧ m0.glob = g.map Given.conf := by
    intro m0 h0
    cases glob with
    | none => cases h0; exact ⟨rfl, rfl, none, rfl, rfl⟩
    | some q =>
      unfold globalOf at h0
      dsimp only at h0
      cases hc : convert reg q with
      | error e => rw [hc] at h0; cases h0
      | ok c => rw [hc] at h0; cases h0; exact ⟨rfl, rfl, some c, ⟨c, hc, rfl⟩, rfl⟩
  cases h0 : globalOf reg glob with
  | error e => rw [h0] at h; cases h
  | ok m0 =>
    rw [h0] at h
    dsimp only at h
    obtain ⟨a1, a2, g, a3, a4⟩ := hg m0 h0
    cases h1 : addTypes reg objs types m0 with
    | error e => rw [h1] at h; cases h
    | ok m1 =>
      rw [h1] at h
      dsimp only at h
      obtain ⟨b1, b2, ts, b3, b4⟩ := addTypes_find h1
      obtain ⟨c1, c2, ns, c3, c4⟩ := addNames_find h
      refine ⟨g, ts, ns, a3, b3, c3, fun name o => ?_⟩
      unfold Mapping.find
      rw [c4, c1, c2, b4, b1, b2, a1, a2, a4]
      cases lastOf ns name with
      | some x => rfl
      | none => cases lastOf ts o with
        | some x => rfl
        | none => rfl

example : ∃ m, academicMapping exReg (fun s => .ok (.cls s)) (some exCfg) [("torch.nn.Conv2d", exCfg)] [("conv1", exCfg), ("conv1", exCfg)] = .ok m ∧
    m.find "conv1" (.cls "torch.nn.Conv2d") = some (.conf exConf) := by
  refine ⟨{ glob := some (.conf exConf), types := [(.cls "torch.nn.Conv2d", .conf exConf)], names := [("conv1", .conf exConf)] }, by decide +kernel, by decide +kernel⟩

/-- DISAGREEMENT: functions and methods, documented as keys of `object_type`, are refused with a
`TypeError`. -/
theorem C89_function_types_fails (reg : String → Option String) (objs : String → Except Err Obj) (glob : Option QCfg) (s : String) (q : QCfg)
    (rest names : List (String × QCfg)) (f : String) (hs : '.' ∈ s.toList) (ho : objs s = .ok (.fn f)) (m0 : Mapping) (hg : globalOf reg glob = .ok m0)
    (c : QConf) (hq : convert reg q = .ok c) : academicMapping reg objs glob ((s, q) :: rest) names = .error .type := by
  unfold academicMapping
  rw [hg]
  dsimp only
  rw [addTypes, hq]
  unfold str2class
  rw [if_pos (by simpa using hs), ho]

example : '.' ∈ "torch.add".toList := by decide

/-- Swapping leaves no `FloatFunctional` below the model and keeps the names of the children of every
module. Partial: for models in which no module has the same object twice among its children
(`C89_swap_shared_violated`), and up to the order (`C89_swap_order_violated`). -/
theorem C89_swap_partial (m : Mod) :
    (Plain m → Kind.floatFunctional ∉ below (swapFF m)) ∧ ((swapFF m).children.map Prod.fst).Perm (m.children.map Prod.fst) := by
  refine ⟨swap_gone m, ?_⟩
  cases m with
  | node i k t c =>
    rw [swapFF]
    show ((swapKids [] c).1 ++ (swapKids [] c).2.map fun n => (n, Mod.node none .fxFloatFunctional [] [])).map Prod.fst |>.Perm (c.map Prod.fst)
    rw [List.map_append, List.map_map]
    have : (swapKids [] c).2.map (Prod.fst ∘ fun n => (n, Mod.node none .fxFloatFunctional [] [])) = (swapKids [] c).2 := by
      rw [show (Prod.fst ∘ fun n => (n, Mod.node none .fxFloatFunctional [] [])) = id from rfl, List.map_id]
    rw [this]
    exact swapKids_names [] c

example : Plain (exBlock 1 3) ∧ below (swapFF (exBlock 1 3)) = [.other "Conv2d", .fxFloatFunctional, .fxFloatFunctional] := by
  refine ⟨?_, ?_⟩
  · unfold exBlock
    simp [Plain, PlainKids, seenBefore, see, Mod.id]
  · unfold exBlock
    simp [below, belowKids, swapFF, swapKids, seenBefore, see, Mod.id, Mod.kind]

/-- DISAGREEMENT: swapping moves the swapped modules behind all others, so that the children of a
module (and the calls of a sequential module, and the order of its state) change their order. -/
theorem C89_swap_order_violated : (swapFF (exBlock 1 3)).children.map Prod.fst = ["conv", "skip", "add"] ∧
    (exBlock 1 3).children.map Prod.fst = ["skip", "conv", "add"] := by
  refine ⟨?_, rfl⟩
  unfold exBlock
  simp [swapFF, swapKids, seenBefore, see, Mod.id, Mod.kind, Mod.children]

/-- DISAGREEMENT: a `FloatFunctional` with two names in a module is swapped under the first name
only. -/
theorem C89_swap_shared_violated : Kind.floatFunctional ∈ below (swapFF (exBlock 1 1)) := by
  unfold exBlock
  simp [below, belowKids, swapFF, swapKids, seenBefore, see, Mod.id, Mod.kind]

/-- Converting normalisation leaves no synchronised or general normalisation layer below the model.
Partial: without objects twice among the children of a module. -/
theorem C89_bn_partial (m : Mod) (h : Plain m) : Kind.syncBn ∉ below (convBN m) ∧ Kind.bnXd ∉ below (convBN m) := bn_gone m h

/-- DISAGREEMENT: converting forgets the weights and statistics: whatever a synchronised (or general)
normalisation layer has learned, it becomes a new layer. -/
theorem C89_bn_weights_violated (i : Option Nat) (k : Kind) (t : List Int) (pre post : List (String × Mod)) (n : String) (j : Option Nat) (kb : Kind)
    (hk : kb = .syncBn ∨ kb = .bnXd) (tensors : List Int) (c : List (String × Mod))
    (hp : Plain (.node i k t (pre ++ (n, .node j kb tensors c) :: post))) :
    (n, Mod.node none .bn2d fresh []) ∈ (convBN (.node i k t (pre ++ (n, .node j kb tensors c) :: post))).children := by
  rw [Plain] at hp
  rw [convBN]
  show (n, Mod.node none .bn2d fresh []) ∈ bnKids [] (pre ++ (n, .node j kb tensors c) :: post)
  generalize [] = seen at hp ⊢
  induction pre generalizing seen with
  | nil =>
    rw [List.nil_append, PlainKids] at hp
    rw [List.nil_append, bnKids, if_neg (by rw [hp.1]; decide)]
    rw [if_pos (show (Mod.node j kb tensors c).kind = .syncBn ∨ (Mod.node j kb tensors c).kind = .bnXd from hk)]
    exact List.mem_cons_self
  | cons p pre ih =>
    obtain ⟨n', m'⟩ := p
    rw [List.cons_append, PlainKids] at hp
    rw [List.cons_append, bnKids, if_neg (by rw [hp.1]; decide)]
    exact List.mem_cons_of_mem _ (ih _ hp.2.2)

example : Plain (.node (some 0) (.other "Net") [] ([("conv", .node (some 1) (.other "Conv2d") [5] [])] ++ ("bn", .node (some 2) .syncBn [3, 4] []) :: [])) := by
  simp [Plain, PlainKids, seenBefore, see, Mod.id]

/-- Models without such layers stay as they are, shared layers or not. -/
theorem C89_untouched (m : Mod) :
    (Kind.floatFunctional ∉ below m → swapFF m = m) ∧ (Kind.syncBn ∉ below m → Kind.bnXd ∉ below m → convBN m = m) :=
  ⟨swap_same m, bn_same m⟩

example : Kind.syncBn ∉ below (exBlock 1 1) ∧ Kind.bnXd ∉ below (exBlock 1 1) := by
  unfold exBlock
  simp [below, belowKids, Mod.kind]

/-- Every part of a configuration needs a type that is a registered name: no type is a `KeyError`, an unknown name an
`AttributeError`, another object a `TypeError`. -/
theorem C89_type_refused (reg : String → Option String) (d : Dict) (e : Err) :
    getCls reg d = .error e ↔ (d.lookup "type" = none ∧ e = .key) ∨ (∃ t, d.lookup "type" = some (.str t) ∧ reg t = none ∧ e = .attribute) ∨
      (∃ v, d.lookup "type" = some v ∧ (∀ t, v ≠ .str t) ∧ e = .type) := by
  unfold getCls
  generalize d.lookup "type" = q
  cases q with
  | none => simp [eq_comm (a := e)]
  | some v =>
    cases v with
    | str t => cases h : reg t <;> simp [h, eq_comm (a := e)]
    | _ => simp [eq_comm (a := e)]

end Verif.QuantCfg
