import Verif.Lemmas.CmdTools

namespace Verif.CmdTools

/-! ## Property C102 -/

/-- `--amp` ends with an error or with a configuration in which the weights are trained in mixed
precision exactly if the deciding wrapper names one of the two types it knows. Missing: a wrapper without type and the wrapper
of the mutator, see `C102_amp_ignored_violated` and `C102_amp_mutator_violated`. -/
theorem C102_amp_partial (o o' : Optim) (h : amp o = .ok o') :
    mixed o' ↔ (if o.constructor = true then ∃ w, o.architecture = some w ∧ Plain w
      else Plain o.top) := by
  obtain ⟨⟨tt, td⟩, c, a, m⟩ := o
  have htop : ∀ o1, ampTop ⟨⟨tt, td⟩, c, a, m⟩ = .ok o1 →
      o1.constructor = c ∧ o1.architecture = a ∧
        (o1.top.type = some "AmpOptimWrapper" ↔ Plain ⟨tt, td⟩) := by
    intro o1 h1
    unfold ampTop at h1
    dsimp only at h1
    cases tt with
    | none => dsimp only at h1; cases h1; exact ⟨rfl, rfl, by simp [Plain]⟩
    | some t =>
      dsimp only at h1
      by_cases e0 : t = ""
      · rw [if_pos e0] at h1; cases h1; exact ⟨rfl, rfl, by simp [Plain, e0]⟩
      rw [if_neg e0] at h1
      by_cases e1 : t = "AmpOptimWrapper"
      · rw [if_pos e1] at h1; cases h1; exact ⟨rfl, rfl, by simp [Plain, e1]⟩
      rw [if_neg e1] at h1
      by_cases e2 : t = "OptimWrapper"
      · rw [if_pos e2] at h1; cases h1; exact ⟨rfl, rfl, by simp [Plain, e2, ampWrap]⟩
      · rw [if_neg e2] at h1; cases h1
  unfold amp at h
  cases ht : ampTop ⟨⟨tt, td⟩, c, a, m⟩ with
  | error e => rw [ht] at h; cases h
  | ok o1 =>
    rw [ht] at h
    have h : ampArch o1 = .ok o' := h
    obtain ⟨hc, ha, hp⟩ := htop o1 ht
    obtain ⟨⟨t1, d1⟩, c1, a1, m1⟩ := o1
    dsimp only at hc ha hp
    subst hc ha
    unfold ampArch at h
    dsimp only at h ⊢
    cases c1 with
    | false =>
      rw [if_neg (by decide)] at h
      cases h
      simpa [mixed] using hp
    | true =>
      rw [if_pos rfl] at h
      rw [if_pos rfl]
      cases a1 with
      | none => cases h
      | some w =>
        obtain ⟨wt, wd⟩ := w
        cases wt with
        | none => cases h
        | some t =>
          dsimp only at h
          by_cases e2 : t = "OptimWrapper"
          · rw [if_pos e2] at h; cases h; simp [mixed, Plain, ampWrap, e2]
          · rw [if_neg e2] at h; cases h; simp [mixed, Plain, e2]

/-- What `--amp` makes of an ordinary wrapper: only the wrapper itself changes. -/
theorem C102_amp_wrapper (o : Optim) (h : o.top.type = some "OptimWrapper")
    (hc : o.constructor = false) :
    amp o = .ok { o with top := ⟨some "AmpOptimWrapper", true⟩ } := by
  have h1 : ampTop o = .ok { o with top := ampWrap } := by
    unfold ampTop
    rw [h]
    dsimp only
    rw [if_neg (by decide), if_neg (by decide), if_pos rfl]
  unfold amp
  rw [h1]
  show ampArch _ = _
  unfold ampArch
  dsimp only
  rw [hc, if_neg (by decide)]
  rfl

/-- What `--amp` makes of wrappers with a constructor: only the wrapper of the architecture
changes. -/
theorem C102_amp_constructor (o : Optim) (w : Wrap) (h : o.top.type = none)
    (hc : o.constructor = true) (ha : o.architecture = some w) (hw : w.type = some "OptimWrapper") :
    amp o = .ok { o with architecture := some ⟨some "AmpOptimWrapper", true⟩ } := by
  have h1 : ampTop o = .ok o := by
    unfold ampTop
    rw [h]
  unfold amp
  rw [h1]
  show ampArch _ = _
  unfold ampArch
  rw [hc, if_pos rfl, ha]
  dsimp only
  rw [hw]
  dsimp only
  rw [if_pos rfl]
  rfl

/-- DISAGREEMENT: `--amp` is silently without effect when the wrapper has no `type`, although
mmengine then builds an `OptimWrapper`, the type that `--amp` is for. -/
theorem C102_amp_ignored_violated (o : Optim) (h : o.top.type = none)
    (hc : o.constructor = false) : amp o = .ok o ∧ ¬ mixed o := by
  have h1 : ampTop o = .ok o := by
    unfold ampTop
    rw [h]
  refine ⟨?_, ?_⟩
  · unfold amp
    rw [h1]
    show ampArch _ = _
    unfold ampArch
    rw [hc, if_neg (by decide)]
  · unfold mixed
    rw [hc, if_neg (by decide), h]
    simp

/-- DISAGREEMENT: `--amp` never changes the wrapper of the mutator: a search trains the choices in
full precision, and no message says so. -/
theorem C102_amp_mutator_violated (o o' : Optim) (h : amp o = .ok o') : o'.mutator = o.mutator := by
  have htop : ∀ o1, ampTop o = .ok o1 → o1.mutator = o.mutator := by
    intro o1 h1
    unfold ampTop at h1
    cases ht : o.top.type with
    | none => rw [ht] at h1; cases h1; rfl
    | some t =>
      rw [ht] at h1
      dsimp only at h1
      by_cases e0 : t = ""
      · rw [if_pos e0] at h1; cases h1; rfl
      rw [if_neg e0] at h1
      by_cases e1 : t = "AmpOptimWrapper"
      · rw [if_pos e1] at h1; cases h1; rfl
      rw [if_neg e1] at h1
      by_cases e2 : t = "OptimWrapper"
      · rw [if_pos e2] at h1; cases h1; rfl
      · rw [if_neg e2] at h1; cases h1
  unfold amp at h
  cases ht : ampTop o with
  | error e => rw [ht] at h; cases h
  | ok o1 =>
    rw [ht] at h
    have h : ampArch o1 = .ok o' := h
    rw [← htop o1 ht]
    unfold ampArch at h
    by_cases hc : o1.constructor = true
    · rw [if_pos hc] at h
      cases ha : o1.architecture with
      | none => rw [ha] at h; cases h
      | some w =>
        rw [ha] at h
        dsimp only at h
        cases hw : w.type with
        | none => rw [hw] at h; cases h
        | some t =>
          rw [hw] at h
          dsimp only at h
          by_cases e2 : t = "OptimWrapper"
          · rw [if_pos e2] at h; cases h; rfl
          · rw [if_neg e2] at h; cases h; rfl
    · rw [if_neg hc] at h; cases h; rfl

/-- Any other type of wrapper makes `--amp` stop the run. -/
theorem C102_amp_refused (o : Optim) (t : String) (h : o.top.type = some t) (h0 : t ≠ "")
    (h1 : t ≠ "OptimWrapper") (h2 : t ≠ "AmpOptimWrapper") : amp o = .error .assertion := by
  have e : ampTop o = .error .assertion := by
    unfold ampTop
    rw [h]
    dsimp only
    rw [if_neg h0, if_neg h2, if_neg h1]
  unfold amp
  rw [e]
  rfl

/-- A wrapper of a search: mixed precision for the weights only. -/
example : amp ⟨⟨none, false⟩, true, some ⟨some "OptimWrapper", false⟩, some ⟨some "OptimWrapper", false⟩⟩
    = .ok ⟨⟨none, false⟩, true, some ⟨some "AmpOptimWrapper", true⟩, some ⟨some "OptimWrapper", false⟩⟩ := by
  rfl

/-- The configuration a training starts from: the directory of the command line, else that of the
configuration, else one named after the configuration file; without the flags the optimizer and the
scaling of the learning rate stay as they are. -/
theorem C102_settings (a : TrainArgs) (c c' : RunCfg) (h : trainCfg a c = .ok c') :
    (∀ d, a.workDir = some d → c'.workDir = some d) ∧
    (∀ d, a.workDir = none → c.workDir = some d → c'.workDir = some d) ∧
    (∀ dir s e, ∀ k : Char, a.workDir = none → c.workDir = none →
      a.config = dir ++ '/' :: (k :: s ++ '.' :: e) → '/' ∉ (k :: s ++ '.' :: e) → k ≠ '.' →
      '.' ∉ e → c'.workDir = some ("./work_dirs/".toList ++ k :: s)) ∧
    (a.amp = false → c'.optim = c.optim) ∧ (a.autoScale = false → c'.scale = c.scale) ∧
    c'.loadFrom = c.loadFrom := by
  unfold trainCfg at h
  cases h1 : ampIf a.amp c.optim with
  | error e => rw [h1] at h; cases h
  | ok o =>
    rw [h1] at h
    dsimp only at h
    cases h2 : scaleIf a.autoScale c.scale with
    | error e => rw [h2] at h; cases h
    | ok s =>
      rw [h2] at h
      cases h
      refine ⟨?_, ?_, ?_, ?_, ?_, rfl⟩
      · intro d hd
        show some (workDir _ _ _) = _
        rw [hd]; rfl
      · intro d hn hd
        show some (workDir _ _ _) = _
        rw [hn, hd]; rfl
      · intro dir s e k hn hd hcfg hslash hk he
        show some (workDir _ _ _) = _
        rw [hn, hd, hcfg]
        unfold workDir
        dsimp only
        rw [basename_slash hslash, stem_dot hk he]
      · intro hf
        rw [hf] at h1
        cases h1; rfl
      · intro hf
        rw [hf] at h2
        cases h2; rfl

/-- `--auto-scale-lr` needs both keys and then switches the scaling on. -/
theorem C102_auto_scale (a : TrainArgs) (c : RunCfg) (ha : a.amp = false)
    (hs : a.autoScale = true) :
    (∀ e b, c.scale = some ⟨some e, some b⟩ →
      ∃ c', trainCfg a c = .ok c' ∧ c'.scale = some ⟨some true, some b⟩) ∧
    ((∀ e b, c.scale ≠ some ⟨some e, some b⟩) → trainCfg a c = .error .runtime) := by
  refine ⟨?_, ?_⟩
  · intro e b h
    unfold trainCfg
    rw [ha, hs, h]
    exact ⟨_, rfl, rfl⟩
  · intro h
    have key : autoScale c.scale = .error .runtime := by
      cases hc : c.scale with
      | none => rfl
      | some s =>
        obtain ⟨e, b⟩ := s
        cases e with
        | none => rfl
        | some e =>
          cases b with
          | none => rfl
          | some b => exact absurd hc (h e b)
    have : scaleIf a.autoScale c.scale = .error .runtime := by
      rw [hs]; exact key
    unfold trainCfg
    rw [ha, this]
    rfl

/-- DISAGREEMENT: `resume = True` of the configuration (or of `--cfg-options`) is lost: without
`--resume` every run starts from the beginning. -/
theorem C102_resume_violated (a : TrainArgs) (c c' : RunCfg) (ha : a.resume = false)
    (hc : c.resume = true) (h : trainCfg a c = .ok c') : c'.resume ≠ c.resume := by
  unfold trainCfg at h
  cases h1 : ampIf a.amp c.optim with
  | error e => rw [h1] at h; cases h
  | ok o =>
    rw [h1] at h
    dsimp only at h
    cases h2 : scaleIf a.autoScale c.scale with
    | error e => rw [h2] at h; cases h
    | ok s =>
      rw [h2] at h
      cases h
      show a.resume ≠ _
      rw [ha, hc]
      decide

/-- With `--resume` the run resumes. -/
theorem C102_resume (a : TrainArgs) (c c' : RunCfg) (ha : a.resume = true)
    (h : trainCfg a c = .ok c') : c'.resume = true := by
  unfold trainCfg at h
  cases h1 : ampIf a.amp c.optim with
  | error e => rw [h1] at h; cases h
  | ok o =>
    rw [h1] at h
    dsimp only at h
    cases h2 : scaleIf a.autoScale c.scale with
    | error e => rw [h2] at h; cases h
    | ok s =>
      rw [h2] at h
      cases h
      exact ha

/-- A run of `configs/a.py` with nothing set; `resume` of the configuration is lost. -/
example : trainCfg ⟨"configs/a.py".toList, none, false, false, false⟩
    ⟨none, ⟨⟨some "OptimWrapper", false⟩, false, none, none⟩, none, true, none⟩
    = .ok ⟨some "./work_dirs/a".toList, ⟨⟨some "OptimWrapper", false⟩, false, none, none⟩, none,
        false, none⟩ := by
  rfl

/-- A test uses the checkpoint of the command line; `none` stands for no checkpoint and drops the
one of the configuration.  Only loops for quantisation after training are told to evaluate only. -/
theorem C102_test (k : List Char) (t : TestCfg) :
    (k = "none".toList → testCfg k t = (none, t)) ∧
    (k ≠ "none".toList → (testCfg k t).1 = some k ∧
      (∀ p, t.type = some (p ++ "PTQLoop".toList) → (testCfg k t).2 = { t with onlyVal := true }) ∧
      ((∀ p, t.type ≠ some (p ++ "PTQLoop".toList)) → (testCfg k t).2 = t)) := by
  refine ⟨fun h => by unfold testCfg; rw [if_pos h], fun h => ?_⟩
  unfold testCfg
  rw [if_neg h]
  cases ht : t.type with
  | none => exact ⟨rfl, by simp, fun _ => rfl⟩
  | some n =>
    dsimp only
    by_cases hs : "PTQLoop".toList.isSuffixOf n = true
    · rw [if_pos hs]
      refine ⟨rfl, fun _ _ => rfl, fun hp => ?_⟩
      obtain ⟨p, hp'⟩ := List.isSuffixOf_iff_suffix.1 hs
      exact absurd (by rw [hp']) (hp p)
    · rw [if_neg hs]
      refine ⟨rfl, fun p hp => ?_, fun _ => rfl⟩
      exfalso
      apply hs
      rw [List.isSuffixOf_iff_suffix]
      injection hp with hp
      exact ⟨p, hp.symm⟩

example : testCfg "a.pth".toList ⟨some "mmrazor.PTQLoop".toList, false⟩
    = (some "a.pth".toList, ⟨some "mmrazor.PTQLoop".toList, true⟩) := by
  decide +kernel

/-- DISAGREEMENT: the conversion of a supernet checkpoint never reads the checkpoint: the saved
subnet is cut out of the initial weights, whatever the checkpoint holds. -/
theorem C102_subnet_violated {W : Type} (slice : W → W) (init k k' : W) :
    toSubnet slice init k = toSubnet slice init k' ∧ toSubnet slice init k = slice init ∧
    (slice k ≠ slice init → toSubnet slice init k ≠ slice k) :=
  ⟨rfl, rfl, fun h h' => h h'.symm⟩

/-- A test, in contrast, uses the weights of its checkpoint. -/
theorem C102_tested {W : Type} (init k : W) :
    tested init (some k) = k ∧ tested init none = init := ⟨rfl, rfl⟩

example : toSubnet (fun w : List Nat => w.take 1) [0, 0] [5, 6] = [0] ∧
    tested [0, 0] (some [5, 6]) = [5, 6] := by decide

/-- DISAGREEMENT: two conversions within one minute write the same file. -/
theorem C102_minute_violated (m s s' : Nat) (h : s < 60) (h' : s' < 60) :
    subnetName (60 * m + s) = subnetName (60 * m + s') := by
  unfold subnetName
  omega

/-- Conversions a minute or more apart write different files. Missing: conversions within a minute, see `C102_minute_violated`. -/
theorem C102_minute_partial (t t' : Nat) (h : t + 60 ≤ t') : subnetName t ≠ subnetName t' := by
  unfold subnetName
  omega

/-- DISAGREEMENT: the name of a static model ends at the first dot of the name of its checkpoint:
`net_0.5.pth` and `net_0.75.pth` overwrite each other. -/
theorem C102_static_violated (c d d' s e e' t : List Char) (hs : '.' ∉ s) (h0 : '/' ∉ s)
    (h1 : '/' ∉ e) (h2 : '/' ∉ e') :
    staticPaths c (d ++ '/' :: (s ++ '.' :: e)) t = staticPaths c (d' ++ '/' :: (s ++ '.' :: e')) t := by
  have g : ∀ x : List Char, '/' ∉ x → '/' ∉ s ++ '.' :: x := by
    intro x hx
    simp [h0, hx]
  unfold staticPaths
  rw [basename_slash (g e h1), basename_slash (g e' h2), firstPart_dot hs, firstPart_dot hs]

/-- Checkpoints whose names differ before the first dot get different files, in the given
directory. Missing: names that differ only after the first dot, see `C102_static_violated`. -/
theorem C102_static_partial (c d d' s s' e e' t : List Char) (ht : t ≠ []) (hs : '.' ∉ s)
    (hs' : '.' ∉ s') (h0 : '/' ∉ s) (h0' : '/' ∉ s') (h1 : '/' ∉ e) (h2 : '/' ∉ e') :
    staticPaths c (d ++ '/' :: (s ++ '.' :: e)) t
      = (t, s ++ "_pruned.pth".toList, s ++ "_pruned.json".toList) ∧
    (s ≠ s' → (staticPaths c (d ++ '/' :: (s ++ '.' :: e)) t).2.1
      ≠ (staticPaths c (d' ++ '/' :: (s' ++ '.' :: e')) t).2.1) := by
  have key : ∀ d s e : List Char, '.' ∉ s → '/' ∉ s → '/' ∉ e →
      staticPaths c (d ++ '/' :: (s ++ '.' :: e)) t
        = (t, s ++ "_pruned.pth".toList, s ++ "_pruned.json".toList) := by
    intro d s e a b f
    unfold staticPaths
    rw [basename_slash (by simp [b, f]), firstPart_dot a, if_pos ht]
    dsimp only
    rw [List.append_assoc, List.append_assoc]
    rfl
  refine ⟨key d s e hs h0 h1, fun h he => h ?_⟩
  rw [key d s e hs h0 h1, key d' s' e' hs' h0' h2] at he
  exact List.append_cancel_right he

example : staticPaths "c.py".toList "w/net_0.5.pth".toList "out".toList
    = staticPaths "c.py".toList "w/net_0.75.pth".toList "out".toList := by decide +kernel

/-- The choices written for pruning: the current ones without a subnet, the given ones if all of
them can be set. Missing: choices some of which cannot be set, see `C102_target_violated`. -/
theorem C102_target_partial {V : Type} (accept : String → V → Bool) (u : Units V)
    (cs : List (String × V)) (h : Settable accept u cs) :
    pruneTarget accept u none = u ∧ pruneTarget accept u (some cs) = cs := by
  refine ⟨rfl, ?_⟩
  have := setChoices_append h []
  rw [List.append_nil] at this
  unfold pruneTarget
  dsimp only
  rw [this]
  rfl

/-- One choice is set, or refused: an unknown name is a `KeyError`, a value the unit does not take an `AssertionError`. -/
theorem C102_choice {V : Type} (accept : String → V → Bool) (u : Units V) (n : String) (v : V) :
    (∀ e, setOne accept u n v = .error e ↔
      (n ∉ u.map Prod.fst ∧ e = .key) ∨ (n ∈ u.map Prod.fst ∧ accept n v = false ∧ e = .assertion)) ∧
    ∀ u', setOne accept u n v = .ok u' → n ∈ u.map Prod.fst ∧ accept n v = true ∧ u'.map Prod.fst = u.map Prod.fst ∧
      (∀ p ∈ u', p.1 = n → p.2 = v) ∧ ∀ p ∈ u, p.1 ≠ n → p ∈ u' := by
  have hany : (u.any (fun p => p.1 == n) = true) ↔ n ∈ u.map Prod.fst := by
    rw [List.any_eq_true, List.mem_map]
    simp
  unfold setOne
  by_cases h : n ∈ u.map Prod.fst
  · rw [if_pos (hany.2 h)]
    cases ha : accept n v with
    | true =>
      rw [if_pos rfl]
      refine ⟨fun e => by simp [h], ?_⟩
      intro u' hu
      simp only [Except.ok.injEq] at hu
      subst hu
      refine ⟨h, rfl, ?_, ?_, ?_⟩
      · rw [List.map_map]
        refine List.map_congr_left fun p _ => ?_
        by_cases hp : p.1 = n <;> simp [hp]
      · intro p hp hpn
        obtain ⟨q, _, rfl⟩ := List.mem_map.1 hp
        by_cases hq : q.1 = n
        · simp [hq]
        · simp [hq] at hpn
      · intro p hp hpn
        exact List.mem_map.2 ⟨p, hp, by simp [hpn]⟩
    | false =>
      rw [if_neg (by simp)]
      refine ⟨fun e => by simp [h, eq_comm], fun u' hu => by cases hu⟩
  · rw [if_neg (fun hc => h (hany.1 hc))]
    refine ⟨fun e => ?_, fun u' hu => by cases hu⟩
    constructor
    · intro he
      cases he
      exact Or.inl ⟨h, rfl⟩
    · rintro (⟨_, rfl⟩ | ⟨hc, _⟩)
      · rfl
      · exact absurd hc h

example : setOne (fun _ v => decide (v ≤ 8)) [("a", 8), ("b", 8)] "a" 9 = .error .assertion ∧
    setOne (fun _ v => decide (v ≤ 8)) [("a", 8), ("b", 8)] "c" 4 = .error .key := by decide +kernel

/-- DISAGREEMENT: when one of the given choices cannot be set, the configuration should fall back
to the choices of the model, but it gets those choices with all earlier given ones put in. -/
theorem C102_target_violated {V : Type} (accept : String → V → Bool) (u : Units V)
    (good rest : List (String × V)) (n : String) (v : V) (h : Settable accept u good)
    (hn : ¬ (n ∈ u.map Prod.fst ∧ accept n v = true)) :
    pruneTarget accept u (some (good ++ (n, v) :: rest)) = assign u good := by
  have e1 := setChoices_append h ((n, v) :: rest)
  obtain ⟨e, he⟩ := setOne_error (u := assign u good) (accept := accept) (n := n) (v := v)
    (by rw [assign_names]; exact hn)
  rw [setChoices, he] at e1
  unfold pruneTarget
  dsimp only
  rw [e1]

/-- Two units; the second given name is unknown, the first choice stays. -/
example : pruneTarget (fun _ v => decide (v ≤ 8)) [("a", 8), ("b", 8)] (some [("a", 4), ("c", 4)])
    = [("a", 4), ("b", 8)] := by decide +kernel

/-- The configuration for pruning: the checkpoint goes to the architecture, and so does the
preprocessor, which is removed from where it was; everything else of the model stays. -/
theorem C102_wrap {D R : Type} (c : PruneCfg D R) (k : Option (List Char)) :
    (wrapPrune c k).model.rest = c.model.rest ∧
    (wrapPrune c k).model.init = k.or c.model.init ∧
    (∀ d, c.preprocessor = some (some d) →
      (wrapPrune c k).model.preprocessor = some d ∧ (wrapPrune c k).preprocessor = some none) ∧
    (c.preprocessor = none → (wrapPrune c k).model.preprocessor = c.model.preprocessor ∧
      (wrapPrune c k).preprocessor = none) := by
  obtain ⟨⟨i, p, r⟩, d⟩ := c
  cases k <;> cases d <;> simp [wrapPrune]

/-- DISAGREEMENT: a configuration that holds `data_preprocessor = None`, as the tool itself writes
it, takes away the preprocessor of the model: applying the tool to its own output loses it. -/
theorem C102_wrap_violated {D R : Type} (c : PruneCfg D R) (k k' : Option (List Char)) (d : D)
    (h : c.preprocessor = some (some d)) :
    (wrapPrune c k).model.preprocessor = some d ∧
    (wrapPrune (wrapPrune c k) k').model.preprocessor = none := by
  obtain ⟨⟨i, p, r⟩, d'⟩ := c
  dsimp only at h
  subst h
  cases k <;> cases k' <;> simp [wrapPrune]

example : wrapPrune ⟨⟨none, none, 7⟩, some (some 3)⟩ (some "k".toList)
    = ⟨⟨some "k".toList, some 3, 7⟩, some none⟩ := by decide +kernel

/-- The published checkpoint: every entry except the three that are left out, in order. -/
theorem C102_strip {V : Type} (c : List (String × V)) :
    (strip c).Sublist c ∧ ∀ p ∈ c, (p ∈ strip c ↔
      p.1 ≠ "optimizer" ∧ p.1 ≠ "message_hub" ∧ p.1 ≠ "param_schedulers") := by
  refine ⟨List.filter_sublist, fun p hp => ?_⟩
  unfold strip dropped
  rw [List.mem_filter]
  simp [hp]

/-- Publication with log and record of the run: three files with one base name are added and all
other files stay; without the log or the record it ends with an error. -/
theorem C102_publish {V : Type} (tag : List (String × V) → String) (name stamp l j : String)
    (c : List (String × V)) (out : Files V) :
    ∃ base, publish tag name stamp c (some l) (some j) out
      = ([(base ++ ".json", .text j), (base ++ ".log", .text l),
          (base ++ ".pth", .checkpoint (strip c))] ++ out, none) ∧
      base = name ++ "_" ++ stamp ++ "-" ++ tag (strip c) :=
  ⟨name ++ "_" ++ stamp ++ "-" ++ tag (strip c), rfl, rfl⟩

/-- DISAGREEMENT: if the log of the run is missing, the tool ends with an error although the
checkpoint has already been published, and stays. -/
theorem C102_publish_violated {V : Type} (tag : List (String × V) → String) (name stamp : String)
    (c : List (String × V)) (json : Option String) (out : Files V) :
    ∃ e, publish tag name stamp c none json out
      = ((name ++ "_" ++ stamp ++ "-" ++ tag (strip c) ++ ".pth", .checkpoint (strip c)) :: out,
          some e) :=
  ⟨.value, rfl⟩

example : publish (fun _ => "01234567") "net" "2026" [("state_dict", 1), ("optimizer", 2)] none none []
    = ([("net_2026-01234567.pth", .checkpoint [("state_dict", 1)])], some .value) := by
  decide +kernel

/-- The drawn curve has the iterations of the training if the total batch divides the dataset. Missing: other batches, see
`C102_curve_violated`. -/
theorem C102_curve_partial (batch ngpus built : Nat) (hb : 0 < batch) (hg : 0 < ngpus)
    (h : batch * ngpus ∣ built) :
    simIters batch ngpus true none built = .ok (realIters batch ngpus built) := by
  have hm : 0 < batch * ngpus := Nat.mul_pos hb hg
  rw [ceil_ceil hb hg]
  unfold simIters
  dsimp only
  rw [if_pos rfl, if_neg (by omega)]
  obtain ⟨k, rfl⟩ := h
  congr 1
  have : batch * ngpus * k + batch * ngpus - 1 = (batch * ngpus - 1) + batch * ngpus * k := by omega
  rw [this, Nat.add_mul_div_left _ _ hm, Nat.mul_div_cancel_left _ hm,
    Nat.div_eq_of_lt (by omega : batch * ngpus - 1 < batch * ngpus), Nat.zero_add]

/-- DISAGREEMENT: whenever the total batch does not divide the dataset, an epoch of the drawn curve
is one iteration shorter than an epoch of the training. -/
theorem C102_curve_violated (batch ngpus built : Nat) (hb : 0 < batch) (hg : 0 < ngpus)
    (h : ¬ batch * ngpus ∣ built) :
    ∃ n, simIters batch ngpus true none built = .ok n ∧ n + 1 = realIters batch ngpus built := by
  have hm : 0 < batch * ngpus := Nat.mul_pos hb hg
  rw [ceil_ceil hb hg]
  refine ⟨built / (batch * ngpus), ?_, ?_⟩
  · unfold simIters
    dsimp only
    rw [if_pos rfl, if_neg (by omega)]
  · generalize batch * ngpus = m at h hm ⊢
    have h1 := Nat.div_add_mod built m
    have h2 := Nat.mod_lt built hm
    have h3 : built % m ≠ 0 := fun e => h (Nat.dvd_of_mod_eq_zero e)
    have h4 : built + m - 1 = (built % m - 1) + m * (built / m + 1) := by
      rw [Nat.mul_add, Nat.mul_one]
      omega
    have h5 : built % m - 1 < m := by omega
    rw [h4, Nat.add_mul_div_left _ _ hm, Nat.div_eq_of_lt h5, Nat.zero_add]

/-- DISAGREEMENT: a training loop of another type, such as the loops of this repository that count
epochs, is taken to count iterations, and the curve has one iteration per epoch whatever the
dataset. -/
theorem C102_curve_loop_violated (t : String) (batch ngpus built : Nat) (hb : 0 < batch)
    (hg : 0 < ngpus) (ht : t ≠ "EpochBasedTrainLoop") :
    byEpoch ⟨none, some t⟩ = .ok false ∧ simIters batch ngpus false none built = .ok 1 := by
  have hm : 0 < batch * ngpus := Nat.mul_pos hb hg
  refine ⟨?_, ?_⟩
  · unfold byEpoch
    dsimp only
    congr 1
    simpa using ht
  · unfold simIters
    dsimp only
    rw [if_neg (by omega : ¬ batch * ngpus = 0)]
    simp [Nat.div_self hm]

/-- How it is decided whether the training counts epochs. -/
theorem C102_by_epoch (b : Bool) (t : Option String) :
    byEpoch ⟨some b, t⟩ = .ok b ∧ byEpoch ⟨none, some "EpochBasedTrainLoop"⟩ = .ok true ∧
    byEpoch ⟨none, none⟩ = .error .value := ⟨rfl, by decide +kernel, rfl⟩

/-- A given size of the dataset replaces the real one. -/
theorem C102_curve_size (batch ngpus s built : Nat) (e : Bool) (hb : 0 < batch) (hg : 0 < ngpus)
    (hs : 0 < s) :
    simIters batch ngpus e (some s) built = .ok (s / (batch * ngpus)) := by
  have hm : 0 < batch * ngpus := Nat.mul_pos hb hg
  unfold simIters
  dsimp only
  rw [if_neg (by omega), if_neg (by omega)]

example : simIters 32 2 true none 100 = .ok 1 ∧ realIters 32 2 100 = 2 := by decide +kernel

/-- The drawings: the `i`-th entries of the two mappings are paired whatever their names, and within
a pair the `k`-th feature maps; entries of the longer mapping are left out. -/
theorem C102_drawings {F : Type} (m1 m2 : List (String × List F)) (n1 n2 : String) (k : Nat)
    (f1 f2 : F) :
    ((n1, n2, k), f1, f2) ∈ drawings m1 m2 ↔
      ∃ i : Nat, ∃ l1 l2, m1[i]? = some (n1, l1) ∧ m2[i]? = some (n2, l2) ∧
        l1[k]? = some f1 ∧ l2[k]? = some f2 := by
  unfold drawings
  rw [List.mem_flatMap]
  constructor
  · rintro ⟨⟨⟨a, l1⟩, ⟨b, l2⟩⟩, hp, hq⟩
    obtain ⟨⟨⟨x, y⟩, j⟩, hj, he⟩ := List.mem_map.1 hq
    simp only [Prod.mk.injEq] at he
    obtain ⟨⟨rfl, rfl, rfl⟩, rfl, rfl⟩ := he
    obtain ⟨i, hi⟩ := List.mem_iff_getElem?.1 hp
    obtain ⟨h1, h2⟩ := List.getElem?_zip_eq_some.1 hi
    have hz := List.mem_zipIdx_iff_getElem?.1 hj
    obtain ⟨h3, h4⟩ := List.getElem?_zip_eq_some.1 hz
    exact ⟨i, l1, l2, h1, h2, h3, h4⟩
  · rintro ⟨i, l1, l2, h1, h2, h3, h4⟩
    refine ⟨((n1, l1), (n2, l2)), ?_, ?_⟩
    · exact List.mem_iff_getElem?.2 ⟨i, List.getElem?_zip_eq_some.2 ⟨h1, h2⟩⟩
    · refine List.mem_map.2 ⟨((f1, f2), k), ?_, rfl⟩
      exact List.mem_zipIdx_iff_getElem?.2 (List.getElem?_zip_eq_some.2 ⟨h3, h4⟩)

/-- DISAGREEMENT: all drawings are written to the one output file: only the last is left. -/
theorem C102_out_file_violated {F : Type} (ds : List ((String × String × Nat) × F × F))
    (d : (String × String × Nat) × F × F) : outFile (ds ++ [d]) = some d := by
  unfold outFile
  rw [foldl_last]
  simp

example : drawings [("a", [1, 2]), ("b", [3])] [("x", [4]), ("y", [5]), ("z", [6])]
    = [(("a", "x", 0), 1, 4), (("b", "y", 0), 3, 5)] ∧
    outFile (drawings [("a", [1, 2]), ("b", [3])] [("x", [4]), ("y", [5]), ("z", [6])])
      = some (("b", "y", 0), 3, 5) := by decide +kernel

/-- The function found in a module: the last of the names, in order, that holds the word. -/
theorem C102_pick (word n : List Char) (l r : List (List Char))
    (hn : ∃ a b, n = a ++ word ++ b) (hr : ∀ m ∈ r, ¬ ∃ a b, m = a ++ word ++ b) :
    pick word (l ++ n :: r) = some n ∧ pick word r = none := by
  have key : ∀ m : List Char, occurs word m = true ↔ ∃ a b, m = a ++ word ++ b := by
    intro m
    induction m with
    | nil =>
      rw [occurs]
      constructor
      · intro h
        exact ⟨[], [], by simpa using (List.isEmpty_iff.1 h).symm⟩
      · rintro ⟨a, b, h⟩
        have h := h.symm
        rw [List.append_eq_nil_iff, List.append_eq_nil_iff] at h
        rw [h.1.2]; rfl
    | cons c m ih =>
      rw [occurs, Bool.or_eq_true, ih, List.isPrefixOf_iff_prefix]
      constructor
      · rintro (⟨b, hb⟩ | ⟨a, b, h⟩)
        · exact ⟨[], b, by simpa using hb.symm⟩
        · exact ⟨c :: a, b, by rw [h]; simp⟩
      · rintro ⟨a, b, h⟩
        cases a with
        | nil => exact Or.inl ⟨b, by simpa using h.symm⟩
        | cons x a =>
          right
          rw [List.cons_append, List.cons_append] at h
          injection h with _ h
          exact ⟨a, b, h⟩
  have hr' : ∀ m ∈ r, occurs word m = false := by
    intro m hm
    cases ho : occurs word m with
    | false => rfl
    | true => exact absurd ((key m).1 ho) (hr m hm)
  unfold pick
  refine ⟨?_, pick_none _ hr'⟩
  rw [List.foldl_append, List.foldl_cons, if_pos ((key n).2 hn), pick_none _ hr']

/-- Of two functions for inference the later name is taken. -/
example : pick "inference_".toList ["inference_detector".toList, "inference_segmentor".toList,
    "init_model".toList] = some "inference_segmentor".toList := by decide +kernel

/-- The errors of `--amp` when a constructor is given: an architecture without a wrapper or a wrapper without type. -/
theorem C102_amp_architecture (o : Optim) (hc : o.constructor = true) :
    (∃ e, ampArch o = .error e) ↔ ∀ w, o.architecture = some w → w.type = none := by
  unfold ampArch
  rw [if_pos hc]
  cases h : o.architecture with
  | none => simp
  | some w =>
    cases h1 : w.type with
    | none => simp [h1]
    | some t => by_cases h2 : t = "OptimWrapper" <;> simp [h1, h2]

/-- … and they are always an `AttributeError`. -/
theorem C102_amp_attribute (o : Optim) (e : Err) (h : ampArch o = .error e) : e = .attribute := by
  unfold ampArch at h
  split at h
  · split at h
    · simpa using h.symm
    · split at h
      · simpa using h.symm
      · split at h <;> simp at h
  · simp at h

/-- The simulation of schedules divides by the total batch size: no batch or no process is a `ZeroDivisionError`, else it succeeds. -/
theorem C102_sim_zero (batch ngpus : Nat) (byEpoch : Bool) (size : Option Nat) (built : Nat) :
    (simIters batch ngpus byEpoch size built = .error .zeroDivision ↔ batch = 0 ∨ ngpus = 0) ∧
    ((∃ n, simIters batch ngpus byEpoch size built = .ok n) ↔ 0 < batch ∧ 0 < ngpus) := by
  unfold simIters
  by_cases h : batch * ngpus = 0
  · have h' := Nat.mul_eq_zero.1 h
    simp [h, h']
    omega
  · have h1 : batch ≠ 0 := fun e => h (by simp [e])
    have h2 : ngpus ≠ 0 := fun e => h (by simp [e])
    simp [h1, h2]
    omega

example : simIters 0 8 true none 100 = .error .zeroDivision ∧ simIters 4 8 true none 100 = .ok 3 ∧
    ampArch ⟨⟨none, false⟩, true, some ⟨none, false⟩, none⟩ = .error .attribute := ⟨by rfl, by rfl, by rfl⟩

end Verif.CmdTools
