import Verif.Lemmas.MutatorCfg

namespace Verif.MutatorCfg
open Verif

variable {C : Type}

/-! ## Property C88 -/

/-- The units that a mutator writes down with their arguments and channels are built again from that
configuration, without tracing (or with `from_cfg`): the same names, arguments, channels and choices,
whether the configuration is a dictionary or a file, and whatever the model's trace is.
Partial: the choices must be accepted, read back unchanged and kept by the preparation
(`C88_choice_lost_violated`). -/
theorem C88_round_trip_partial (cls : Cls C) (d : Args) (us : List (Unit' C)) (hu : ∀ u ∈ us, Ready cls d u) (same : Bool)
    (ts : List Traced) (p : Parse) (hp : p = .config ∨ p = .analyzer true) :
    (prepare cls d (template true true us) same ts p).2 = .ok (us.map fun u => { u with name := some u.fullName }) ∧
    (us.map fun u => ({ u with name := some u.fullName } : Unit' C)).map Unit'.fullName = us.map Unit'.fullName := by
  have key : ∀ traced, fromCfg cls d (template true true us) same traced (template true true us) =
      .ok (us.map fun u => { u with name := some u.fullName }) := by
    intro traced
    exact fromCfg_all (g := fun u => ⟨some u.args, some (u.ins.map Chan.template, u.outs.map Chan.template), some u.choice⟩)
      fun u h => ready_one (hu u h) _ _ _
  constructor
  · have keep : (us.map fun u => ({ u with name := some u.fullName } : Unit' C)).map (fun u => { u with choice := cls.prepared u.args u.choice }) =
        us.map fun u => { u with name := some u.fullName } := by
      apply keep_map
      intro u h
      obtain ⟨v, hv, rfl⟩ := List.mem_map.1 h
      exact (hu v hv).kept
    rcases hp with rfl | rfl
    · unfold prepare
      dsimp only
      rw [key, pruneAll, keep]
    · unfold prepare
      dsimp only
      rw [key, pruneAll, keep]
  · rw [List.map_map]
    rfl

example : Ready seqCls [("divisor", .num 4)] exUnit ∧ exUnit.fullName = "conv1_(0, 8)_8" := by
  refine ⟨⟨?_, ?_, ?_, ?_, rfl, rfl⟩, ?_⟩ <;> decide +kernel

example : Lawful seqCls ∧ Lawful (oneShotCls [50, 100] 100) :=
  ⟨signature_lawful (ps := seqParams) (by decide) (by decide) _ rfl, signature_lawful (ps := oneShotParams) (by decide) (by decide) _ rfl⟩

/-- A template with the choices only (the default of the method), possibly of some of the units, is
enough together with the trace and `from_cfg`: exactly the listed units are built, with the default
arguments, the traced channels and the written choices. Partial: the choices must be accepted and
kept, and the units must have been made with the default arguments. -/
theorem C88_choices_with_trace_partial (cls : Cls C) (hl : Lawful cls) (d : Args) (ts : List Traced) (hn : (ts.map Traced.name).Nodup)
    (us : List (Unit' C)) (hu : ∀ u ∈ us, ∃ t ∈ ts, ∃ u0, convert cls d [] t = .ok u0 ∧ u = { u0 with choice := u.choice })
    (hset : ∀ u ∈ us, cls.set u.args u.choice = .ok u.choice) (hkept : ∀ u ∈ us, cls.prepared u.args u.choice = u.choice) (same : Bool) :
    (prepare cls d (template false false us) same ts (.analyzer true)).2 = .ok us := by
  have key : fromCfg cls d (template false false us) same (some (ts.map fun t => (t.name, t))) (template false false us) = .ok (us.map id) := by
    refine fromCfg_all (g := fun u => ⟨none, none, some u.choice⟩) fun u h => ?_
    obtain ⟨t, ht, u0, h0, he⟩ := hu u h
    have hname : u.fullName = t.name := by
      rw [he]; exact (convert_name hl h0).1
    have hargs : u.args = u0.args := by rw [he]
    unfold fromCfgOne
    dsimp only [Option.getD_none]
    rw [hname, traced_lookup hn ht, merge_nil]
    dsimp only
    have hc : convert cls d (if same = true then (t.name, (⟨some d, none, some u.choice⟩ : UnitCfg C)) :: template false false us
        else template false false us) t = .ok u0 := by
      cases same
      · rw [if_neg (by decide)]
        rw [← h0]; exact convert_template
      · rw [if_pos rfl, convert_defaults, h0]
    rw [hc]
    dsimp only [setChoice]
    rw [← hargs, hset u h]
    dsimp only
    rw [hargs]
    exact congrArg Except.ok he.symm
  unfold prepare
  dsimp only
  rw [key, List.map_id, pruneAll, keep_map hkept]

example : ∃ u0, convert seqCls [("divisor", .num 2)] [] exTraced = .ok u0 ∧ exUnit = { u0 with choice := exUnit.choice } :=
  ⟨{ exUnit with choice := 8 }, by rfl, rfl⟩

/-- DISAGREEMENT: the choices in the configuration of the units are not used when the units are
traced (the usual way, without `from_cfg`): for a mutator made by tracing, whatever choices its units
are given, a mutator made by tracing from the written configuration has the same arguments, but all
its units have the choice of new units. -/
theorem C88_traced_choice_violated (cls : Cls C) (hl : Lawful cls) (d : Args) (ts : List Traced) (hn : (ts.map Traced.name).Nodup)
    (us : List (Unit' C)) (h : fromTracer cls d [] ts = .ok us) (choice : Unit' C → C) (ch same : Bool) :
    (prepare cls d (template true ch (us.map fun u => { u with choice := choice u })) same ts (.analyzer false)).2 =
      .ok (us.map fun u => { u with choice := cls.prepared u.args (cls.start u.args) }) := by
  have hall := fromTracer_all h
  have hnames : us.map Unit'.fullName = ts.map Traced.name := by
    clear h hn
    induction hall with
    | nil => rfl
    | cons h1 _ ih => rw [List.map_cons, List.map_cons, ih, (convert_name hl h1).1]
  have hstart : ∀ u ∈ us, u.choice = cls.start u.args := by
    clear h hn hnames
    induction hall with
    | nil => intro u hu; cases hu
    | cons h1 _ ih =>
      intro v hv
      rcases List.mem_cons.1 hv with rfl | hv
      · unfold convert at h1
        split at h1
        · cases h1
        · cases h1; rfl
      · exact ih v hv
  have key : fromTracer cls d (template true ch (us.map fun u => { u with choice := choice u })) ts = .ok us := by
    apply all_fromTracer
    rw [List.forall₂_iff_zip] at hall ⊢
    refine ⟨hall.1, fun {t u} hm => ?_⟩
    have h1 := hall.2 hm
    have hmem : u ∈ us := (List.of_mem_zip hm).2
    have hn' : ((us.map fun u => ({ u with choice := choice u } : Unit' C)).map Unit'.fullName).Nodup := by
      rw [List.map_map]
      rw [← hnames] at hn
      exact hn
    have hlk := lookup_template (g := fun u => ⟨some u.args, if ch then some (u.ins.map Chan.template, u.outs.map Chan.template) else none, some u.choice⟩)
      hn' (List.mem_map.2 ⟨u, hmem, rfl⟩)
    rw [show ({ u with choice := choice u } : Unit' C).fullName = t.name from (convert_name hl h1).1] at hlk
    exact convert_again hl h1 hlk
  unfold prepare
  dsimp only
  rw [key, pruneAll]
  congr 1
  apply List.map_congr_left
  intro u hu
  rw [hstart u hu]

example : fromTracer seqCls [("divisor", .num 2)] [] [exTraced] = .ok [{ exUnit with choice := 8 }] ∧
    seqCls.prepared exUnit.args (seqCls.start exUnit.args) = 8 := ⟨rfl, by decide +kernel⟩

/-- DISAGREEMENT: units whose preparation sets the largest choice (one-shot and slimmable units)
lose the choices of the configuration, in every way of preparing: all units have the largest choice
afterwards. -/
theorem C88_choice_lost_violated (cls : Cls C) (top : Args → C) (ht : ∀ a c, cls.prepared a c = top a) (d : Args) (cfg : UnitsCfg C)
    (same : Bool) (ts : List Traced) (p : Parse) (us : List (Unit' C)) (h : (prepare cls d cfg same ts p).2 = .ok us) :
    ∀ u ∈ us, u.choice = top u.args := by
  have key : ∀ r : Except Err (List (Unit' C)), pruneAll cls r = .ok us → ∀ u ∈ us, u.choice = top u.args := by
    intro r hr
    cases r with
    | error e => cases hr
    | ok vs =>
      cases hr
      intro u hu
      obtain ⟨v, _, rfl⟩ := List.mem_map.1 hu
      exact ht _ _
  rcases p with (_ | _) | _ <;> exact key _ h

example : fromCfgOne (oneShotCls [50, 100] 100) [] [] true none "unit" exHalf =
      .ok ⟨some "unit", (exUnit.args.take 1) ++ [("candidate_choices", .tok "[0.5, 1.0]"), ("choice_mode", .tok "ratio"), ("divisor", .num 1),
        ("min_value", .num 1), ("min_ratio", .tok "0.9")], [⟨"conv2", 0, 8, false⟩], [⟨"conv1", 0, 8, true⟩], 50⟩ ∧
    ∀ a c, (oneShotCls [50, 100] 100).prepared a c = 100 := ⟨by rfl, fun _ _ => rfl⟩

/-- DISAGREEMENT: the same configuration gives different units depending on how it is used. For an
argument with a default value of the mutator which the `init_args` of a unit do not mention: with
`from_cfg` and the configuration given as a dictionary, the unit gets the default of the mutator; with
the configuration in a file, or with tracing, it gets the default of the class. -/
theorem C88_parse_paths_violated (cls : Cls C) (ps : List (String × Option Val)) (hps : (ps.map Prod.fst).Nodup) (hc : cls.complete = signature ps)
    (d a : Args) (k : String) (v dv : Val) (hk : ps.lookup k = some (some dv)) (hd : d.lookup k = some v) (ha : a.lookup k = none)
    (hnum : k ≠ "num_channels") (t : Traced) (cfg : UnitsCfg C) (c : Option C) (hcfg : cfg.lookup t.name = some ⟨some a, none, c⟩)
    (ts : List (String × Traced)) (hts : ts.lookup t.name = some t) (u1 u2 u3 : Unit' C)
    (h1 : fromCfgOne cls d cfg true (some ts) t.name ⟨some a, none, c⟩ = .ok u1)
    (h2 : fromCfgOne cls d cfg false (some ts) t.name ⟨some a, none, c⟩ = .ok u2) (h3 : convert cls d cfg t = .ok u3) :
    u1.args.lookup k = some v ∧ u2.args.lookup k = some dv ∧ u3.args.lookup k = some dv := by
  have conv : ∀ (cfg' : UnitsCfg C) (b : Args) (u : Unit' C), tracedArgs d cfg' t.name = b → convert cls d cfg' t = .ok u →
      u.args.lookup k = (b.lookup k).or (some dv) := by
    intro cfg' b u hb hu
    unfold convert at hu
    rw [hb, hc] at hu
    cases hs : signature ps (put b "num_channels" (.num t.num)) with
    | error e => rw [hs] at hu; cases hu
    | ok full =>
      rw [hs] at hu
      cases hu
      dsimp only
      rw [signature_lookup hps hs k hk, lookup_put, if_neg hnum]
  have htr : tracedArgs d cfg t.name = a := by
    unfold tracedArgs; rw [hcfg]
  have e3 := conv cfg a u3 htr h3
  rw [ha] at e3
  refine ⟨?_, ?_, e3⟩
  · unfold fromCfgOne at h1
    dsimp only [Option.getD_some] at h1
    rw [hts] at h1
    dsimp only at h1
    rw [if_pos rfl] at h1
    cases hu : convert cls d ((t.name, (⟨some (merge d a), none, c⟩ : UnitCfg C)) :: cfg) t with
    | error e => rw [hu] at h1; cases h1
    | ok u =>
      rw [hu] at h1
      rw [(setChoice_other h1).2.1, conv _ (merge d a) u (by unfold tracedArgs; rw [List.lookup_cons]; simp) hu, lookup_merge, ha, hd]
      rfl
  · unfold fromCfgOne at h2
    dsimp only [Option.getD_some] at h2
    rw [hts] at h2
    dsimp only at h2
    rw [if_neg (by decide), h3] at h2
    rw [(setChoice_other h2).2.1, e3]
    rfl

example : (seqParams.map Prod.fst).Nodup ∧ seqParams.lookup "divisor" = some (some (.num 1)) ∧
    (∃ u, fromCfgOne seqCls [("divisor", .num 8)] [("conv1_(0, 8)_8", ⟨some [("min_value", .num 2)], none, none⟩)] true
      (some [(exTraced.name, exTraced)]) exTraced.name ⟨some [("min_value", .num 2)], none, none⟩ = .ok u ∧ u.args.lookup "divisor" = some (.num 8)) ∧
    ∃ u, convert seqCls [("divisor", .num 8)] [("conv1_(0, 8)_8", ⟨some [("min_value", .num 2)], none, none⟩)] exTraced = .ok u ∧
      u.args.lookup "divisor" = some (.num 1) := by
  refine ⟨by decide, by decide, ⟨_, rfl, ?_⟩, ⟨_, rfl, ?_⟩⟩ <;> decide +kernel

/-- DISAGREEMENT: a unit without `channels` in a configuration used without a tracer stops with a
`NameError` (the traced units are unbound), not with the `ValueError` that explains what to add. -/
theorem C88_no_channels_fails (cls : Cls C) (d : Args) (pre post : UnitsCfg C) (key : String) (u : UnitCfg C) (hu : u.channels = none) (same : Bool)
    (ts : List Traced) (us : List (Unit' C)) (hpre : fromCfg cls d (pre ++ (key, u) :: post) same none pre = .ok us) :
    prepare cls d (pre ++ (key, u) :: post) same ts .config = (.config, .error .name) := by
  unfold prepare
  dsimp only
  rw [fromCfg_append hpre, fromCfg]
  unfold fromCfgOne
  rw [hu]
  rfl

example : ∃ us, fromCfg seqCls [] ([("unit", { exHalf with choice := none })] ++ ("other", ⟨none, none, some 3⟩) :: []) true none
    [("unit", { exHalf with choice := none })] = .ok us := ⟨_, rfl⟩

/-- DISAGREEMENT: with `from_cfg`, a unit that the trace does not have stops with a `KeyError`, not
with the explaining `ValueError`. -/
theorem C88_unknown_unit_fails (cls : Cls C) (d : Args) (pre post : UnitsCfg C) (key : String) (u : UnitCfg C) (hu : u.channels = none) (same : Bool)
    (ts : List Traced) (hk : key ∉ ts.map Traced.name) (us : List (Unit' C))
    (hpre : fromCfg cls d (pre ++ (key, u) :: post) same (some (ts.map fun t => (t.name, t))) pre = .ok us) :
    prepare cls d (pre ++ (key, u) :: post) same ts (.analyzer true) = (.analyzer false, .error .key) := by
  have hm : (ts.map fun t => (t.name, t)).lookup key = none := by
    cases hl : (ts.map fun t => (t.name, t)).lookup key with
    | none => rfl
    | some t =>
      obtain ⟨t', ht', he⟩ := List.mem_map.1 (mem_of_lookup hl)
      injection he with he1 he2
      exact absurd (List.mem_map.2 ⟨t', ht', he1⟩) hk
  unfold prepare
  dsimp only
  rw [fromCfg_append hpre, fromCfg]
  unfold fromCfgOne
  rw [hu]
  dsimp only
  rw [hm]
  rfl

example : "conv9" ∉ [exTraced].map Traced.name := by decide +kernel

/-- Without a tracer, the units are exactly the listed ones, under the listed names and in their
order. -/
theorem C88_listed (cls : Cls C) (d : Args) (cfg : UnitsCfg C) (same : Bool) (ts : List Traced) (us : List (Unit' C))
    (h : (prepare cls d cfg same ts .config).2 = .ok us) : us.map Unit'.fullName = cfg.map Prod.fst := by
  have hch : ∀ {l : UnitsCfg C} {vs : List (Unit' C)}, fromCfg cls d cfg same none l = .ok vs → ∀ p ∈ l, p.2.channels.isSome := by
    intro l
    induction l with
    | nil => intro _ _ p hp; cases hp
    | cons q l ih =>
      obtain ⟨k, c⟩ := q
      intro vs hv p hp
      rw [fromCfg] at hv
      cases h1 : fromCfgOne cls d cfg same none k c with
      | error e => rw [h1] at hv; cases hv
      | ok u =>
        rw [h1] at hv
        dsimp only at hv
        rcases List.mem_cons.1 hp with rfl | hp
        · unfold fromCfgOne at h1
          cases hcc : c.channels with
          | none => rw [hcc] at h1; cases h1
          | some _ => rfl
        · cases h2 : fromCfg cls d cfg same none l with
          | error e => rw [h2] at hv; cases hv
          | ok us' => exact ih h2 p hp
  unfold prepare at h
  dsimp only at h
  cases hf : fromCfg cls d cfg same none cfg with
  | error e => rw [hf] at h; cases h
  | ok vs =>
    rw [hf] at h
    cases h
    rw [List.map_map, ← fromCfg_names (hch hf) hf]
    rfl

example : ∃ us, (prepare seqCls [] [("unit", exHalf)] true [] .config).2 = .ok us := ⟨_, rfl⟩

/-- A unit of `n` channels built from a configuration has each configured channel once, with the
start 0 and the end `n` unless others are given, and no other channels. -/
theorem C88_channels (cls : Cls C) (a : Args) (n : Nat) (hn : a.lookup "num_channels" = some (.num n)) (ch : List ChanCfg × List ChanCfg)
    (c : Option C) (u : Unit' C) (h : initFromCfg cls a ch c = .ok u) :
    (u.ins.Nodup ∧ ∀ x, x ∈ u.ins ↔ ∃ cc ∈ ch.1, x = chanOf n false cc) ∧ u.outs.Nodup ∧ ∀ x, x ∈ u.outs ↔ ∃ cc ∈ ch.2, x = chanOf n true cc := by
  unfold initFromCfg at h
  rw [hn] at h
  cases h0 : cls.complete a with
  | error e => rw [h0] at h; cases h
  | ok full =>
    rw [h0] at h
    dsimp only at h
    cases h1 : fillAll (some (.num n)) false ch.1 [] with
    | error e => rw [h1] at h; cases h
    | ok ins =>
      rw [h1] at h
      dsimp only at h
      cases h2 : fillAll (some (.num n)) true ch.2 [] with
      | error e => rw [h2] at h; cases h
      | ok outs =>
        rw [h2] at h
        obtain ⟨_, _, e1, e2⟩ := setChoice_other h
        rw [e1, e2]
        have a1 := fillAll_spec List.nodup_nil h1
        have a2 := fillAll_spec List.nodup_nil h2
        simpa using And.intro a1 a2

example : ∃ u, initFromCfg seqCls [("num_channels", .num 8)] ([⟨"conv2", none, none⟩, ⟨"conv2", some 0, none⟩], [⟨"conv1", some 4, none⟩]) none = .ok u ∧
    u.ins = [⟨"conv2", 0, 8, false⟩] ∧ u.outs = [⟨"conv1", 4, 8, true⟩] := ⟨_, rfl, by decide +kernel, by decide +kernel⟩

/-- DISAGREEMENT: `from_cfg` works once. Preparing removes it from the parse configuration, so
preparing again (or preparing another mutator made from the same configuration) traces: it makes all
the traced units instead of the listed ones. -/
theorem C88_from_cfg_once_violated (cls : Cls C) (d : Args) (cfg : UnitsCfg C) (same : Bool) (ts : List Traced) :
    (prepare cls d cfg same ts (.analyzer true)).1 = .analyzer false ∧
    (prepare cls d cfg same ts (.analyzer false)).1 = .analyzer false ∧
    ∀ us, (prepare cls d cfg same ts (prepare cls d cfg same ts (.analyzer true)).1).2 = .ok us → us.length = ts.length := by
  refine ⟨rfl, rfl, fun us h => ?_⟩
  unfold prepare at h
  dsimp only at h
  cases hf : fromTracer cls d cfg ts with
  | error e => rw [hf] at h; cases h
  | ok vs =>
    rw [hf] at h
    cases h
    rw [List.length_map]
    exact (fromTracer_all hf).length_eq.symm

example : (∃ us, (prepare seqCls [] [(exTraced.name, ⟨none, none, some 4⟩)] true [exTraced, ⟨3, [⟨"conv1", 0, 3, false⟩], []⟩] (.analyzer true)).2 = .ok us ∧
      us.length = 1) ∧
    ∃ us, (prepare seqCls [] [(exTraced.name, ⟨none, none, some 4⟩)] true [exTraced, ⟨3, [⟨"conv1", 0, 3, false⟩], []⟩] (.analyzer false)).2 = .ok us ∧
      us.length = 2 := ⟨⟨_, rfl, rfl⟩, ⟨_, rfl, rfl⟩⟩

/-- DISAGREEMENT: `unit_predefined` of the default arguments reaches the first unit of a predefined
model only; all others behave as without it. -/
theorem C88_predefined_violated (flag : Bool) (n : Nat) : predefinedFlags (some flag) (n + 1) = flag :: List.replicate n false := by
  rw [predefinedFlags, flags_none]
  rfl

/-- Subnets of a slimmable mutator: when all units have the same number `n` of candidates (`n` being
that of the first), there are `n` subnets and the `i`-th gives every unit its `i`-th candidate;
otherwise preparing fails. -/
theorem C88_subnets {V : Type} (k : String) (c : List V) (rest : List (String × List V)) :
    ((∀ kc ∈ rest, kc.2.length = c.length) → ∃ r, subnets ((k, c) :: rest) = .ok r ∧ r.length = c.length ∧
      ∀ i, i < c.length → r[i]? = some (((k, c) :: rest).filterMap fun kc => (kc.2[i]?).map fun v => (kc.1, v))) ∧
    ((∃ kc ∈ rest, kc.2.length ≠ c.length) → subnets ((k, c) :: rest) = .error .assertion) := by
  constructor
  · intro h
    obtain ⟨r, h1, h2, h3⟩ := subnets_fold c.length ((k, c) :: rest) (List.replicate c.length []) (by simp) (by
      intro kc hkc
      rcases List.mem_cons.1 hkc with rfl | hkc
      · rfl
      · exact h kc hkc)
    refine ⟨r, h1, h2, fun i hi => ?_⟩
    have := h3 i hi [] (by simp [hi])
    simpa using this
  · rintro ⟨kc, hkc, hne⟩
    exact subnets_err c.length ((k, c) :: rest) _ ⟨kc, List.mem_cons_of_mem _ hkc, hne⟩

example : subnets [("a", [4, 8]), ("b", [2, 6])] = .ok [[("a", 4), ("b", 2)], [("a", 8), ("b", 6)]] ∧
    subnets [("a", [4, 8]), ("b", [2])] = .error .assertion := ⟨rfl, rfl⟩

/-- Without units there are no subnets. -/
theorem C88_no_subnets {V : Type} : subnets ([] : List (String × List V)) = .ok [] := rfl

/-- A constructor refuses exactly unknown keywords and missing required ones, and always with a `TypeError`. -/
theorem C88_signature_refused (ps : List (String × Option Val)) (a : Args) (e : Err) :
    signature ps a = .error e ↔ e = .type ∧
      ((∃ p ∈ a, ps.lookup p.1 = none) ∨ ∃ p ∈ ps, a.lookup p.1 = none ∧ p.2 = none) := by
  have h1 : (a.any fun p => (ps.lookup p.1).isNone) = true ↔ ∃ p ∈ a, ps.lookup p.1 = none := by
    simp only [List.any_eq_true, Option.isNone_iff_eq_none]
  have h2 : (ps.any fun p => ((a.lookup p.1).or p.2).isNone) = true ↔ ∃ p ∈ ps, a.lookup p.1 = none ∧ p.2 = none := by
    simp only [List.any_eq_true, Option.isNone_iff_eq_none, Option.or_eq_none_iff]
  unfold signature
  by_cases h3 : (a.any fun p => (ps.lookup p.1).isNone) = true
  · rw [if_pos h3, Except.error.injEq]
    simp only [h1.1 h3, true_or, and_true, eq_comm (a := e)]
  · rw [if_neg h3]
    have h4 := mt h1.2 h3
    by_cases h5 : (ps.any fun p => ((a.lookup p.1).or p.2).isNone) = true
    · rw [if_pos h5, Except.error.injEq]
      simp only [h2.1 h5, or_true, and_true, eq_comm (a := e)]
    · rw [if_neg h5]
      have h6 := mt h2.2 h5
      simp only [reduceCtorEq, false_iff]
      rintro ⟨-, h | h⟩
      · exact h4 h
      · exact h6 h

example : signature [("a", none), ("b", some (.num 1))] [("c", .num 2)] = .error .type ∧
    signature [("a", none), ("b", some (.num 1))] [("b", .num 2)] = .error .type :=
  ⟨(C88_signature_refused _ _ _).2 (by decide), (C88_signature_refused _ _ _).2 (by decide)⟩

end Verif.MutatorCfg
