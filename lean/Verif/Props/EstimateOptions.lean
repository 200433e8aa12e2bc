import Verif.Lemmas.EstimateOptions

namespace Verif.EstimateOptions
open Verif

/-- With options given, every option has the value the user expects. -/
theorem C31_explicit (e : Estimator) (opts : Dict) (ho : opts ≠ []) (cfg : Dict) (h : e.options opts = .ok cfg) (k : String) :
    used cfg k = expected e opts k := by
  unfold Estimator.options at h
  rw [if_neg (by simpa using ho)] at h
  split at h
  · simp at h
  · simp only [Except.ok.injEq, List.foldl_cons, List.foldl_nil] at h
    subst h
    unfold used expected
    rw [get_merge, get_setDefault, get_setDefault, get_setDefault, get_merge]
    by_cases h1 : k = "as_strings"
    · subst h1; simp [Estimator.own]
    · by_cases h2 : k = "units"
      · subst h2; simp [Estimator.own]
      · by_cases h3 : k = "input_shape"
        · subst h3; simp [Estimator.own]
        · have e1 : ¬ "as_strings" = k := fun x => h1 x.symm
          have e2 : ¬ "units" = k := fun x => h2 x.symm
          have e3 : ¬ "input_shape" = k := fun x => h3 x.symm
          simp [Estimator.own, h1, h2, h3, e1, e2, e3]
          cases opts.get k <;> cases e.cfg.get k <;> simp

/-- An option name that is neither an argument nor a local variable of the counting
function is refused, and so is (with another error, later) a local variable. -/
theorem C31_unknown {α : Type} (count : (String → Option Val) → α × α × List (String × α × α)) (e : Estimator) (k : String) (v : Val) (opts : Dict)
    (hm : (k, v) ∈ opts) (hk : k ∉ arguments) :
    ∃ x, (e.estimate count opts).2 = .error x ∧ (x = .key ∨ x = .type) := by
  have hne : opts.isEmpty = false := by cases opts with
    | nil => simp at hm
    | cons => rfl
  unfold Estimator.estimate Estimator.options
  rw [hne]
  simp only [Bool.false_eq_true, if_false, check]
  split
  · rename_i x hx
    split at hx
    · simp at hx; exact ⟨_, rfl, .inl hx.symm⟩
    · simp at hx
  · have hmem : ∀ (d : Dict) (k' : String), (k, v) ∈ d → (k, v) ∈ setDefault e d k' := by
      intro d k' hd
      unfold setDefault
      split
      · simp [Dict.set, hd]
      · exact hd
    have hm3 : (k, v) ∈ (["input_shape", "units", "as_strings"].foldl (setDefault e) (e.cfg.merge opts)) := by
      simp only [List.foldl_cons, List.foldl_nil]
      exact hmem _ _ (hmem _ _ (hmem _ _ (by simp [Dict.merge, hm])))
    refine ⟨.type, ?_, .inr rfl⟩
    have hc : call count (["input_shape", "units", "as_strings"].foldl (setDefault e) (e.cfg.merge opts)) = .error .type := by
      unfold call
      rw [if_pos]
      rw [List.any_eq_true]
      exact ⟨_, hm3, by simpa using hk⟩
    simp only [bind, Except.bind, hc]

/-- Without options, the estimator's counting options are used; what the user expects, as
long as the common settings are among them or are the defaults. Missing: common settings that are neither among them nor the
defaults, see `C31_none_violated`. -/
theorem C31_none_partial (e : Estimator) (cfg : Dict) (h : e.options [] = .ok cfg)
    (hown : ∀ k v, e.own k = some v → (∃ w, e.cfg.get k = some w) ∨ defaults.get k = some v) (k : String) :
    used cfg k = expected e [] k := by
  simp only [Estimator.options, List.isEmpty_nil, if_true, Except.ok.injEq] at h
  subst h
  unfold used expected
  rw [get_merge]
  simp only [Dict.get, List.find?_nil, Option.map_none, Option.orElse_none]
  change (e.cfg.get k).orElse (fun _ => defaults.get k) = (e.cfg.get k).orElse fun _ => (e.own k).orElse fun _ => defaults.get k
  cases h1 : e.cfg.get k with
  | some w => rfl
  | none =>
    cases h2 : e.own k with
    | none => rfl
    | some v =>
      rcases hown k v h2 with ⟨w, hw⟩ | hd
      · rw [h1] at hw; simp at hw
      · simp [hd]

/-- An estimator built for inputs of 64 by 64 estimates at 224 by 224 when it is given no
options. -/
theorem C31_none_violated :
    let e : Estimator := ⟨.shape [1, 3, 64, 64], .units "M" "M", .flag false, []⟩
    ∃ cfg, e.options [] = .ok cfg ∧ used cfg "input_shape" = some (.shape [1, 3, 224, 224]) ∧
      expected e [] "input_shape" = some (.shape [1, 3, 64, 64]) := by
  refine ⟨[], rfl, by decide, by decide⟩

/-- Whatever estimates were made before, and whatever separate estimates with options of
their own, the estimator is unchanged: every later estimate gives what it gives on a fresh
estimator. Missing: separate estimates without options, see `C31_history_violated`. -/
theorem C31_history_partial {α : Type} (count : (String → Option Val) → α × α × List (String × α × α)) (e : Estimator)
    (ops : List Op) (h : ∀ o ∈ ops, Explicit o) :
    after count e ops = e ∧ ∀ opts, ((after count e ops).estimate count opts).2 = (e.estimate count opts).2 := by
  have hk : after count e ops = e := by
    induction ops with
    | nil => rfl
    | cons o r ih =>
      have ih' := ih (fun x hx => h x (by simp [hx]))
      cases o with
      | estimate opts => exact ih'
      | separate opts =>
        have ho : opts ≠ [] := h (.separate opts) (by simp)
        have : (e.separate count opts).1 = e := by
          unfold Estimator.separate
          split
          · rfl
          · simp [ho]
        simp only [after, this]
        exact ih'
  exact ⟨hk, fun opts => by rw [hk]⟩

/-- A separate estimate without options marks the estimator: later estimates fail, or
return the names of two modules as FLOPs and parameters. Even a separate estimate that
was itself refused does this. -/
theorem C31_history_violated :
    let count : (String → Option Val) → Nat × Nat × List (String × Nat × Nat) := fun _ => (30, 3, [("neck", 10, 1), ("head", 20, 2)])
    let e : Estimator := ⟨.shape [1, 3, 64, 64], .units "M" "M", .flag false, [("spec_modules", .names ["neck", "head"])]⟩
    let e0 : Estimator := ⟨.shape [1, 3, 64, 64], .units "M" "M", .flag false, []⟩
    (e.estimate count []).2 = .ok (.numbers 30 3) ∧
    (((e.separate count []).1).estimate count []).2 = .ok (.keys "neck" "head") ∧
    (e0.estimate count []).2 = .ok (.numbers 30 3) ∧
    (e0.separate count []).2 = .error .key ∧
    (((e0.separate count []).1).estimate count []).2 = .error .assertion := by
  refine ⟨?_, ?_, ?_, ?_, ?_⟩ <;> decide

/-! ### Hooks -/

/-- On one model: the modules counted are those enabled now, whatever was estimated
before, as long as earlier runs completed, or all used the same counters. Missing: earlier runs that failed, see
`C31_hooks_violated`. -/
theorem C31_hooks_partial (mods : List Nat) (runs : List ((Nat → Bool) × Bool)) (en : Nat → Bool)
    (h : (∀ r ∈ runs, r.2 = false) ∨ ∀ r ∈ runs, r.1 = en) :
    (countRun mods en false (history mods runs fun _ => false)).1 = some (mods.filter en) := by
  simp only [countRun, Bool.false_eq_true, if_false, Option.some.injEq]
  apply List.filter_congr
  intro m hm
  rcases h with h | h
  · rw [history_completed mods runs h _ (by simp) m]
    simp [hm]
  · have := history_same mods en runs h (fun _ => false) (by simp) m
    cases he : history mods runs (fun _ => false) m with
    | false => simp [hm]
    | true => simp [(this he).2]

/-- After a run that failed in the forward pass, a counter that is then disabled still
counts. -/
theorem C31_hooks_violated :
    (countRun [0, 1] (fun m => m == 0) false (history [0, 1] [((fun _ => true), true)] fun _ => false)).1 = some [0, 1] := by decide

example : ∃ cfg, (⟨.shape [1, 3, 64, 64], .units "G" "M", .flag true, [("spec_modules", .names ["neck"])]⟩ : Estimator).options
      [("input_shape", .shape [2, 3, 32, 32])] = .ok cfg ∧ used cfg "input_shape" = some (.shape [2, 3, 32, 32]) ∧
      used cfg "units" = some (.units "G" "M") ∧ used cfg "spec_modules" = some (.names ["neck"]) ∧
      used cfg "flush" = some (.flag false) := by
  refine ⟨_, rfl, by decide, by decide, by decide, by decide⟩

example : Explicit (.separate [("spec_modules", .names ["neck"])]) ∧
    ((⟨.shape [1], .units "M" "M", .flag false, []⟩ : Estimator).estimate (fun _ => ((0 : Nat), 0, [])) [("batch", .flag true)]).2 = .error .type ∧
    ((⟨.shape [1], .units "M" "M", .flag false, []⟩ : Estimator).estimate (fun _ => ((0 : Nat), 0, [])) [("shape", .flag true)]).2 = .error .key := by
  refine ⟨by simp [Explicit], by decide, by decide⟩

/-- Which error it is: a `KeyError` of the estimator's own check for a name that the counting function
does not contain at all, a `TypeError` of the call when the names are known to it but one is not an
argument. -/
theorem C31_unknown_kind {α : Type} (count : (String → Option Val) → α × α × List (String × α × α)) (e : Estimator) (k : String) (v : Val)
    (opts : Dict) (hm : (k, v) ∈ opts) :
    (k ∉ arguments → k ∉ locals → (e.estimate count opts).2 = .error .key) ∧
    ((∀ x ∈ opts ++ e.cfg, x.1 ∈ arguments ∨ x.1 ∈ locals) → k ∉ arguments → (e.estimate count opts).2 = .error .type) := by
  have hne : opts.isEmpty = false := by cases opts with
    | nil => simp at hm
    | cons => rfl
  constructor
  · intro h1 h2
    unfold Estimator.estimate Estimator.options
    rw [hne]
    have : check (e.cfg.merge opts) = .error .key := by
      unfold check
      rw [if_pos]
      rw [List.any_eq_true]
      exact ⟨(k, v), by simp [Dict.merge, hm], by simp [h1, h2]⟩
    rw [this]
    rfl
  · intro hall hk
    obtain ⟨x, hx, hx'⟩ := C31_unknown count e k v opts hm hk
    rcases hx' with rfl | rfl
    · exfalso
      unfold Estimator.estimate Estimator.options at hx
      rw [hne] at hx
      have : check (e.cfg.merge opts) = .ok () := by
        unfold check
        rw [if_neg]
        rw [List.any_eq_true]
        rintro ⟨y, hy, hy'⟩
        rcases hall y hy with h | h <;> simp [h] at hy'
      simp only [Bool.false_eq_true, if_false, this, bind, Except.bind] at hx
      unfold call at hx
      dsimp only at hx
      split_ifs at hx <;> simp only [unpack] at hx
      · simp at hx
      · simp at hx
      · split at hx <;> simp at hx
      · simp at hx
    · exact hx

/-- Without any setting the counting function uses its documented defaults. -/
theorem C31_defaults : used [] "input_shape" = some (.shape [1, 3, 224, 224]) ∧ used [] "spec_modules" = some (.names []) ∧
    used [] "disabled_counters" = some (.names []) ∧ used [] "print_per_layer_stat" = some (.flag false) ∧
    used [] "units" = some (.units "M" "M") ∧ used [] "as_strings" = some (.flag false) ∧
    used [] "seperate_return" = some (.flag false) ∧ used [] "flush" = some (.flag false) := by decide

/-- DISAGREEMENT: `estimate` with the results of single modules switched on unpacks a dict: with exactly two modules the *names* of
the modules are returned as the numbers of FLOPs and of parameters, with any other number it is a `ValueError`. -/
theorem C31_unpacked_violated {α : Type} (l : List (String × α × α)) :
    (∀ a b, l = [a, b] → unpack (.each l) = .ok (.keys a.1 b.1)) ∧ (l.length ≠ 2 → unpack (.each l) = .error .value) := by
  constructor
  · rintro a b rfl
    rfl
  · intro h
    match l with
    | [] => rfl
    | [_] => rfl
    | [_, _] => simp at h
    | _ :: _ :: _ :: _ => rfl

example : unpack (.each [("backbone", 1, 2), ("head", 3, 4)]) = .ok (.keys "backbone" "head") := (C31_unpacked_violated _).1 _ _ rfl

end Verif.EstimateOptions
