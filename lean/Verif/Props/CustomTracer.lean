import Verif.Lemmas.CustomTracer

/-! Properties of the tracer with skipped methods and of the modules of its graph. -/

namespace Verif.CustomTracer
open Verif

/-! ## Properties -/

/-- C86: the first tracer, given methods by path, class and name, with different names, can be
made, and traces every model: calls of the given methods (also inherited ones) become one node,
all other calls are entered. Missing: methods of the same name, see `C86_same_name_violated`. -/
theorem C86_skip_partial (w : World) (sources : List (List String)) (ms : List (Cls × String))
    (h : List.Forall₂ (Names w) sources ms) (hn : (ms.map (fun m => m.2)).Nodup) (code : List Stmt) :
    ∃ t r ns, newTracer w emptyReg sources = .ok (t, r) ∧ traceList w r t code = .ok ns ∧
      Traced w ms code ns := by
  have e := registerAll_names [] h
  obtain ⟨ns, h1, h2⟩ := traceList_spec w ms ⟨ms.foldl (fun d m => put d m.2 m.1) [], some 0, 1⟩ 0 rfl
    (wrapped_iff w ms hn) code
  refine ⟨0, _, ns, ?_, h1, h2⟩
  unfold newTracer emptyReg
  dsimp only
  rw [e]

example : Names exWorld ["m", "A", "loss"] (0, "loss") :=
  ⟨["m"], "A", _, rfl, by simp, rfl, rfl, 0, by decide, by decide⟩

example : (newTracer exWorld emptyReg [["m", "A", "loss"]]).toOption.map (fun p =>
    traceList exWorld p.2 p.1 [.call 2 "forward" [.op 1], .call 2 "loss" [.op 2], .call 1 "loss" [.op 3]]) =
    some (.ok [.op 1, .method 2 "loss", .op 3]) := by decide +kernel

/-- DISAGREEMENT: of two given methods of the same name, of different classes, only the last one
is skipped; the calls of the first one are entered: the registry is keyed by the bare name. -/
theorem C86_same_name_violated (w : World) (s1 s2 : List String) (name : String) (o1 o2 : Cls)
    (h1 : Names w s1 (o1, name)) (h2 : Names w s2 (o2, name)) (hne : o1 ≠ o2) (hm : w.mro o1 = [o1])
    (n : ℕ) :
    ∃ t r, newTracer w emptyReg [s1, s2] = .ok (t, r) ∧
      traceList w r t [.call o1 name [.op n]] = .ok [.op n] ∧
      ¬ Traced w [(o1, name), (o2, name)] [.call o1 name [.op n]] [.op n] := by
  have e := registerAll_names (w := w) [] (List.Forall₂.cons h1 (List.Forall₂.cons h2 List.Forall₂.nil))
  have hw : wrapped w [(name, o2)] o1 name = false := by
    unfold wrapped
    rw [List.lookup_cons, beq_self_eq_true]
    dsimp only
    rw [hm]
    have : ¬ resolve w o2 name [o1] = some o2 := by
      rw [resolve_iff]
      rintro ⟨a, b, h, _⟩
      cases a with
      | nil => exact hne (List.cons.inj h).1
      | cons x a => simp at h
    simpa using this
  refine ⟨0, ⟨[(name, o2)], some 0, 1⟩, ?_, ?_, ?_⟩
  · unfold newTracer emptyReg
    dsimp only
    rw [e]
    simp [put]
  · refine traceList_single w _ _ _ ?_
    rw [traceStmt, if_neg (by rw [hw]; simp)]
    refine traceList_single w _ _ _ ?_
    rw [traceStmt]
  · intro h
    have hs : Skipped w [(o1, name), (o2, name)] o1 name :=
      ⟨o1, List.mem_cons_self, [], [], hm, by simp, by simp⟩
    generalize hns : [Node.op n] = ns at h
    cases h with
    | skip _ _ => cases hns
    | enter hno _ _ => exact hno hs

example : ∃ t r, newTracer exWorld emptyReg [["m", "A", "loss"], ["m", "B", "loss"]] = .ok (t, r) ∧
    traceList exWorld r t [.call 0 "loss" [.op 7]] = .ok [.op 7] := by
  obtain ⟨t, r, h1, h2, _⟩ := C86_same_name_violated exWorld ["m", "A", "loss"] ["m", "B", "loss"] "loss" 0 1
    ⟨["m"], "A", _, rfl, by simp, rfl, rfl, 0, by decide, by decide⟩
    ⟨["m"], "B", _, rfl, by simp, rfl, rfl, 1, by decide, by decide⟩ (by decide) (by decide) 7
  exact ⟨t, r, h1, h2⟩

/-- DISAGREEMENT: a tracer made without methods to skip still skips those of every tracer made
before it: the registry belongs to the class and is never emptied. -/
theorem C86_leak_violated (w : World) (s : List String) (o : Cls) (name : String)
    (h : Names w s (o, name)) (body : List Stmt) (hm : ∃ r, w.mro o = o :: r) :
    ∃ t r t' r', newTracer w emptyReg [s] = .ok (t, r) ∧ newTracer w r [] = .ok (t', r') ∧
      traceList w r' t' [.call o name body] = .ok [.method o name] := by
  have e := registerAll_names (w := w) [] (List.Forall₂.cons h List.Forall₂.nil)
  refine ⟨0, ⟨[(name, o)], some 0, 1⟩, 1, ⟨[(name, o)], some 1, 2⟩, ?_, rfl, ?_⟩
  · unfold newTracer emptyReg
    dsimp only
    rw [e]
    rfl
  · refine traceList_single w _ _ _ ?_
    have hw : wrapped w [(name, o)] o name = true := by
      unfold wrapped
      rw [List.lookup_cons, beq_self_eq_true]
      dsimp only
      rw [decide_eq_true_iff, resolve_iff]
      obtain ⟨r, hr⟩ := hm
      exact ⟨[], r, hr, by simp, by simp⟩
    rw [traceStmt, if_pos hw, if_pos rfl]

/-- DISAGREEMENT: once a second tracer is made, the first one fails on every model that calls a
skipped method: the call asks the tracer made last, which has no graph. -/
theorem C86_older_tracer_fails (w : World) (s : List String) (o : Cls) (name : String)
    (h : Names w s (o, name)) (body : List Stmt) (hm : ∃ r, w.mro o = o :: r) :
    ∃ t r t' r', newTracer w emptyReg [s] = .ok (t, r) ∧ newTracer w r [] = .ok (t', r') ∧
      traceList w r t [.call o name body] = .ok [.method o name] ∧
      traceList w r' t [.call o name body] = .error .attribute := by
  have e := registerAll_names (w := w) [] (List.Forall₂.cons h List.Forall₂.nil)
  have hw : wrapped w [(name, o)] o name = true := by
    unfold wrapped
    rw [List.lookup_cons, beq_self_eq_true]
    dsimp only
    rw [decide_eq_true_iff, resolve_iff]
    obtain ⟨r, hr⟩ := hm
    exact ⟨[], r, hr, by simp, by simp⟩
  refine ⟨0, ⟨[(name, o)], some 0, 1⟩, 1, ⟨[(name, o)], some 1, 2⟩, ?_, rfl, ?_, ?_⟩
  · unfold newTracer emptyReg
    dsimp only
    rw [e]
    rfl
  · refine traceList_single w _ _ _ ?_
    rw [traceStmt, if_pos hw, if_pos rfl]
  · rw [traceList, traceStmt, if_pos hw, if_neg (by simp)]

/-- DISAGREEMENT: the check asks for at least one dot in the name of a method, but two are
needed: with one dot the class is looked up in `None`. -/
theorem C86_one_dot_fails (w : World) (r : Reg) (cls name : String) :
    newTracer w r [[cls, name]] = .error .attribute := rfl

/-- C86: if every module whose methods are called by the graph is a direct attribute of the model
and is fetched by one node, the modules of the built graph have all methods its nodes call. Missing: modules that are nested or
fetched twice, see `C86_nested_module_fails` and `C86_fetched_twice_fails`. -/
theorem C86_methods_partial (methods : String → List String) (nodes : List GNode)
    (hdot : ∀ (i : ℕ) t, nodes[i]? = some (.getAttr t true) → '.' ∉ t.toList)
    (hone : ∀ (i i' : ℕ) t, nodes[i]? = some (.getAttr t true) → nodes[i']? = some (.getAttr t true) →
      i = i')
    (hargs : ∀ (k : ℕ) name args, nodes[k]? = some (.callMethod name args) → ∀ i ∈ args, i < k)
    (hhas : ∀ (k i : ℕ) name args t, nodes[k]? = some (.callMethod name args) → i ∈ args →
      nodes[i]? = some (.getAttr t true) → name ∈ methods t) :
    ∃ d, prepareModuleDict methods nodes = .ok d ∧
      ∀ (k i : ℕ) name args t, nodes[k]? = some (.callMethod name args) → i ∈ args →
        nodes[i]? = some (.getAttr t true) → ∃ l, d.lookup t = some l ∧ name ∈ l := by
  obtain ⟨d, h1, _, h3⟩ := prepareFrom_ok methods nodes 0 [] []
    (by
      intro p hp
      obtain ⟨_, h⟩ := mem_fetched hp
      exact hdot _ _ h)
    (fetched_nodup nodes 0 hone)
    (by
      intro name args hm p hp ha
      obtain ⟨k, hk⟩ := List.mem_iff_getElem?.mp hm
      obtain ⟨_, h⟩ := mem_fetched hp
      exact hhas k _ name args _ hk ha h)
    (by
      intro k name args hk i hi
      rw [Nat.zero_add]
      exact hargs k name args hk i hi)
  refine ⟨d, h1, fun k i name args t hk hi ht => ?_⟩
  have := h3 name args (List.mem_of_getElem? hk) (0 + i, t) (fetched_mem ht) (by rw [Nat.zero_add]; exact hi)
  cases hl : d.lookup t with
  | none => rw [hl] at this; cases this
  | some l => rw [hl] at this; exact ⟨l, rfl, this⟩

example : prepareModuleDict (fun _ => ["_get_loss"]) exNodes = .ok [("head", ["_get_loss"])] := by
  decide +kernel

/-- DISAGREEMENT: if a module is fetched twice, for two of its methods, the first method is lost
and the built graph cannot run: the second fetch starts an empty module. -/
theorem C86_fetched_twice_fails (methods : String → List String) (t m1 m2 : String)
    (h1 : m1 ∈ methods t) (h2 : m2 ∈ methods t) (hne : m1 ≠ m2) (hdot : '.' ∉ t.toList) :
    ∃ l, prepareModuleDict methods [.getAttr t true, .callMethod m1 [0], .getAttr t true,
      .callMethod m2 [2]] = .ok [(t, l)] ∧ m1 ∉ l := by
  refine ⟨[m2], ?_, by simpa using hne⟩
  have a1 : addMethods methods m1 [0] [(0, t)] [(t, [])] = .ok [(t, [m1])] := by
    rw [addMethods, if_pos (by simp), if_neg hdot, if_pos h1, addMethods]
    simp [addMethod, put]
  have a2 : addMethods methods m2 [2] [(0, t), (2, t)] [(t, [])] = .ok [(t, [m2])] := by
    rw [addMethods, if_neg (by simp), addMethods, if_pos (by simp), if_neg hdot, if_pos h2, addMethods]
    simp [addMethod, put]
  have p1 : put ([] : List (String × List String)) t [] = [(t, [])] := rfl
  have p2 : put [(t, [m1])] t [] = [(t, [])] := by simp [put]
  unfold prepareModuleDict
  have a2' : addMethods methods m2 [2] ([(0, t)] ++ [(0 + 1 + 1, t)]) [(t, [])] = .ok [(t, [m2])] := a2
  rw [prepareFrom, p1, prepareFrom, List.nil_append, a1]
  dsimp only
  rw [prepareFrom, p2, prepareFrom, a2']
  dsimp only
  rw [prepareFrom]

/-- DISAGREEMENT: a skipped method of a nested module (whose path contains a dot) cannot be built
into a graph. -/
theorem C86_nested_module_fails (methods : String → List String) (t m : String)
    (hdot : '.' ∈ t.toList) :
    prepareModuleDict methods [.getAttr t true, .callMethod m [0]] = .error .attribute := by
  unfold prepareModuleDict
  rw [prepareFrom, prepareFrom]
  have : addMethods methods m [0] ([] ++ [(0, t)]) (put [] t []) = .error .attribute := by
    show addMethods methods m [0] [(0, t)] (put [] t []) = .error .attribute
    rw [addMethods, if_pos (by simp), if_pos hdot]
  rw [this]

example : prepareModuleDict (fun _ => ["_get_loss"])
    [.getAttr "model.head" true, .callMethod "_get_loss" [0]] = .error .attribute := by decide +kernel

/-- C86: if no module of the model has the name of a copy, duplicating shared modules gives every
node a module of its own: names are different, the first use keeps the module, every further use
gets a new copy with the same contents. Missing: modules with the name of a copy, see `C86_duplicate_clash_violated`. -/
theorem C86_duplicate_partial {S : Type} (modules : List (String × Obj S)) (targets : List String)
    (fresh : ℕ) (hall : ∀ t ∈ targets, ∃ o, modules.lookup t = some o)
    (hclash : ∀ t ∈ targets, ∀ k : ℕ, 1 ≤ k → modules.lookup (t ++ "_dup" ++ toString k) = none) :
    ∃ ts dup, duplicateFrom modules fresh [] targets = .ok (ts, dup) ∧
      ts.length = targets.length ∧ ts.Nodup ∧ (dup.map (fun p => p.2.id)).Nodup ∧
      (∀ p ∈ dup, fresh ≤ p.2.id) ∧
      ∀ (j : ℕ) t, targets[j]? = some t → ∃ t' o o', ts[j]? = some t' ∧ modules.lookup t = some o ∧
        (buildModules modules dup).lookup t' = some o' ∧ o'.state = o.state ∧
        (t ∉ targets.take j → t' = t ∧ o' = o) ∧
        (t ∈ targets.take j → (t', o') ∈ dup) := by
  obtain ⟨ts, d, e, h1, h2, h3, h4, h5⟩ := duplicateFrom_spec modules targets [] fresh hall
  have hfresh : ∀ t k, k ≠ 0 → t ∈ targets → ∀ t' ∈ targets, dupName t k ≠ t' := by
    intro t k hk ht t' ht' heq
    obtain ⟨o, ho⟩ := hall t' ht'
    have := hclash t ht k (by omega)
    unfold dupName at heq
    rw [if_neg hk] at heq
    rw [heq, ho] at this
    cases this
  refine ⟨ts, d, e, h1, ?_, h5, fun p hp => (h3 p hp).1, ?_⟩
  · rw [List.nodup_iff_getElem?_ne_getElem?]
    intro j j' hj hj' heq
    have hjl : j < targets.length := by omega
    have hjl' : j' < targets.length := by omega
    have g1 : targets[j]? = some targets[j] := List.getElem?_eq_getElem hjl
    have g2 : targets[j']? = some targets[j'] := List.getElem?_eq_getElem hjl'
    rw [h2 j _ g1, h2 j' _ g2] at heq
    have heq := Option.some.inj heq
    have m1 := List.getElem_mem hjl
    have m2 := List.getElem_mem hjl'
    generalize targets[j] = t at *
    generalize targets[j'] = t' at *
    by_cases k0 : usesAt [] targets j t = 0
    · have d0 : dupName t 0 = t := if_pos rfl
      rw [k0, d0] at heq
      by_cases k1 : usesAt [] targets j' t' = 0
      · have d1 : dupName t' 0 = t' := if_pos rfl
        rw [k1, d1] at heq
        subst heq
        have := usesAt_lt g1 hj
        omega
      · exact hfresh t' _ k1 m2 t m1 heq.symm
    · by_cases k1 : usesAt [] targets j' t' = 0
      · have d1 : dupName t' 0 = t' := if_pos rfl
        rw [k1, d1] at heq
        exact hfresh t _ k0 m1 t' m2 heq
      · obtain ⟨rfl, hk⟩ := dupName_inj k0 k1 heq
        have := usesAt_lt g1 hj
        omega
  · intro j t hj
    have ht : t ∈ targets := List.mem_of_getElem? hj
    obtain ⟨o, ho⟩ := hall t ht
    by_cases hm : t ∈ targets.take j
    · have hu := usesAt_ne_zero hm
      obtain ⟨o1, ho1⟩ := h4 j t hj hu
      obtain ⟨o2, l1, l2⟩ := lookup_of_mem ho1
      obtain ⟨_, t0, k0, o0, q1, q2, _, q4, q5⟩ := h3 _ l2
      obtain ⟨rfl, _⟩ := dupName_inj hu q1 q2
      rw [ho] at q4
      cases q4
      exact ⟨_, o, o2, h2 j t hj, ho, lookup_append_hit l1, q5, fun h => absurd hm h, fun _ => l2⟩
    · have hu := usesAt_zero hm
      refine ⟨t, o, o, ?_, ho, ?_, rfl, fun _ => ⟨rfl, rfl⟩, fun h => absurd h hm⟩
      · rw [h2 j t hj, hu]
        rfl
      · unfold buildModules
        rw [lookup_append_miss, ho]
        intro p hp heq
        obtain ⟨_, t0, k0, o0, q1, q2, q3, _⟩ := h3 p hp
        exact hfresh t0 k0 q1 q3 t ht (q2 ▸ heq)

example : (duplicateFrom [("conv", (⟨0, "w"⟩ : Obj String)), ("fc", ⟨1, "v"⟩)] 2 [] ["conv", "fc", "conv", "conv"]).map
    (fun p => (p.1, p.2.map (fun q => (q.1, q.2.id, q.2.state)))) =
    .ok (["conv", "fc", "conv_dup1", "conv_dup2"], [("conv_dup1", 2, "w"), ("conv_dup2", 3, "w")]) := by
  decide +kernel

/-- DISAGREEMENT: if the model has a module with the name of a copy, its node silently uses a copy
of the other module. -/
theorem C86_duplicate_clash_violated {S : Type} (a b : S) (hab : a ≠ b) (t : String) :
    ∃ ts dup o, duplicateFrom [(t, (⟨0, a⟩ : Obj S)), (t ++ "_dup1", ⟨1, b⟩)] 2 []
        [t, t, t ++ "_dup1"] = .ok (ts, dup) ∧
      ts[2]? = some (t ++ "_dup1") ∧
      (buildModules [(t, (⟨0, a⟩ : Obj S)), (t ++ "_dup1", ⟨1, b⟩)] dup).lookup (t ++ "_dup1") = some o ∧
      o.state ≠ b := by
  have hne : t ≠ t ++ "_dup1" := by
    intro h
    have := congrArg (fun s : String => s.toList.length) h
    simp at this
  have u1 : uses t [] = 0 := rfl
  have u2 : uses t ([] ++ [t]) = 1 := by simp [uses]
  have u3 : uses (t ++ "_dup1") ([] ++ [t] ++ [t]) = 0 := by
    unfold uses
    apply List.count_eq_zero_of_not_mem
    simp [Ne.symm hne]
  have dn : dupName t 1 = t ++ "_dup1" := by
    unfold dupName
    rw [if_neg (by decide), String.append_assoc]
    rfl
  refine ⟨[t, t ++ "_dup1", t ++ "_dup1"], [(t ++ "_dup1", ⟨2, a⟩)], ⟨2, a⟩, ?_, rfl, ?_, hab⟩
  · rw [duplicateFrom, if_pos u1, duplicateFrom, u2, if_neg (by decide)]
    have l1 : List.lookup t [(t, (⟨0, a⟩ : Obj S)), (t ++ "_dup1", ⟨1, b⟩)] = some ⟨0, a⟩ := by
      rw [List.lookup_cons, beq_self_eq_true]
    rw [l1]
    dsimp only
    rw [duplicateFrom, if_pos u3, duplicateFrom]
    dsimp only
    rw [dn]
  · unfold buildModules
    rw [List.cons_append, List.lookup_cons, beq_self_eq_true]

/-- Which methods to skip are refused, and with which error: names of fewer than two parts and names that are no method of
the class (AssertionError), classes that are not in a module and classes a module does not have (AttributeError), modules
that cannot be imported (RuntimeError) and things that are no classes (TypeError). -/
theorem C86_register_refused (w : World) (d : List (String × Cls)) (source : List String) (e : Err) :
    registerOne w d source = .error e ↔
      (source.length < 2 ∧ e = .assertion) ∨
      (source.length = 2 ∧ e = .attribute) ∨
      (∃ path cls name, path ≠ [] ∧ source = path ++ [cls, name] ∧
        ((w.modules path = none ∧ e = .runtime) ∨
          ∃ m, w.modules path = some m ∧
            ((m cls = none ∧ e = .attribute) ∨ (m cls = some .other ∧ e = .type) ∨
              ∃ c, m cls = some (.cls c) ∧ hasMethod w c name = false ∧ e = .assertion))) := by
  have hr : source = source.reverse.reverse := (List.reverse_reverse _).symm
  unfold registerOne
  generalize source.reverse = l at hr
  subst hr
  match l with
  | [] =>
    constructor
    · intro h
      cases h
      exact Or.inl ⟨by simp, rfl⟩
    · rintro (⟨-, rfl⟩ | ⟨h, -⟩ | ⟨p, c, n, -, h, -⟩)
      · rfl
      · simp at h
      · have := congrArg List.length h
        simp at this
  | [_] =>
    constructor
    · intro h
      cases h
      exact Or.inl ⟨by simp, rfl⟩
    · rintro (⟨-, rfl⟩ | ⟨h, -⟩ | ⟨p, c, n, -, h, -⟩)
      · rfl
      · simp at h
      · have := congrArg List.length h
        simp at this
  | name :: cls :: path =>
    dsimp only
    by_cases hp : path = []
    · subst hp
      constructor
      · intro h
        cases h
        exact Or.inr (Or.inl ⟨rfl, rfl⟩)
      · rintro (⟨h, -⟩ | ⟨-, rfl⟩ | ⟨p, c, n, hne, h, -⟩)
        · simp at h
        · rfl
        · have := congrArg List.length h
          simp at this
          exact absurd this hne
    · rw [if_neg hp]
      have hsplit : ∀ p c n, (name :: cls :: path).reverse = p ++ [c, n] ↔ p = path.reverse ∧ c = cls ∧ n = name := by
        intro p c n
        have : (name :: cls :: path).reverse = path.reverse ++ [cls, name] := by simp
        rw [this]
        constructor
        · intro h
          have h' := List.append_inj' h rfl
          obtain ⟨h1, h2⟩ := h'
          simp only [List.cons.injEq, and_true] at h2
          exact ⟨h1.symm, h2.1.symm, h2.2.symm⟩
        · rintro ⟨rfl, rfl, rfl⟩
          rfl
      have hlen : 0 < path.length := List.length_pos_of_ne_nil hp
      constructor
      · intro h
        refine Or.inr (Or.inr ⟨path.reverse, cls, name, by simpa using hp, (hsplit _ _ _).2 ⟨rfl, rfl, rfl⟩, ?_⟩)
        cases hm : w.modules path.reverse with
        | none =>
          rw [hm] at h
          cases h
          exact Or.inl ⟨rfl, rfl⟩
        | some m =>
          rw [hm] at h
          dsimp only at h
          refine Or.inr ⟨m, rfl, ?_⟩
          cases hc : m cls with
          | none =>
            rw [hc] at h
            cases h
            exact Or.inl ⟨rfl, rfl⟩
          | some x =>
            rw [hc] at h
            cases x with
            | other =>
              cases h
              exact Or.inr (Or.inl ⟨rfl, rfl⟩)
            | cls c =>
              dsimp only at h
              split at h
              · cases h
              · rename_i hh
                cases h
                exact Or.inr (Or.inr ⟨c, rfl, by simpa using hh, rfl⟩)
      · rintro (⟨h, -⟩ | ⟨h, -⟩ | ⟨p, c, n, hne, h, h'⟩)
        · simp at h
        · simp at h
          exact absurd h hp
        · obtain ⟨rfl, rfl, rfl⟩ := (hsplit _ _ _).1 h
          rcases h' with ⟨hm, rfl⟩ | ⟨m, hm, ⟨hc, rfl⟩ | ⟨hc, rfl⟩ | ⟨c', hc, hh, rfl⟩⟩
          · rw [hm]
          · rw [hm]
            dsimp only
            rw [hc]
          · rw [hm]
            dsimp only
            rw [hc]
          · rw [hm]
            dsimp only
            rw [hc]
            dsimp only
            rw [if_neg (by rw [hh]; simp)]

/-- Adding the methods of fetched modules is refused, always with an AttributeError, exactly when one of the fetched modules
that are arguments of the call is nested or does not have the method. -/
theorem C86_methods_refused (methods : String → List String) (name : String) (args : List ℕ)
    (special : List (ℕ × String)) (d : List (String × List String)) (e : Err) :
    addMethods methods name args special d = .error e ↔
      e = .attribute ∧ ∃ p ∈ special, p.1 ∈ args ∧ ('.' ∈ p.2.toList ∨ name ∉ methods p.2) := by
  induction special generalizing d with
  | nil => simp [addMethods]
  | cons p l ih =>
    obtain ⟨i, t⟩ := p
    rw [addMethods]
    by_cases hi : i ∈ args
    · rw [if_pos hi]
      by_cases ht : '.' ∈ t.toList
      · rw [if_pos ht]
        constructor
        · intro h
          cases h
          exact ⟨rfl, _, List.mem_cons_self, hi, Or.inl ht⟩
        · rintro ⟨rfl, -⟩
          rfl
      · rw [if_neg ht]
        by_cases hn : name ∈ methods t
        · rw [if_pos hn, ih]
          simp [ht, hn]
        · rw [if_neg hn]
          constructor
          · intro h
            cases h
            exact ⟨rfl, _, List.mem_cons_self, hi, Or.inr hn⟩
          · rintro ⟨rfl, -⟩
            rfl
    · rw [if_neg hi, ih]
      simp [hi]

/-- The copying of reused modules fails exactly if a module that does not exist is used twice; a single use is not noticed here. -/
theorem C86_duplicate_refused {S : Type} (modules : List (String × Obj S)) (fresh : ℕ) (targets : List String) (e : Err) :
    duplicateFrom modules fresh [] targets = .error e ↔ e = .key ∧ ∃ t, 2 ≤ targets.count t ∧ modules.lookup t = none := by
  have key : ∀ (l before : List String) (fresh : ℕ), duplicateFrom modules fresh before l = .error e ↔
      e = .key ∧ ∃ t ∈ l, 2 ≤ (before ++ l).count t ∧ modules.lookup t = none := by
    intro l
    induction l with
    | nil => intro before fresh; simp [duplicateFrom]
    | cons t l ih =>
      intro before fresh
      have happ : before ++ [t] ++ l = before ++ t :: l := by simp
      rw [duplicateFrom]
      by_cases h0 : uses t before = 0
      · rw [if_pos h0]
        have h1 : (duplicateFrom modules fresh (before ++ [t]) l = .error e) ↔
            e = .key ∧ ∃ x ∈ t :: l, 2 ≤ (before ++ t :: l).count x ∧ modules.lookup x = none := by
          rw [ih, happ]
          constructor
          · rintro ⟨he, x, hx, h⟩
            exact ⟨he, x, by simp [hx], h⟩
          · rintro ⟨he, x, hx, h2, h3⟩
            refine ⟨he, x, ?_, h2, h3⟩
            rcases List.mem_cons.1 hx with rfl | hx
            · rw [List.count_append, List.count_cons_self, show before.count x = 0 from h0] at h2
              exact List.count_pos_iff.1 (by omega)
            · exact hx
        rw [← h1]
        cases duplicateFrom modules fresh (before ++ [t]) l <;> simp
      · rw [if_neg h0]
        have hb : 1 ≤ before.count t := Nat.one_le_iff_ne_zero.2 h0
        cases hm : modules.lookup t with
        | none =>
          simp only [Except.error.injEq]
          constructor
          · rintro rfl
            refine ⟨rfl, t, by simp, ?_, hm⟩
            rw [List.count_append, List.count_cons_self]
            omega
          · rintro ⟨rfl, -⟩
            rfl
        | some o =>
          have h1 : (duplicateFrom modules (fresh + 1) (before ++ [t]) l = .error e) ↔
              e = .key ∧ ∃ x ∈ t :: l, 2 ≤ (before ++ t :: l).count x ∧ modules.lookup x = none := by
            rw [ih, happ]
            constructor
            · rintro ⟨he, x, hx, h⟩
              exact ⟨he, x, by simp [hx], h⟩
            · rintro ⟨he, x, hx, h2, h3⟩
              refine ⟨he, x, ?_, h2, h3⟩
              rcases List.mem_cons.1 hx with rfl | hx
              · rw [hm] at h3
                simp at h3
              · exact hx
          rw [← h1]
          simp only
          cases duplicateFrom modules (fresh + 1) (before ++ [t]) l <;> simp
  rw [key]
  constructor
  · rintro ⟨he, t, -, h1, h2⟩
    exact ⟨he, t, by simpa using h1, h2⟩
  · rintro ⟨he, t, h1, h2⟩
    exact ⟨he, t, List.count_pos_iff.1 (by omega), by simpa using h1, h2⟩

example : duplicateFrom ([] : List (String × Obj ℕ)) 0 [] ["a", "b", "a"] = .error .key :=
  (C86_duplicate_refused _ _ _ _).2 ⟨rfl, "a", by decide, rfl⟩

end Verif.CustomTracer
