import Verif.Spec.FxTrace

/-! Helper lemmas for `Verif/Props/FxTrace.lean`. -/

namespace Verif.FxTrace

variable {X O P : Type}

/-- The values of the nodes of a state. -/
def vals (I : Sem X O P) (ins : List X) (st : St X O P) : List X := evalFrom I ins [] st.nodes

/-- A value refers to a node that exists. -/
def Ok (k : ℕ) : Val X → Prop
  | .proxy n => n < k
  | .const _ => True

/-- Nodes only read nodes before them; cached parameters are where the cache says. -/
structure Inv (st : St X O P) : Prop where
  order : ∀ n nd, st.nodes[n]? = some nd → ∀ v ∈ argsOf nd, Ok n v
  cache : ∀ e ∈ st.cache, st.nodes[e.2]? = some (.getAttr e.1)

/-- What a tracing step does to the state, and what its result means. -/
structure Step (I : Sem X O P) (st st' : St X O P) : Prop where
  inv : Inv st'
  pre : st.nodes <+: st'.nodes

variable [DecidableEq P]

/-- All recorded calls are calls of leaf modules. -/
def LeafOnly (nodes : List (Node X O P)) : Prop :=
  ∀ nd ∈ nodes, ∀ how body ret args, nd = .call how body ret args → how = .modl true

theorem evalFrom_append (I : Sem X O P) (ins : List X) : ∀ (a b : List (Node X O P)) (vals : List X),
    evalFrom I ins vals (a ++ b) = evalFrom I ins (evalFrom I ins vals a) b
  | [], _, _ => rfl
  | n :: a, b, vals => by
    rw [List.cons_append, evalFrom, evalFrom]
    exact evalFrom_append I ins a b _

theorem evalFrom_prefix (I : Sem X O P) (ins : List X) : ∀ (l : List (Node X O P)) (vals : List X),
    vals <+: evalFrom I ins vals l
  | [], _ => List.prefix_refl _
  | n :: l, vals => by
    rw [evalFrom]
    exact (List.prefix_append _ _).trans (evalFrom_prefix I ins l _)

theorem evalFrom_length (I : Sem X O P) (ins : List X) : ∀ (l : List (Node X O P)) (vals : List X),
    (evalFrom I ins vals l).length = vals.length + l.length
  | [], _ => rfl
  | n :: l, vals => by
    rw [evalFrom, evalFrom_length I ins l, List.length_append, List.length_singleton,
      List.length_cons]
    omega

theorem getD_prefix {a b : List X} (h : a <+: b) {n : ℕ} (hn : n < a.length) (d : X) :
    b.getD n d = a.getD n d := by
  obtain ⟨c, rfl⟩ := h
  rw [List.getD_eq_getElem?_getD, List.getD_eq_getElem?_getD, List.getElem?_append_left hn]

theorem argVal_prefix (I : Sem X O P) {a b : List X} (h : a <+: b) {v : Val X}
    (hv : Ok a.length v) : argVal I b v = argVal I a v := by
  cases v with
  | proxy n => exact getD_prefix h hv _
  | const x => rfl

theorem vals_length (I : Sem X O P) (ins : List X) (st : St X O P) :
    (vals I ins st).length = st.nodes.length := by
  unfold vals
  rw [evalFrom_length]
  simp

theorem vals_prefix (I : Sem X O P) (ins : List X) {st st' : St X O P} (h : st.nodes <+: st'.nodes) :
    vals I ins st <+: vals I ins st' := by
  obtain ⟨c, hc⟩ := h
  unfold vals
  rw [← hc, evalFrom_append]
  exact evalFrom_prefix I ins c _

theorem ok_prefix {st st' : St X O P} (h : st.nodes <+: st'.nodes) {v : Val X}
    (hv : Ok st.nodes.length v) : Ok st'.nodes.length v := by
  cases v with
  | proxy n => exact Nat.lt_of_lt_of_le hv h.length_le
  | const x => trivial

theorem vals_get (I : Sem X O P) (ins : List X) (st : St X O P) {n : ℕ} {nd : Node X O P}
    (h : st.nodes[n]? = some nd) :
    (vals I ins st).getD n I.dflt = nodeVal I ins ((vals I ins st).take n) nd := by
  obtain ⟨hn, he⟩ := List.getElem?_eq_some_iff.1 h
  have hsplit : st.nodes = st.nodes.take n ++ nd :: st.nodes.drop (n + 1) := by
    rw [← he]
    simp
  have hlen : (evalFrom I ins [] (st.nodes.take n)).length = n := by
    rw [evalFrom_length, List.length_take]
    simp
    omega
  have hv : vals I ins st = evalFrom I ins
      (evalFrom I ins [] (st.nodes.take n)
        ++ [nodeVal I ins (evalFrom I ins [] (st.nodes.take n)) nd]) (st.nodes.drop (n + 1)) := by
    unfold vals
    conv_lhs => rw [hsplit]
    rw [evalFrom_append, evalFrom]
  have hpre := evalFrom_prefix I ins (st.nodes.drop (n + 1))
      (evalFrom I ins [] (st.nodes.take n)
        ++ [nodeVal I ins (evalFrom I ins [] (st.nodes.take n)) nd])
  rw [← hv] at hpre
  obtain ⟨c, hc⟩ := hpre
  have htake : (vals I ins st).take n = evalFrom I ins [] (st.nodes.take n) := by
    rw [← hc, List.append_assoc, List.take_append_of_le_length (by omega), List.take_of_length_le
      (by omega)]
  rw [htake, ← hc, List.getD_eq_getElem?_getD, List.append_assoc,
    List.getElem?_append_right (by omega), hlen]
  simp

theorem consts_eq (I : Sem X O P) (vs : List X) : ∀ as : List (Val X), hasProxy as = false →
    consts as = as.map (argVal I vs)
  | [], _ => rfl
  | .proxy n :: l, h => by cases h
  | .const x :: l, h => by
    rw [consts, List.map_cons, consts_eq I vs l h]
    rfl

theorem args_ok {k : ℕ} {env : List (Val X)} (h : ∀ v ∈ env, Ok k v) (d : X) (args : List ℕ) :
    ∀ v ∈ args.map (fun i => env.getD i (.const d)), Ok k v := by
  intro v hv
  obtain ⟨i, _, rfl⟩ := List.mem_map.1 hv
  by_cases hi : i < env.length
  · rw [List.getD_eq_getElem _ _ hi]
    exact h _ (List.getElem_mem hi)
  · rw [List.getD_eq_default _ _ (by omega)]
    trivial

theorem getD_argVal (I : Sem X O P) (vs : List X) (env : List (Val X)) (i : ℕ) :
    argVal I vs (env.getD i (.const I.dflt)) = (env.map (argVal I vs)).getD i I.dflt := by
  by_cases hi : i < env.length
  · rw [List.getD_eq_getElem _ _ hi, List.getD_eq_getElem _ _ (by simpa using hi)]
    simp
  · rw [List.getD_eq_default _ _ (by omega), List.getD_eq_default _ _ (by simpa using hi)]
    rfl

theorem args_val (I : Sem X O P) (vs : List X) (env : List (Val X)) (args : List ℕ) :
    (args.map (fun i => env.getD i (.const I.dflt))).map (argVal I vs)
      = args.map (fun i => (env.map (argVal I vs)).getD i I.dflt) := by
  rw [List.map_map]
  exact List.map_congr_left fun i _ => getD_argVal I vs env i

theorem push_step (I : Sem X O P) {st : St X O P} (hi : Inv st) (nd : Node X O P)
    (ha : ∀ v ∈ argsOf nd, Ok st.nodes.length v) :
    Step I st (push nd st).1 ∧ (push nd st).2 = .proxy st.nodes.length
      ∧ (push nd st).1.nodes = st.nodes ++ [nd]
      ∧ ∀ ins, argVal I (vals I ins (push nd st).1) (.proxy st.nodes.length)
          = nodeVal I ins (vals I ins st) nd := by
  have hp : st.nodes <+: (push nd st).1.nodes := List.prefix_append _ _
  refine ⟨⟨⟨?_, ?_⟩, hp⟩, rfl, rfl, ?_⟩
  · intro n nd' h v hv
    have h : (st.nodes ++ [nd])[n]? = some nd' := h
    by_cases hn : n < st.nodes.length
    · rw [List.getElem?_append_left hn] at h
      exact hi.order n nd' h v hv
    · have hlt := (List.getElem?_eq_some_iff.1 h).1
      rw [List.length_append, List.length_singleton] at hlt
      obtain rfl : n = st.nodes.length := by omega
      rw [List.getElem?_append_right (Nat.le_refl _)] at h
      simp at h
      subst h
      exact ha v hv
  · intro e he
    have := hi.cache e he
    show (st.nodes ++ [nd])[e.2]? = _
    rw [List.getElem?_append_left (List.getElem?_eq_some_iff.1 this).1]
    exact this
  · intro ins
    unfold argVal
    dsimp only
    rw [vals_get I ins (push nd st).1 (n := st.nodes.length) (nd := nd)
      (by show (st.nodes ++ [nd])[_]? = _; simp)]
    congr 1
    have h := vals_prefix I ins hp
    rw [List.prefix_iff_eq_take, vals_length] at h
    exact h.symm

theorem Step.refl (I : Sem X O P) {st : St X O P} (h : Inv st) : Step I st st := ⟨h, List.prefix_refl _⟩

theorem Step.trans {I : Sem X O P} {a b c : St X O P} (h1 : Step I a b) (h2 : Step I b c) :
    Step I a c := ⟨h2.inv, h1.pre.trans h2.pre⟩

theorem argVal_step (I : Sem X O P) (ins : List X) {st st' : St X O P} (h : Step I st st') {v : Val X}
    (hv : Ok st.nodes.length v) : argVal I (vals I ins st') v = argVal I (vals I ins st) v :=
  argVal_prefix I (vals_prefix I ins h.pre) (by rw [vals_length]; exact hv)

theorem env_step (I : Sem X O P) (ins : List X) {st st' : St X O P} (h : Step I st st')
    {env : List (Val X)} (hv : ∀ v ∈ env, Ok st.nodes.length v) :
    env.map (argVal I (vals I ins st')) = env.map (argVal I (vals I ins st)) :=
  List.map_congr_left fun v hm => argVal_step I ins h (hv v hm)

theorem getD_ok {k : ℕ} {env : List (Val X)} (h : ∀ v ∈ env, Ok k v) (d : X) (i : ℕ) :
    Ok k (env.getD i (.const d)) := by
  by_cases hi : i < env.length
  · rw [List.getD_eq_getElem _ _ hi]
    exact h _ (List.getElem_mem hi)
  · rw [List.getD_eq_default _ _ (by omega)]
    trivial

theorem lookup_mem [DecidableEq P] {B : Type} {p : P} {n : B} : ∀ {l : List (P × B)},
    l.lookup p = some n → (p, n) ∈ l
  | [], h => by cases h
  | (q, m) :: l, h => by
    rw [List.lookup_cons] at h
    by_cases hq : p = q
    · subst hq
      simp at h
      subst h
      exact List.Mem.head _
    · rw [show (p == q) = false by simpa using hq] at h
      exact List.Mem.tail _ (lookup_mem h)

variable [DecidableEq P]

/-- The recording of a call. -/
theorem call_node (I : Sem X O P) {st st1 : St X O P} (h1 : Step I st st1) (how : How)
    (body : List (Stmt O P)) (ret : ℕ) {env : List (Val X)} (args : List ℕ)
    (he : ∀ v ∈ env, Ok st.nodes.length v) :
    Step I st (push (.call how body ret (args.map (fun i => env.getD i (.const I.dflt)))) st1).1
    ∧ Ok (push (.call how body ret (args.map (fun i => env.getD i (.const I.dflt)))) st1).1.nodes.length
        (push (.call how body ret (args.map (fun i => env.getD i (.const I.dflt)))) st1).2
    ∧ ∀ ins, argVal I
        (vals I ins (push (.call how body ret (args.map (fun i => env.getD i (.const I.dflt)))) st1).1)
        (push (.call how body ret (args.map (fun i => env.getD i (.const I.dflt)))) st1).2
      = runStmt I (.call how body ret args) (env.map (argVal I (vals I ins st))) := by
  have hok := args_ok (fun v hv => ok_prefix h1.pre (he v hv)) I.dflt args
  obtain ⟨a, b, c, d⟩ := push_step I h1.inv
    (.call how body ret (args.map (fun i => env.getD i (.const I.dflt)))) hok
  refine ⟨h1.trans a, ?_, fun ins => ?_⟩
  · rw [b, c, List.length_append, List.length_singleton]
    exact Nat.lt_succ_self _
  · rw [b, d ins, nodeVal, runStmt, args_val, env_step I ins h1 he]

theorem body_result (I : Sem X O P) {st st1 : St X O P} (how : How)
    (body : List (Stmt O P)) (ret : ℕ) {env : List (Val X)} (args : List ℕ) {env' : List (Val X)}
    (hok : ∀ v ∈ env', Ok st1.nodes.length v)
    (hv : ∀ ins, env'.map (argVal I (vals I ins st1)) = runList I body
        ((args.map (fun i => env.getD i (.const I.dflt))).map (argVal I (vals I ins st)))) :
    Ok st1.nodes.length (env'.getD ret (.const I.dflt))
    ∧ ∀ ins, argVal I (vals I ins st1) (env'.getD ret (.const I.dflt))
      = runStmt I (.call how body ret args) (env.map (argVal I (vals I ins st))) := by
  refine ⟨getD_ok hok _ _, fun ins => ?_⟩
  rw [getD_argVal, hv ins, args_val, runStmt]

mutual

theorem stmt_sound (I : Sem X O P) : ∀ (s : Stmt O P) (env : List (Val X)) (st : St X O P), Inv st →
    (∀ v ∈ env, Ok st.nodes.length v) →
    Step I st (traceStmt I s env st).1
    ∧ ∀ v, (traceStmt I s env st).2 = some v → Ok (traceStmt I s env st).1.nodes.length v
      ∧ ∀ ins, argVal I (vals I ins (traceStmt I s env st).1) v
          = runStmt I s (env.map (argVal I (vals I ins st)))
  | .prim o args, env, st, hi, he => by
    have hok := args_ok he I.dflt args
    obtain ⟨a, b, c, d⟩ := push_step I hi (.op o (args.map (fun i => env.getD i (.const I.dflt)))) hok
    rw [traceStmt]
    by_cases hp : hasProxy (args.map (fun i => env.getD i (.const I.dflt))) = true
    · rw [if_pos hp]
      refine ⟨a, fun v hv => ?_⟩
      cases hv
      refine ⟨?_, fun ins => ?_⟩
      · show st.nodes.length < (st.nodes ++ [_]).length
        simp
      · exact (d ins).trans (by rw [nodeVal, runStmt, args_val])
    · rw [if_neg hp]
      refine ⟨Step.refl I hi, fun v hv => ?_⟩
      cases hv
      refine ⟨trivial, fun ins => ?_⟩
      rw [argVal, consts_eq I (vals I ins st) _ (by simpa using hp), runStmt, args_val]
  | .strict o args, env, st, hi, he => by
    rw [traceStmt]
    by_cases hp : hasProxy (args.map (fun i => env.getD i (.const I.dflt))) = true
    · rw [if_pos hp]
      exact ⟨Step.refl I hi, fun v hv => by cases hv⟩
    · rw [if_neg hp]
      refine ⟨Step.refl I hi, fun v hv => ?_⟩
      cases hv
      refine ⟨trivial, fun ins => ?_⟩
      rw [argVal, consts_eq I (vals I ins st) _ (by simpa using hp), runStmt, args_val]
  | .param p, env, st, hi, he => by
    rw [traceStmt]
    unfold readParam
    cases hc : st.cache.lookup p with
    | some n =>
      dsimp only
      have hn := hi.cache _ (lookup_mem hc)
      refine ⟨Step.refl I hi, fun v hv => ?_⟩
      cases hv
      refine ⟨(List.getElem?_eq_some_iff.1 hn).1, fun ins => ?_⟩
      rw [argVal, vals_get I ins st hn, nodeVal, runStmt]
    | none =>
      dsimp only
      obtain ⟨a, b, c, d⟩ := push_step I hi (.getAttr p) (by simp [argsOf])
      refine ⟨⟨⟨a.inv.order, ?_⟩, a.pre⟩, fun v hv => ?_⟩
      · intro e hm
        rcases List.mem_append.1 hm with hm | hm
        · exact a.inv.cache e hm
        · rw [List.mem_singleton.1 hm]
          show (st.nodes ++ [.getAttr p])[st.nodes.length]? = _
          simp
      · cases hv
        refine ⟨?_, fun ins => ?_⟩
        · show st.nodes.length < (st.nodes ++ [_]).length
          simp
        · exact d ins
  | .call how body ret args, env, st, hi, he => by
    have hok := args_ok he I.dflt args
    obtain ⟨hs, hv⟩ := list_sound I body (args.map (fun i => env.getD i (.const I.dflt))) st hi hok
    cases how with
    | modl leaf =>
      cases leaf with
      | true =>
        rw [traceStmt]
        obtain ⟨a, b, c⟩ := call_node I (Step.refl I hi) (.modl true) body ret args he
        exact ⟨a, fun v hv => by cases hv; exact ⟨b, c⟩⟩
      | false =>
        rw [traceStmt]
        cases hb : traceList I body (args.map (fun i => env.getD i (.const I.dflt))) st with
        | mk st1 r =>
          rw [hb] at hs hv
          cases r with
          | some env' =>
            dsimp only
            obtain ⟨h1, h2⟩ := hv env' rfl
            obtain ⟨h3, h4⟩ := body_result I (.modl false) body ret args h1 h2
            exact ⟨hs, fun v hv => by cases hv; exact ⟨h3, h4⟩⟩
          | none =>
            dsimp only
            obtain ⟨a, b, c⟩ := call_node I hs (.modl false) body ret args he
            exact ⟨a, fun v hv => by cases hv; exact ⟨b, c⟩⟩
    | func =>
      rw [traceStmt]
      cases hb : traceList I body (args.map (fun i => env.getD i (.const I.dflt))) st with
      | mk st1 r =>
        rw [hb] at hs hv
        cases r with
        | some env' =>
          dsimp only
          obtain ⟨h1, h2⟩ := hv env' rfl
          obtain ⟨h3, h4⟩ := body_result I .func body ret args h1 h2
          exact ⟨hs, fun v hv => by cases hv; exact ⟨h3, h4⟩⟩
        | none =>
          dsimp only
          by_cases hp : hasProxy (args.map (fun i => env.getD i (.const I.dflt))) = true
          · rw [if_pos hp]
            obtain ⟨a, b, c⟩ := call_node I hs .func body ret args he
            exact ⟨a, fun v hv => by cases hv; exact ⟨b, c⟩⟩
          · rw [if_neg hp]
            have hok1 : ∀ v ∈ args.map (fun i => env.getD i (.const I.dflt)), Ok st1.nodes.length v :=
              fun v hv => ok_prefix hs.pre (hok v hv)
            obtain ⟨hs2, hv2⟩ := list_sound I body (args.map (fun i => env.getD i (.const I.dflt))) st1
              hs.inv hok1
            cases hb2 : traceList I body (args.map (fun i => env.getD i (.const I.dflt))) st1 with
            | mk st2 r2 =>
              rw [hb2] at hs2 hv2
              cases r2 with
              | some env' =>
                dsimp only
                obtain ⟨h1, h2⟩ := hv2 env' rfl
                obtain ⟨h3, h4⟩ := body_result I (st := st) (env := env) .func body ret args h1
                  (fun ins => by rw [h2 ins, env_step I ins hs hok])
                exact ⟨hs.trans hs2, fun v hv => by cases hv; exact ⟨h3, h4⟩⟩
              | none =>
                dsimp only
                exact ⟨hs.trans hs2, fun v hv => by cases hv⟩
  termination_by structural s => s

theorem list_sound (I : Sem X O P) : ∀ (l : List (Stmt O P)) (env : List (Val X)) (st : St X O P),
    Inv st → (∀ v ∈ env, Ok st.nodes.length v) →
    Step I st (traceList I l env st).1
    ∧ ∀ env', (traceList I l env st).2 = some env' →
      (∀ v ∈ env', Ok (traceList I l env st).1.nodes.length v)
      ∧ ∀ ins, env'.map (argVal I (vals I ins (traceList I l env st).1))
          = runList I l (env.map (argVal I (vals I ins st)))
  | [], env, st, hi, he => by
    rw [traceList]
    refine ⟨Step.refl I hi, fun env' h => ?_⟩
    cases h
    exact ⟨he, fun ins => by rw [runList]⟩
  | s :: l, env, st, hi, he => by
    obtain ⟨hs, hv⟩ := stmt_sound I s env st hi he
    rw [traceList]
    cases hb : traceStmt I s env st with
    | mk st1 r =>
      rw [hb] at hs hv
      cases r with
      | none =>
        dsimp only
        exact ⟨hs, fun env' h => by cases h⟩
      | some v =>
        dsimp only
        obtain ⟨h1, h2⟩ := hv v rfl
        have hok : ∀ w ∈ env ++ [v], Ok st1.nodes.length w := by
          intro w hw
          rcases List.mem_append.1 hw with hw | hw
          · exact ok_prefix hs.pre (he w hw)
          · rw [List.mem_singleton.1 hw]
            exact h1
        obtain ⟨hs2, hv2⟩ := list_sound I l (env ++ [v]) st1 hs.inv hok
        refine ⟨hs.trans hs2, fun env' h => ⟨(hv2 env' h).1, fun ins => ?_⟩⟩
        rw [(hv2 env' h).2 ins, runList, List.map_append, env_step I ins hs he, List.map_singleton,
          h2 ins]
  termination_by structural l => l

end

theorem start_inv (k : ℕ) : Inv (⟨(List.range k).map Node.input, []⟩ : St X O P) := by
  refine ⟨fun n nd h v hv => ?_, by simp⟩
  rw [List.getElem?_map] at h
  cases hr : (List.range k)[n]? with
  | none => rw [hr] at h; cases h
  | some i =>
    rw [hr] at h
    cases h
    cases hv

theorem start_vals (I : Sem X O P) (ins : List X) :
    ((List.range ins.length).map Val.proxy).map
      (argVal I (vals I ins ⟨(List.range ins.length).map Node.input, ([] : List (P × ℕ))⟩)) = ins := by
  refine List.ext_getElem (by simp) fun i h1 h2 => ?_
  rw [List.getElem_map, List.getElem_map, List.getElem_range, argVal,
    vals_get I ins _ (n := i) (nd := .input i) (by simp [h2]), nodeVal, List.getD_eq_getElem _ _ h2]

theorem trace_eq {I : Sem X O P} {p : Prog O P} {nodes : List (Node X O P)} {out : Val X}
    (h : trace I p = some (nodes, out)) : ∃ st env,
      traceList I p.body ((List.range p.inputs).map Val.proxy)
        ⟨(List.range p.inputs).map Node.input, []⟩ = (st, some env)
      ∧ st.nodes = nodes ∧ env.getD p.ret (.const I.dflt) = out := by
  unfold trace at h
  cases hb : traceList I p.body ((List.range p.inputs).map Val.proxy)
        (⟨(List.range p.inputs).map Node.input, []⟩ : St X O P) with
  | mk st r =>
    rw [hb] at h
    cases r with
    | none => cases h
    | some env =>
      cases h
      exact ⟨st, env, rfl, rfl, rfl⟩

theorem start_ok (k : ℕ) : ∀ v ∈ (List.range k).map (Val.proxy (X := X)),
    Ok (⟨(List.range k).map Node.input, []⟩ : St X O P).nodes.length v := by
  intro v hv
  obtain ⟨i, hi, rfl⟩ := List.mem_map.1 hv
  simpa [Ok] using List.mem_range.1 hi

/-- Executing the traced graph gives what the network computes. -/
theorem trace_sound {I : Sem X O P} {p : Prog O P} {nodes : List (Node X O P)} {out : Val X}
    (h : trace I p = some (nodes, out)) (ins : List X) (hl : ins.length = p.inputs) :
    exec I nodes out ins = output I p ins := by
  obtain ⟨st, env, ht, rfl, rfl⟩ := trace_eq h
  obtain ⟨hs, hv⟩ := list_sound I p.body _ _ (start_inv p.inputs) (start_ok p.inputs)
  rw [ht] at hs hv
  have h2 := (hv env rfl).2 ins
  unfold exec output
  show argVal I (vals I ins st) _ = _
  rw [getD_argVal, h2]
  congr 2
  rw [← hl]
  exact start_vals I ins

theorem trace_inv {I : Sem X O P} {p : Prog O P} {nodes : List (Node X O P)} {out : Val X}
    (h : trace I p = some (nodes, out)) :
    (∀ n nd, nodes[n]? = some nd → ∀ v ∈ argsOf nd, Ok n v) ∧ Ok nodes.length out
    ∧ (List.range p.inputs).map Node.input <+: nodes := by
  obtain ⟨st, env, ht, rfl, rfl⟩ := trace_eq h
  obtain ⟨hs, hv⟩ := list_sound I p.body _ _ (start_inv p.inputs) (start_ok p.inputs)
  rw [ht] at hs hv
  exact ⟨hs.inv.order, getD_ok (hv env rfl).1 _ _, hs.pre⟩

theorem arg_same (I : Sem X O P) {a b : List X} {k : ℕ} {v : Val X} (hv : Ok k v)
    (h : ∀ m, m < k → v = .proxy m → a.getD m I.dflt = b.getD m I.dflt) :
    argVal I a v = argVal I b v := by
  cases v with
  | proxy m => exact h m hv rfl
  | const x => rfl

theorem take_getD (I : Sem X O P) (a : List X) {m n : ℕ} (h : m < n) :
    (a.take n).getD m I.dflt = a.getD m I.dflt := by
  rw [List.getD_eq_getElem?_getD, List.getD_eq_getElem?_getD, List.getElem?_take_of_lt h]

/-- A node that is not reached from input `i` has the same value for all values of it. -/
theorem same_value (I : Sem X O P) {st : St X O P}
    (ho : ∀ n nd, st.nodes[n]? = some nd → ∀ v ∈ argsOf nd, Ok n v) {i : ℕ} {ins ins' : List X}
    (hins : ∀ j, j ≠ i → ins.getD j I.dflt = ins'.getD j I.dflt) : ∀ n : ℕ,
    (∀ m, st.nodes[m]? = some (.input i) → ¬ Relation.ReflTransGen (Reads st.nodes) m n) →
    (vals I ins st).getD n I.dflt = (vals I ins' st).getD n I.dflt := by
  intro n
  induction n using Nat.strongRecOn with
  | ind n ih =>
    intro hn
    cases hnd : st.nodes[n]? with
    | none =>
      have : st.nodes.length ≤ n := by simpa using hnd
      rw [List.getD_eq_default _ _ (by rw [vals_length]; exact this),
        List.getD_eq_default _ _ (by rw [vals_length]; exact this)]
    | some nd =>
      rw [vals_get I ins st hnd, vals_get I ins' st hnd]
      have hargs : ∀ v ∈ argsOf nd, argVal I ((vals I ins st).take n) v
          = argVal I ((vals I ins' st).take n) v := by
        intro v hv
        refine arg_same I (ho n nd hnd v hv) fun m hm he => ?_
        rw [take_getD I _ hm, take_getD I _ hm]
        refine ih m hm fun k hk hr => hn k hk (hr.tail ⟨nd, hnd, he ▸ hv⟩)
      cases nd with
      | input j =>
        rw [nodeVal, nodeVal]
        refine hins j fun he => ?_
        subst he
        exact hn n hnd Relation.ReflTransGen.refl
      | getAttr q => rfl
      | op o args => rw [nodeVal, nodeVal, List.map_congr_left (l := args) hargs]
      | call how body ret args => rw [nodeVal, nodeVal, List.map_congr_left (l := args) hargs]

theorem hasProxy_of : ∀ {as : List (Val X)} {n : ℕ}, Val.proxy n ∈ as → hasProxy as = true
  | [], _, h => by cases h
  | .proxy m :: l, _, _ => rfl
  | .const x :: l, n, h => by
    rcases List.mem_cons.1 h with h | h
    · cases h
    · exact hasProxy_of (as := l) h

theorem arg_proxy {k : ℕ} {env : List (Val X)} (hp : (List.range k).map Val.proxy <+: env) (d : X)
    {args : List ℕ} {i : ℕ} (hi : i ∈ args) (hk : i < k) :
    hasProxy (args.map (fun i => env.getD i (.const d))) = true := by
  refine hasProxy_of (n := i) (List.mem_map.2 ⟨i, hi, ?_⟩)
  obtain ⟨c, rfl⟩ := hp
  rw [List.getD_eq_getElem?_getD, List.getElem?_append_left (by simpa using hk)]
  simp [hk]

theorem safe_some (I : Sem X O P) {k : ℕ} {s : Stmt O P} (hs : SafeStmt k s) {env : List (Val X)}
    (hp : (List.range k).map Val.proxy <+: env) (st : St X O P) :
    ∃ st' v, traceStmt I s env st = (st', some v) := by
  cases s with
  | prim o args =>
    rw [traceStmt]
    by_cases h : hasProxy (args.map (fun i => env.getD i (.const I.dflt))) = true
    · rw [if_pos h]; exact ⟨_, _, rfl⟩
    · rw [if_neg h]; exact ⟨_, _, rfl⟩
  | strict o args => exact hs.elim
  | param q => rw [traceStmt]; exact ⟨_, _, rfl⟩
  | call how body ret args =>
    cases how with
    | modl leaf =>
      cases leaf with
      | true => rw [traceStmt]; exact ⟨_, _, rfl⟩
      | false =>
        rw [traceStmt]
        cases hb : traceList I body (args.map (fun i => env.getD i (.const I.dflt))) st with
        | mk st1 r =>
          cases r with
          | some env' => exact ⟨_, _, rfl⟩
          | none => exact ⟨_, _, rfl⟩
    | func =>
      obtain ⟨i, hi, hk⟩ := hs
      rw [traceStmt]
      cases hb : traceList I body (args.map (fun i => env.getD i (.const I.dflt))) st with
      | mk st1 r =>
        cases r with
        | some env' => exact ⟨_, _, rfl⟩
        | none =>
          dsimp only
          rw [if_pos (arg_proxy hp I.dflt hi hk)]
          exact ⟨_, _, rfl⟩

theorem safeList_some (I : Sem X O P) {k : ℕ} : ∀ (l : List (Stmt O P)), (∀ s ∈ l, SafeStmt k s) →
    ∀ (env : List (Val X)), (List.range k).map Val.proxy <+: env → ∀ st : St X O P,
    ∃ st' env', traceList I l env st = (st', some env')
  | [], _, env, _, st => ⟨st, env, by rw [traceList]⟩
  | s :: l, hs, env, hp, st => by
    obtain ⟨st1, v, h⟩ := safe_some I (hs s (List.Mem.head _)) hp st
    rw [traceList, h]
    exact safeList_some I l (fun t ht => hs t (List.Mem.tail _ ht)) _
      (hp.trans (List.prefix_append _ _)) st1

theorem branch_none (I : Sem X O P) {k : ℕ} (o : O) {args : List ℕ} {i : ℕ} (hi : i ∈ args)
    (hk : i < k) (post : List (Stmt O P)) : ∀ (pre : List (Stmt O P)) (env : List (Val X)),
    (List.range k).map Val.proxy <+: env → ∀ st : St X O P,
    (traceList I (pre ++ .strict o args :: post) env st).2 = none
  | [], env, hp, st => by
    rw [List.nil_append, traceList, traceStmt, if_pos (arg_proxy hp I.dflt hi hk)]
  | s :: pre, env, hp, st => by
    rw [List.cons_append, traceList]
    cases h : traceStmt I s env st with
    | mk st1 r =>
      cases r with
      | none => rfl
      | some v => exact branch_none I o hi hk post pre _ (hp.trans (List.prefix_append _ _)) st1

theorem leaf_push {st : St X O P} (h : LeafOnly st.nodes) {nd : Node X O P}
    (hn : ∀ how body ret args, nd = .call how body ret args → how = .modl true) :
    LeafOnly (push nd st).1.nodes := by
  intro nd' hm
  rcases List.mem_append.1 hm with hm | hm
  · exact h nd' hm
  · rw [List.mem_singleton.1 hm]
    exact hn

mutual

theorem clear_stmt (I : Sem X O P) : ∀ (s : Stmt O P), clear s = true → ∀ (env : List (Val X))
    (st : St X O P), LeafOnly st.nodes →
    ∃ st' v, traceStmt I s env st = (st', some v) ∧ LeafOnly st'.nodes
  | .prim o args, _, env, st, h => by
    rw [traceStmt]
    by_cases hp : hasProxy (args.map (fun i => env.getD i (.const I.dflt))) = true
    · rw [if_pos hp]
      exact ⟨_, _, rfl, leaf_push h (fun _ _ _ _ he => by cases he)⟩
    · rw [if_neg hp]
      exact ⟨_, _, rfl, h⟩
  | .strict o args, hc, env, st, h => by
    rw [clear] at hc
    cases hc
  | .param q, _, env, st, h => by
    rw [traceStmt]
    unfold readParam
    cases st.cache.lookup q with
    | some n => exact ⟨_, _, rfl, h⟩
    | none => exact ⟨_, _, rfl, leaf_push (nd := .getAttr q) h (fun _ _ _ _ he => by cases he)⟩
  | .call how body ret args, hc, env, st, h => by
    rw [clear] at hc
    obtain ⟨st1, env', hb, hl⟩ := clear_list I body hc
      (args.map (fun i => env.getD i (.const I.dflt))) st h
    cases how with
    | modl leaf =>
      cases leaf with
      | true =>
        rw [traceStmt]
        exact ⟨_, _, rfl, leaf_push h (fun _ _ _ _ he => by cases he; rfl)⟩
      | false =>
        rw [traceStmt, hb]
        exact ⟨_, _, rfl, hl⟩
    | func =>
      rw [traceStmt, hb]
      exact ⟨_, _, rfl, hl⟩
  termination_by structural s => s

theorem clear_list (I : Sem X O P) : ∀ (l : List (Stmt O P)), clearAll l = true →
    ∀ (env : List (Val X)) (st : St X O P), LeafOnly st.nodes →
    ∃ st' env', traceList I l env st = (st', some env') ∧ LeafOnly st'.nodes
  | [], _, env, st, h => ⟨st, env, by rw [traceList], h⟩
  | s :: l, hc, env, st, h => by
    rw [clearAll, Bool.and_eq_true] at hc
    obtain ⟨st1, v, hb, hl⟩ := clear_stmt I s hc.1 env st h
    rw [traceList, hb]
    exact clear_list I l hc.2 _ st1 hl
  termination_by structural l => l

end

end Verif.FxTrace
