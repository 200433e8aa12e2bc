import Verif.Lemmas.FxTrace

namespace Verif.FxTrace

variable {X O P : Type}

/-! ## Specification -/

/-! ## Lemmas -/

variable [DecidableEq P]

/-! ## Properties -/

/-- C81: whenever tracing succeeds, executing the traced graph, with calls that could not
be traced carried out as a whole, gives what the network computes, for all inputs. -/
theorem C81_meaning (I : Sem X O P) (p : Prog O P) {nodes : List (Node X O P)} {out : Val X}
    (h : trace I p = some (nodes, out)) (ins : List X) (hl : ins.length = p.inputs) :
    exec I nodes out ins = output I p ins := trace_sound h ins hl

/-- C81: the graph begins with the inputs, a node reads only nodes before it, and the
output is a node of the graph or a constant. -/
theorem C81_order (I : Sem X O P) (p : Prog O P) {nodes : List (Node X O P)} {out : Val X}
    (h : trace I p = some (nodes, out)) :
    (List.range p.inputs).map Node.input <+: nodes
    ∧ (∀ m n, Reads nodes m n → m < n)
    ∧ ∀ n, out = .proxy n → n < nodes.length := by
  obtain ⟨a, b, c⟩ := trace_inv h
  refine ⟨c, ?_, ?_⟩
  · rintro m n ⟨nd, h1, h2⟩
    exact a n nd h1 _ h2
  · rintro n rfl
    exact b

/-- C81: an input that is not connected to the output in the traced graph has no
influence on what the network computes. -/
theorem C81_dependence (I : Sem X O P) (p : Prog O P) {nodes : List (Node X O P)} {out : Val X}
    (h : trace I p = some (nodes, out)) {i : ℕ} (hc : ¬ Connected nodes out i) {ins ins' : List X}
    (hl : ins.length = p.inputs) (hl' : ins'.length = p.inputs)
    (hins : ∀ j, j ≠ i → ins[j]? = ins'[j]?) : output I p ins = output I p ins' := by
  rw [← C81_meaning I p h ins hl, ← C81_meaning I p h ins' hl']
  unfold exec
  have hd : ∀ j, j ≠ i → ins.getD j I.dflt = ins'.getD j I.dflt := fun j hj => by
    rw [List.getD_eq_getElem?_getD, List.getD_eq_getElem?_getD, hins j hj]
  cases hout : out with
  | const x => rfl
  | proxy n =>
    exact same_value I (st := ⟨nodes, []⟩) (trace_inv h).1 hd n
      (fun m hm hr => hc ⟨m, n, hm, hout, hr⟩)

/-- C81: tracing succeeds whenever the forward function of the network itself contains
only traceable operations, calls of modules, and calls of functions that are given an
input of the network, whatever is inside the modules and functions. -/
theorem C81_total (I : Sem X O P) (p : Prog O P) (h : ∀ s ∈ p.body, SafeStmt p.inputs s) :
    ∃ nodes out, trace I p = some (nodes, out) := by
  obtain ⟨st, env, e⟩ := safeList_some I p.body h _ (List.prefix_refl _)
    (⟨(List.range p.inputs).map Node.input, []⟩ : St X O P)
  unfold trace
  rw [e]
  exact ⟨_, _, rfl⟩

/-- C81: a network without operations that raise on proxies is traced down to operations
and leaf modules. -/
theorem C81_complete (I : Sem X O P) (p : Prog O P) (h : clearAll p.body = true) :
    ∃ nodes out, trace I p = some (nodes, out)
      ∧ ∀ how body ret args, Node.call how body ret args ∈ nodes → how = .modl true := by
  obtain ⟨st, env, e, hl⟩ := clear_list I p.body h ((List.range p.inputs).map Val.proxy)
    ⟨(List.range p.inputs).map Node.input, []⟩ (by
      intro nd hm how body ret args he
      obtain ⟨i, _, rfl⟩ := List.mem_map.1 hm
      cases he)
  unfold trace
  rw [e]
  exact ⟨_, _, rfl, fun how body ret args hm => hl _ hm how body ret args rfl⟩

/-- C81, DISAGREEMENT: only called functions are recorded as a whole; a network whose
forward function itself branches on an input cannot be traced. -/
theorem C81_root_branch_fails (I : Sem X O P) (k : ℕ) (pre post : List (Stmt O P)) (o : O)
    {args : List ℕ} (ret : ℕ) {i : ℕ} (hi : i ∈ args) (hk : i < k) :
    trace I ⟨k, pre ++ .strict o args :: post, ret⟩ = none := by
  have h := branch_none I o hi hk post pre ((List.range k).map Val.proxy) (List.prefix_refl _)
    (⟨(List.range k).map Node.input, []⟩ : St X O P)
  unfold trace
  dsimp only
  cases hb : traceList I (pre ++ .strict o args :: post) ((List.range k).map Val.proxy)
    (⟨(List.range k).map Node.input, []⟩ : St X O P) with
  | mk st r =>
    rw [hb] at h
    cases h
    rfl

/-- C81, DISAGREEMENT: a function that gets no proxy but fails on a parameter it reads is
called a second time and fails again, so that the network cannot be traced. -/
theorem C81_no_proxy_fails (I : Sem X O P) (q : P) (o : O) (ret : ℕ) :
    trace I ⟨1, [.call .func [.param q, .strict o [0]] 1 []], ret⟩ = none := by
  simp [trace, traceList, traceStmt, readParam, hasProxy]

/-- C81, DISAGREEMENT: what was recorded before a call failed stays in the graph: the
graph can contain nodes that nothing reads and that stand for work done again inside the
recorded call. -/
theorem C81_leftover_violated (I : Sem X O P) (o o' : O) :
    trace I ⟨1, [.call .func [.prim o [0], .strict o' [1]] 2 [0]], 1⟩
      = some ([.input 0, .op o [.proxy 0], .call .func [.prim o [0], .strict o' [1]] 2 [.proxy 0]],
          .proxy 2)
    ∧ ¬ Reads ([.input 0, .op o [.proxy 0],
        .call .func [.prim o [0], .strict o' [1]] 2 [.proxy 0]] : List (Node X O P)) 1 2 := by
  constructor
  · simp [trace, traceList, traceStmt, hasProxy, push]
  · rintro ⟨nd, h1, h2⟩
    cases h1
    simp [argsOf] at h2

/-! ## Examples -/

example : ∀ s ∈ exProg.body, SafeStmt exProg.inputs s := by
  intro s hs
  rcases List.mem_cons.1 hs with rfl | hs
  · trivial
  · rw [List.mem_singleton.1 hs]
    exact ⟨0, List.Mem.head _, by decide⟩

example : trace exSem exProg = some ([.input 0, .input 1, .getAttr 1, .op 1 [.proxy 0, .proxy 2],
    .op 0 [.proxy 0, .proxy 3],
    .call .func [.prim 0 [0, 1], .strict 2 [2]] 3 [.proxy 0, .proxy 3]], .proxy 5) := rfl

example : output exSem exProg [-3, 7] = 12 := rfl

example : ¬ Connected ([.input 0, .input 1, .op 0 [.proxy 0]] : List (Node Int ℕ ℕ)) (.proxy 2) 1 := by
  rintro ⟨m, n, hm, hn, hr⟩
  cases hn
  have hm1 : m = 1 := by
    match m, hm with
    | 1, _ => rfl
    | m + 3, hm => cases hm
  subst hm1
  rcases Relation.ReflTransGen.cases_tail hr with h | ⟨c, h1, nd, h2, h3⟩
  · cases h
  · cases h2
    have : c = 0 := by simpa [argsOf] using h3
    subst this
    rcases Relation.ReflTransGen.cases_tail h1 with h | ⟨c', _, nd', h2', h3'⟩
    · cases h
    · cases h2'
      cases h3'

example : clearAll ([.call (.modl false) [.param 1, .prim 1 [0, 1]] 2 [0]] : List (Stmt ℕ ℕ)) = true := by
  decide

end Verif.FxTrace
