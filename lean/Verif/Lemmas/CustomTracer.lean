import Verif.Spec.CustomTracer

/-! Helper lemmas for `Verif/Props/CustomTracer.lean`. -/

namespace Verif.CustomTracer
open Verif

/-! ## Helper lemmas -/

/-- The module a node fetches. -/
def headFetch (j : ℕ) : GNode → List (ℕ × String)
  | .getAttr t true => [(j, t)]
  | _ => []

/-- The modules fetched by nodes, with their positions. -/
def fetched : ℕ → List GNode → List (ℕ × String)
  | _, [] => []
  | j, n :: l => headFetch j n ++ fetched (j + 1) l

/-- What `prepareFrom` achieves. -/
def PrepOk (methods : String → List String) (j : ℕ) (nodes : List GNode) (special : List (ℕ × String))
    (d : List (String × List String)) : Prop :=
  ∃ d', prepareFrom methods j nodes special d = .ok d' ∧
    (∀ t m, t ∉ (fetched j nodes).map (fun p => p.2) → m ∈ (d.lookup t).getD [] →
      m ∈ (d'.lookup t).getD []) ∧
    ∀ name args, .callMethod name args ∈ nodes → ∀ p ∈ special ++ fetched j nodes, p.1 ∈ args →
      name ∈ (d'.lookup p.2).getD []

/-- The uses of its target before position `j`. -/
def usesAt (before l : List String) (j : ℕ) (t : String) : ℕ := uses t (before ++ l.take j)

theorem lookup_put_same {V : Type} (d : List (String × V)) (k : String) (v : V) :
    (put d k v).lookup k = some v := by
  induction d with
  | nil => simp [put]
  | cons p d ih =>
    obtain ⟨k', v'⟩ := p
    rw [put]
    by_cases h : k' = k
    · rw [if_pos h]; simp
    · rw [if_neg h, List.lookup_cons, show (k == k') = false from beq_false_of_ne (Ne.symm h)]
      exact ih

theorem lookup_put_other {V : Type} (d : List (String × V)) {k k' : String} (v : V) (h : k' ≠ k) :
    (put d k v).lookup k' = d.lookup k' := by
  induction d with
  | nil => simp [put, h]
  | cons p d ih =>
    obtain ⟨a, b⟩ := p
    rw [put]
    by_cases h' : a = k
    · rw [if_pos h', List.lookup_cons, List.lookup_cons, h', beq_false_of_ne h]
    · rw [if_neg h', List.lookup_cons, List.lookup_cons, ih]

theorem registerOne_names {w : World} {d : List (String × Cls)} {source : List String} {m : Cls × String}
    (h : Names w source m) : registerOne w d source = .ok (put d m.2 m.1) := by
  obtain ⟨path, cls, f, rfl, hp, hf, hc, k, hk, hn⟩ := h
  have e : (path ++ [cls, m.2]).reverse = m.2 :: cls :: path.reverse := by simp
  unfold registerOne
  rw [e]
  dsimp only
  rw [if_neg (by simpa using hp), List.reverse_reverse, hf]
  dsimp only
  rw [hc]
  dsimp only
  rw [if_pos]
  unfold hasMethod
  rw [List.any_eq_true]
  exact ⟨k, hk, by simpa using hn⟩

theorem registerAll_names {w : World} : ∀ {sources : List (List String)} {ms : List (Cls × String)}
    (d : List (String × Cls)), List.Forall₂ (Names w) sources ms →
    registerAll w d sources = .ok (ms.foldl (fun d m => put d m.2 m.1) d)
  | [], _, d, h => by
    cases h
    rfl
  | s :: l, _, d, h => by
    cases h with
    | cons h1 h2 =>
      rw [registerAll, registerOne_names h1]
      dsimp only
      rw [registerAll_names _ h2]
      rfl

theorem lookup_foldl_notMem : ∀ (ms : List (Cls × String)) (d : List (String × Cls)) (name : String),
    name ∉ ms.map (fun m => m.2) →
    (ms.foldl (fun d m => put d m.2 m.1) d).lookup name = d.lookup name
  | [], _, _, _ => rfl
  | m :: ms, d, name, h => by
    rw [List.map_cons, List.mem_cons, not_or] at h
    rw [List.foldl_cons, lookup_foldl_notMem ms _ name h.2, lookup_put_other _ _ h.1]

theorem lookup_foldl_mem : ∀ (ms : List (Cls × String)) (d : List (String × Cls)),
    (ms.map (fun m => m.2)).Nodup → ∀ m ∈ ms,
    (ms.foldl (fun d m => put d m.2 m.1) d).lookup m.2 = some m.1
  | a :: ms, d, hn, m, hm => by
    rw [List.map_cons, List.nodup_cons] at hn
    rw [List.foldl_cons]
    rcases List.mem_cons.mp hm with rfl | hm
    · rw [lookup_foldl_notMem ms _ _ hn.1, lookup_put_same]
    · exact lookup_foldl_mem ms _ hn.2 m hm

theorem resolve_iff (w : World) (o : Cls) (name : String) : ∀ l : List Cls,
    resolve w o name l = some o ↔ ∃ a b, l = a ++ o :: b ∧ o ∉ a ∧ ∀ k ∈ a, name ∉ w.own k
  | [] => by
    constructor
    · intro h; cases h
    · rintro ⟨a, b, h, _⟩
      simp at h
  | k :: l => by
    rw [resolve]
    by_cases hk : k = o
    · rw [if_pos (Or.inl hk)]
      constructor
      · intro _
        exact ⟨[], l, by rw [hk]; rfl, by simp, by simp⟩
      · intro _; rw [hk]
    · by_cases hn : name ∈ w.own k
      · rw [if_pos (Or.inr hn)]
        constructor
        · intro h; exact absurd (Option.some.inj h) hk
        · rintro ⟨a, b, h, _, ha⟩
          cases a with
          | nil => exact absurd (List.cons.inj h).1 hk
          | cons x a =>
            have := (List.cons.inj h).1
            subst this
            exact absurd hn (ha _ List.mem_cons_self)
      · rw [if_neg (by tauto), resolve_iff w o name l]
        constructor
        · rintro ⟨a, b, h, h1, h2⟩
          refine ⟨k :: a, b, by rw [h]; rfl, ?_, ?_⟩
          · rw [List.mem_cons, not_or]; exact ⟨Ne.symm hk, h1⟩
          · intro x hx
            rcases List.mem_cons.mp hx with rfl | hx
            · exact hn
            · exact h2 x hx
        · rintro ⟨a, b, h, h1, h2⟩
          cases a with
          | nil => exact absurd (List.cons.inj h).1 hk
          | cons x a =>
            have := (List.cons.inj h).1
            subst this
            exact ⟨a, b, (List.cons.inj h).2, fun h' => h1 (List.mem_cons_of_mem _ h'),
              fun y hy => h2 y (List.mem_cons_of_mem _ hy)⟩

theorem wrapped_iff (w : World) (ms : List (Cls × String)) (hn : (ms.map (fun m => m.2)).Nodup)
    (c : Cls) (name : String) :
    wrapped w (ms.foldl (fun d m => put d m.2 m.1) []) c name = true ↔ Skipped w ms c name := by
  unfold wrapped Skipped Inherits
  by_cases hm : name ∈ ms.map (fun m => m.2)
  · obtain ⟨m, hm', rfl⟩ := List.mem_map.mp hm
    replace hm := hm'
    rw [lookup_foldl_mem ms [] hn m hm]
    dsimp only
    rw [decide_eq_true_iff, resolve_iff]
    constructor
    · rintro ⟨a, b, h⟩
      exact ⟨m.1, hm, a, b, h⟩
    · rintro ⟨o, ho, h⟩
      have : (o, m.2) = m := List.inj_on_of_nodup_map hn ho hm rfl
      rw [← this]
      exact h
  · rw [lookup_foldl_notMem ms [] name hm]
    constructor
    · intro h; cases h
    · rintro ⟨o, ho, _⟩
      exact absurd (List.mem_map.mpr ⟨_, ho, rfl⟩) hm

mutual
theorem traceStmt_spec (w : World) (ms : List (Cls × String)) (r : Reg) (t : ℕ)
    (ht : r.tracer = some t)
    (hw : ∀ c name, wrapped w r.methods c name = true ↔ Skipped w ms c name) :
    ∀ s : Stmt, ∃ ns, traceStmt w r t s = .ok ns ∧
      ∀ l ms', Traced w ms l ms' → Traced w ms (s :: l) (ns ++ ms')
  | .op n => ⟨[.op n], by rw [traceStmt], fun _ _ h => .op h⟩
  | .call c name body => by
    rw [traceStmt]
    by_cases h : wrapped w r.methods c name = true
    · rw [if_pos h, if_pos ht]
      exact ⟨_, rfl, fun _ _ h' => .skip ((hw c name).mp h) h'⟩
    · rw [if_neg h]
      obtain ⟨ns, h1, h2⟩ := traceList_spec w ms r t ht hw body
      exact ⟨ns, h1, fun _ _ h' => .enter (fun hs => h ((hw c name).mpr hs)) h2 h'⟩
theorem traceList_spec (w : World) (ms : List (Cls × String)) (r : Reg) (t : ℕ)
    (ht : r.tracer = some t)
    (hw : ∀ c name, wrapped w r.methods c name = true ↔ Skipped w ms c name) :
    ∀ l : List Stmt, ∃ ns, traceList w r t l = .ok ns ∧ Traced w ms l ns
  | [] => ⟨[], by rw [traceList], .nil⟩
  | s :: l => by
    obtain ⟨a, h1, h2⟩ := traceStmt_spec w ms r t ht hw s
    obtain ⟨b, h3, h4⟩ := traceList_spec w ms r t ht hw l
    rw [traceList, h1]
    dsimp only
    rw [h3]
    exact ⟨_, rfl, h2 _ _ h4⟩
end

theorem traceList_single (w : World) (r : Reg) (t : ℕ) (s : Stmt) {ns : List Node}
    (h : traceStmt w r t s = .ok ns) : traceList w r t [s] = .ok ns := by
  rw [traceList, h]
  dsimp only
  rw [traceList]
  simp

theorem addMethods_ok (methods : String → List String) (name : String) (args : List ℕ) :
    ∀ (special : List (ℕ × String)) (d : List (String × List String)),
      (∀ p ∈ special, p.1 ∈ args → '.' ∉ p.2.toList ∧ name ∈ methods p.2) →
      ∃ d', addMethods methods name args special d = .ok d' ∧
        (∀ t m, m ∈ (d.lookup t).getD [] → m ∈ (d'.lookup t).getD []) ∧
        ∀ p ∈ special, p.1 ∈ args → name ∈ (d'.lookup p.2).getD []
  | [], d, _ => ⟨d, rfl, fun _ _ h => h, by simp⟩
  | (i, t) :: special, d, h => by
    rw [addMethods]
    by_cases hi : i ∈ args
    · obtain ⟨h1, h2⟩ := h (i, t) List.mem_cons_self hi
      rw [if_pos hi, if_neg h1, if_pos h2]
      obtain ⟨d', e, k1, k2⟩ := addMethods_ok methods name args special (addMethod d t name)
        (fun p hp => h p (List.mem_cons_of_mem _ hp))
      refine ⟨d', e, fun t' m hm => k1 t' m ?_, fun p hp ha => ?_⟩
      · unfold addMethod
        by_cases ht : t' = t
        · rw [ht, lookup_put_same]
          rw [ht] at hm
          exact List.mem_append_left _ hm
        · rw [lookup_put_other _ _ ht]
          exact hm
      · rcases List.mem_cons.mp hp with rfl | hp
        · refine k1 _ _ ?_
          unfold addMethod
          rw [lookup_put_same]
          exact List.mem_append_right _ List.mem_cons_self
        · exact k2 p hp ha
    · rw [if_neg hi]
      obtain ⟨d', e, k1, k2⟩ := addMethods_ok methods name args special d
        (fun p hp => h p (List.mem_cons_of_mem _ hp))
      refine ⟨d', e, k1, fun p hp ha => ?_⟩
      rcases List.mem_cons.mp hp with rfl | hp
      · exact absurd ha hi
      · exact k2 p hp ha

theorem mem_headFetch {j : ℕ} {n : GNode} {p : ℕ × String} (h : p ∈ headFetch j n) :
    p.1 = j ∧ n = .getAttr p.2 true := by
  cases n with
  | getAttr t b =>
    cases b with
    | false => cases h
    | true =>
      have := List.mem_singleton.mp h
      subst this
      exact ⟨rfl, rfl⟩
  | callMethod _ _ => cases h
  | callModule _ => cases h
  | other => cases h

theorem mem_fetched : ∀ {nodes : List GNode} {j : ℕ} {p : ℕ × String}, p ∈ fetched j nodes →
    j ≤ p.1 ∧ nodes[p.1 - j]? = some (.getAttr p.2 true)
  | [], _, _, h => by cases h
  | n :: l, j, p, h => by
    rcases List.mem_append.mp h with h | h
    · obtain ⟨h1, h2⟩ := mem_headFetch h
      exact ⟨h1.ge, by rw [h1, Nat.sub_self, h2]; rfl⟩
    · obtain ⟨h1, h2⟩ := mem_fetched h
      refine ⟨by omega, ?_⟩
      rw [show p.1 - j = (p.1 - (j + 1)) + 1 by omega, List.getElem?_cons_succ]
      exact h2

theorem fetched_mem : ∀ {nodes : List GNode} {j i : ℕ} {t : String},
    nodes[i]? = some (.getAttr t true) → (j + i, t) ∈ fetched j nodes
  | [], _, _, _, h => by simp at h
  | n :: l, j, 0, t, h => by
    have : n = .getAttr t true := Option.some.inj h
    rw [this]
    exact List.mem_append_left _ List.mem_cons_self
  | n :: l, j, i + 1, t, h => by
    rw [List.getElem?_cons_succ] at h
    have := fetched_mem (j := j + 1) h
    rw [show j + (i + 1) = j + 1 + i by omega]
    exact List.mem_append_right _ this

theorem fetched_nodup : ∀ (nodes : List GNode) (j : ℕ),
    (∀ (i i' : ℕ) t, nodes[i]? = some (GNode.getAttr t true) → nodes[i']? = some (GNode.getAttr t true) → i = i') →
    ((fetched j nodes).map (fun p => p.2)).Nodup
  | [], _, _ => List.nodup_nil
  | n :: l, j, h => by
    have ih := fetched_nodup l (j + 1) (fun i i' t h1 h2 => by
      have := h (i + 1) (i' + 1) t (by rw [List.getElem?_cons_succ]; exact h1)
        (by rw [List.getElem?_cons_succ]; exact h2)
      omega)
    rw [fetched, List.map_append, List.nodup_append]
    refine ⟨?_, ih, ?_⟩
    · cases n with
      | getAttr t b => cases b <;> simp [headFetch]
      | callMethod _ _ => simp [headFetch]
      | callModule _ => simp [headFetch]
      | other => simp [headFetch]
    · rintro a ha b hb rfl
      obtain ⟨p, hp, rfl⟩ := List.mem_map.mp ha
      obtain ⟨q, hq, hqp⟩ := List.mem_map.mp hb
      have h1 := (mem_headFetch hp).2
      obtain ⟨h2, h3⟩ := mem_fetched hq
      have := h 0 (q.1 - (j + 1) + 1) p.2 (by rw [h1]; rfl)
        (by rw [List.getElem?_cons_succ, h3, hqp])
      omega

theorem prepOk_skip {methods : String → List String} {j : ℕ} {n : GNode} {l : List GNode}
    {special : List (ℕ × String)} {d : List (String × List String)} (e1 : headFetch j n = [])
    (e2 : prepareFrom methods j (n :: l) special d = prepareFrom methods (j + 1) l special d)
    (e3 : ∀ name args, n ≠ .callMethod name args) (h : PrepOk methods (j + 1) l special d) :
    PrepOk methods j (n :: l) special d := by
  obtain ⟨d', h1, h2, h3⟩ := h
  unfold PrepOk
  rw [fetched, e1, List.nil_append, e2]
  refine ⟨d', h1, h2, fun name args hm => ?_⟩
  rcases List.mem_cons.mp hm with hm | hm
  · exact absurd hm.symm (e3 name args)
  · exact h3 name args hm

theorem prepareFrom_ok (methods : String → List String) : ∀ (nodes : List GNode) (j : ℕ)
    (special : List (ℕ × String)) (d : List (String × List String)),
    (∀ p ∈ special ++ fetched j nodes, '.' ∉ p.2.toList) →
    ((special ++ fetched j nodes).map (fun p => p.2)).Nodup →
    (∀ name args, .callMethod name args ∈ nodes → ∀ p ∈ special ++ fetched j nodes, p.1 ∈ args →
      name ∈ methods p.2) →
    (∀ (k : ℕ) name args, nodes[k]? = some (GNode.callMethod name args) → ∀ i ∈ args, i < j + k) →
    PrepOk methods j nodes special d
  | [], j, special, d, _, _, _, _ => ⟨d, by rw [prepareFrom], fun _ _ _ h => h, by simp⟩
  | n :: l, j, special, d, hdot, hnd, hmeth, hargs => by
    have hargs' : ∀ (k : ℕ) name args, l[k]? = some (GNode.callMethod name args) →
        ∀ i ∈ args, i < j + 1 + k := by
      intro k name args hk i hi
      have := hargs (k + 1) name args (by rw [List.getElem?_cons_succ]; exact hk) i hi
      omega
    rw [fetched] at hdot hnd hmeth
    have skip (e1 : headFetch j n = []) : PrepOk methods (j + 1) l special d := by
      rw [e1, List.nil_append] at hdot hnd hmeth
      exact prepareFrom_ok methods l (j + 1) special d hdot hnd
        (fun name args hm => hmeth name args (List.mem_cons_of_mem _ hm)) hargs'
    cases n with
    | other => exact prepOk_skip rfl (by rw [prepareFrom]) (by simp) (skip rfl)
    | callModule t => exact prepOk_skip rfl (by rw [prepareFrom]) (by simp) (skip rfl)
    | getAttr t b =>
      cases b with
      | false => exact prepOk_skip rfl (by rw [prepareFrom]) (by simp) (skip rfl)
      | true =>
        have e : headFetch j (.getAttr t true) = [(j, t)] := rfl
        rw [e, ← List.append_assoc] at hdot hnd hmeth
        obtain ⟨d', h1, h2, h3⟩ := prepareFrom_ok methods l (j + 1) (special ++ [(j, t)]) (put d t [])
          hdot hnd (fun name args hm => hmeth name args (List.mem_cons_of_mem _ hm)) hargs'
        unfold PrepOk
        rw [fetched, e, ← List.append_assoc]
        refine ⟨d', by rw [prepareFrom]; exact h1, fun t' m ht hm => h2 t' m ?_ ?_, fun name args hm => ?_⟩
        · intro h
          exact ht (by rw [List.map_append]; exact List.mem_append_right _ h)
        · rw [lookup_put_other]
          · exact hm
          · rintro rfl
            exact ht (by simp)
        · rcases List.mem_cons.mp hm with hm | hm
          · cases hm
          · exact h3 name args hm
    | callMethod name args =>
      have e : headFetch j (.callMethod name args) = [] := rfl
      rw [e, List.nil_append] at hdot hnd hmeth
      obtain ⟨d1, e1, a1, a2⟩ := addMethods_ok methods name args special d (fun p hp ha =>
        ⟨hdot p (List.mem_append_left _ hp),
          hmeth name args List.mem_cons_self p (List.mem_append_left _ hp) ha⟩)
      obtain ⟨d', h1, h2, h3⟩ := prepareFrom_ok methods l (j + 1) special d1 hdot hnd
        (fun name args hm => hmeth name args (List.mem_cons_of_mem _ hm)) hargs'
      unfold PrepOk
      rw [fetched, e, List.nil_append]
      refine ⟨d', by rw [prepareFrom, e1]; exact h1, fun t m ht hm => h2 t m ht (a1 t m hm),
        fun name' args' hm p hp ha => ?_⟩
      rcases List.mem_cons.mp hm with hm | hm
      · obtain ⟨rfl, rfl⟩ := GNode.callMethod.inj hm
        rcases List.mem_append.mp hp with hp | hp
        · refine h2 p.2 _ ?_ (a2 p hp ha)
          intro hmem
          rw [List.map_append, List.nodup_append] at hnd
          exact hnd.2.2 p.2 (List.mem_map_of_mem hp) p.2 hmem rfl
        · exfalso
          have hlt' := hargs 0 name' args' rfl p.1 ha
          have := (mem_fetched hp).1
          omega
      · exact h3 name' args' hm p hp ha

theorem dupName_inj {a b : String} {k l : ℕ} (hk : k ≠ 0) (hl : l ≠ 0)
    (h : dupName a k = dupName b l) : a = b ∧ k = l := by
  unfold dupName at h
  rw [if_neg hk, if_neg hl] at h
  have h' := congrArg (fun s : String => s.toList.reverse) h
  have e : ∀ (a : String) (k : ℕ), (a ++ "_dup" ++ toString k).toList.reverse =
      (Nat.toDigits 10 k).reverse ++ 'p' :: 'u' :: 'd' :: '_' :: a.toList.reverse := by
    intro a k
    have : (toString k).toList = Nat.toDigits 10 k := by simp [toString, Nat.repr]
    rw [String.toList_append, String.toList_append, this]
    simp
  rw [e, e] at h'
  have tw : ∀ (k : ℕ) (l : List Char),
      ((Nat.toDigits 10 k).reverse ++ 'p' :: l).takeWhile Char.isDigit = (Nat.toDigits 10 k).reverse := by
    intro k l
    rw [List.takeWhile_append_of_pos]
    · rw [List.takeWhile_cons_of_neg (by decide), List.append_nil]
    · intro c hc
      exact Nat.isDigit_of_mem_toDigits (b := 10) (by omega) (by omega) (List.mem_reverse.mp hc)
  have h1 := congrArg (List.takeWhile Char.isDigit) h'
  rw [tw, tw] at h1
  have hd : Nat.toDigits 10 k = Nat.toDigits 10 l := List.reverse_injective h1
  have hkl : k = l := by
    have := congrArg (fun x => Nat.ofDigitChars 10 x 0) hd
    simpa [Nat.ofDigitChars_toDigits] using this
  refine ⟨?_, hkl⟩
  rw [h1] at h'
  have h2 := List.append_cancel_left h'
  simp only [List.cons.injEq, true_and] at h2
  exact String.toList_inj.mp (List.reverse_injective h2)

theorem usesAt_succ (before l : List String) (x : String) (j : ℕ) (t : String) :
    usesAt before (x :: l) (j + 1) t = usesAt (before ++ [x]) l j t := by
  unfold usesAt
  rw [List.take_succ_cons, List.append_assoc]
  rfl

theorem duplicateFrom_spec {S : Type} (modules : List (String × Obj S)) :
    ∀ (l before : List String) (fresh : ℕ), (∀ t ∈ l, ∃ o, modules.lookup t = some o) →
    ∃ ts d, duplicateFrom modules fresh before l = .ok (ts, d) ∧ ts.length = l.length ∧
      (∀ (j : ℕ) t, l[j]? = some t → ts[j]? = some (dupName t (usesAt before l j t))) ∧
      (∀ p ∈ d, fresh ≤ p.2.id ∧ ∃ t k o, k ≠ 0 ∧ p.1 = dupName t k ∧ t ∈ l ∧
        modules.lookup t = some o ∧ p.2.state = o.state) ∧
      (∀ (j : ℕ) t, l[j]? = some t → usesAt before l j t ≠ 0 →
        ∃ o, (dupName t (usesAt before l j t), o) ∈ d) ∧
      (d.map (fun p => p.2.id)).Nodup
  | [], before, fresh, _ => ⟨[], [], rfl, rfl, by simp, by simp, by simp, List.nodup_nil⟩
  | x :: l, before, fresh, h => by
    obtain ⟨o, ho⟩ := h x List.mem_cons_self
    have hl : ∀ t ∈ l, ∃ o, modules.lookup t = some o := fun t ht => h t (List.mem_cons_of_mem _ ht)
    have u0 : usesAt before (x :: l) 0 x = uses x before := by simp [usesAt]
    rw [duplicateFrom]
    by_cases hu : uses x before = 0
    · obtain ⟨ts, d, e, h1, h2, h3, h4, h5⟩ := duplicateFrom_spec modules l (before ++ [x]) fresh hl
      rw [if_pos hu, e]
      refine ⟨x :: ts, d, rfl, by simp [h1], ?_, ?_, ?_, h5⟩
      · intro j t hj
        cases j with
        | zero =>
          have : x = t := Option.some.inj hj
          subst this
          rw [u0, hu]
          simp [dupName]
        | succ j =>
          rw [usesAt_succ]
          exact h2 j t hj
      · intro p hp
        obtain ⟨q1, t, k, o, q2, q3, q4, q5⟩ := h3 p hp
        exact ⟨q1, t, k, o, q2, q3, List.mem_cons_of_mem _ q4, q5⟩
      · intro j t hj hne
        cases j with
        | zero =>
          have : x = t := Option.some.inj hj
          subst this
          rw [u0] at hne
          exact absurd hu hne
        | succ j =>
          rw [usesAt_succ] at hne ⊢
          exact h4 j t hj hne
    · obtain ⟨ts, d, e, h1, h2, h3, h4, h5⟩ := duplicateFrom_spec modules l (before ++ [x]) (fresh + 1) hl
      rw [if_neg hu, ho]
      dsimp only
      rw [e]
      refine ⟨_, _, rfl, by simp [h1], ?_, ?_, ?_, ?_⟩
      · intro j t hj
        cases j with
        | zero =>
          have : x = t := Option.some.inj hj
          subst this
          rw [u0]
          rfl
        | succ j =>
          rw [usesAt_succ]
          exact h2 j t hj
      · intro p hp
        rcases List.mem_cons.mp hp with rfl | hp
        · exact ⟨Nat.le_refl _, x, _, o, hu, rfl, List.mem_cons_self, ho, rfl⟩
        · obtain ⟨q1, t, k, o, q2, q3, q4, q5⟩ := h3 p hp
          exact ⟨by omega, t, k, o, q2, q3, List.mem_cons_of_mem _ q4, q5⟩
      · intro j t hj hne
        cases j with
        | zero =>
          have : x = t := Option.some.inj hj
          subst this
          rw [u0]
          exact ⟨_, List.mem_cons_self⟩
        | succ j =>
          rw [usesAt_succ] at hne ⊢
          obtain ⟨o', ho'⟩ := h4 j t hj hne
          exact ⟨o', List.mem_cons_of_mem _ ho'⟩
      · rw [List.map_cons, List.nodup_cons]
        refine ⟨?_, h5⟩
        intro hm
        obtain ⟨p, hp, hp'⟩ := List.mem_map.mp hm
        have := (h3 p hp).1
        dsimp only at hp'
        omega

theorem usesAt_lt {l : List String} {j j' : ℕ} {t : String} (h : l[j]? = some t) (hj : j < j') :
    usesAt [] l j t < usesAt [] l j' t := by
  unfold usesAt uses
  rw [List.nil_append, List.nil_append]
  have e : l.take (j + 1) = l.take j ++ [t] := by
    rw [List.take_add_one, h]
    rfl
  have h1 : (l.take (j + 1)).count t = (l.take j).count t + 1 := by
    rw [e, List.count_append]
    simp
  have h2 : (l.take (j + 1)).count t ≤ (l.take j').count t :=
    List.Sublist.count_le t (List.take_sublist_take_left hj)
  omega

theorem usesAt_zero {l : List String} {j : ℕ} {t : String} (h : t ∉ l.take j) : usesAt [] l j t = 0 := by
  unfold usesAt uses
  rw [List.nil_append]
  exact List.count_eq_zero_of_not_mem h

theorem usesAt_ne_zero {l : List String} {j : ℕ} {t : String} (h : t ∈ l.take j) : usesAt [] l j t ≠ 0 := by
  unfold usesAt uses
  rw [List.nil_append]
  have := List.count_pos_iff.mpr h
  omega

theorem lookup_of_mem {V : Type} {d : List (String × V)} {k : String} {v : V} (h : (k, v) ∈ d) :
    ∃ v', d.lookup k = some v' ∧ (k, v') ∈ d := by
  induction d with
  | nil => cases h
  | cons p d ih =>
    obtain ⟨a, b⟩ := p
    rw [List.lookup_cons]
    by_cases hk : k = a
    · subst hk
      rw [beq_self_eq_true]
      exact ⟨b, rfl, List.mem_cons_self⟩
    · rw [beq_false_of_ne hk]
      rcases List.mem_cons.mp h with h | h
      · exact absurd (congrArg Prod.fst h) hk
      · obtain ⟨v', h1, h2⟩ := ih h
        exact ⟨v', h1, List.mem_cons_of_mem _ h2⟩

theorem lookup_append_hit {V : Type} {d e : List (String × V)} {k : String} {v : V}
    (h : d.lookup k = some v) : (d ++ e).lookup k = some v := by
  induction d with
  | nil => cases h
  | cons p d ih =>
    obtain ⟨a, b⟩ := p
    rw [List.cons_append, List.lookup_cons]
    rw [List.lookup_cons] at h
    by_cases hk : k = a
    · subst hk
      rw [beq_self_eq_true] at h ⊢
      exact h
    · rw [beq_false_of_ne hk] at h ⊢
      exact ih h

theorem lookup_append_miss {V : Type} {d e : List (String × V)} {k : String}
    (h : ∀ p ∈ d, p.1 ≠ k) : (d ++ e).lookup k = e.lookup k := by
  induction d with
  | nil => rfl
  | cons p d ih =>
    obtain ⟨a, b⟩ := p
    rw [List.cons_append, List.lookup_cons, beq_false_of_ne (Ne.symm (h _ List.mem_cons_self))]
    exact ih fun q hq => h q (List.mem_cons_of_mem _ hq)

end Verif.CustomTracer
