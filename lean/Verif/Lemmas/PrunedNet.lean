import Verif.Spec.PrunedNet
import Verif.Props.DynamicOps
import Verif.Props.ChannelPlain

/-! Helper lemmas for `Verif/Props/PrunedNet.lean`. -/

namespace Verif.PrunedNet
open Verif Verif.DynamicOps Verif.ChannelNodes

variable {W B X : Type}

/-! ### The graph -/

/-- What a node makes of the tensors that come in. -/
def Made (k : Kind) (ts : List Tensor) (r : Rec) : Prop :=
  match k with
  | .input n => r.ret.length = n ∧ r.out = r.ret
  | .mix out => ts = [r.inp] ∧ r.ret = r.out ∧ r.out.length = out
  | .passUnion => (∃ rest, ts = r.inp :: rest) ∧ r.ret = r.inp ∧ r.out = r.inp
  | .pass => ts = [r.ret]
  | .bind => (∃ rest, ts = r.inp :: rest) ∧ r.ret = r.inp
  | .cat => r.ret = ts.flatten
  | .expand _ => ts = [r.inp] ∧ r.ret = r.out
  | .stop => True
  | .group _ out => ts = [r.inp] ∧ r.ret = r.out ∧ r.out.length = out
  | .groupNorm _ _ => True

theorem fresh_length (n : Nat) (s : S) : (fresh n s).1.length = n := by simp [fresh, elemsOf]

theorem made_of_forwardNode {k : Kind} {ts : List Tensor} {s s' : S} {r : Rec} (h : forwardNode k ts s = .ok (r, s')) : Made k ts r := by
  cases k with
  | input n => simp only [forwardNode, Except.ok.injEq, Prod.mk.injEq] at h; rw [← h.1]; exact ⟨fresh_length n s, rfl⟩
  | mix out =>
    match ts with
    | [] => simp [forwardNode] at h
    | [t] =>
      simp only [forwardNode, Except.ok.injEq, Prod.mk.injEq] at h
      rw [← h.1]; exact ⟨rfl, rfl, fresh_length out s⟩
    | _ :: _ :: _ => simp [forwardNode] at h
  | passUnion =>
    match ts with
    | [] => simp [forwardNode] at h
    | t :: rest =>
      simp only [forwardNode, Except.ok.injEq, Prod.mk.injEq] at h
      rw [← h.1]; exact ⟨⟨rest, rfl⟩, rfl, rfl⟩
  | pass =>
    match ts with
    | [] => simp [forwardNode, single] at h
    | [t] =>
      simp only [forwardNode, single, Except.ok.injEq, Prod.mk.injEq] at h
      rw [← h.1]; exact rfl
    | _ :: _ :: _ => simp [forwardNode, single] at h
  | bind =>
    match ts with
    | [] => simp [forwardNode] at h
    | t :: rest =>
      simp only [forwardNode] at h
      cases hb : bindLoop t rest s with
      | error e => rw [hb] at h; cases h
      | ok s1 => rw [hb] at h; cases h; exact ⟨⟨rest, rfl⟩, rfl⟩
  | cat => simp only [forwardNode, Except.ok.injEq, Prod.mk.injEq] at h; rw [← h.1]; exact rfl
  | expand n =>
    match ts with
    | [] => simp [forwardNode, single] at h
    | [t] =>
      simp only [forwardNode, single] at h
      by_cases hn : n = 0
      · rw [if_pos hn] at h; cases h
      · rw [if_neg hn] at h; cases h; exact ⟨rfl, rfl⟩
    | _ :: _ :: _ => simp [forwardNode, single] at h
  | stop => trivial
  | group g out =>
    match ts with
    | [] => simp [forwardNode, single] at h
    | [t] =>
      simp only [forwardNode, single, groupForward] at h
      cases h1 : groupUnionNew t g s with
      | error e => rw [h1] at h; cases h
      | ok s1 =>
        rw [h1] at h; dsimp only at h
        cases h2 : groupUnionNew (fresh out s1).1 g (fresh out s1).2 with
        | error e => rw [h2] at h; cases h
        | ok s2 => rw [h2] at h; cases h; exact ⟨rfl, rfl, fresh_length out s1⟩
    | _ :: _ :: _ => simp [forwardNode, single] at h
  | groupNorm g c => trivial

theorem forwardAll_spec {inputs : Nat} : ∀ {rest : List Node} {done : List Rec} {s s' : S} {recs : List Rec},
    forwardAll inputs rest done s = .ok (recs, s') →
    ∃ new, recs = done ++ new ∧ new.length = rest.length ∧
      ∀ (j : Nat) n, rest[j]? = some n → ∃ r s1 s2, new[j]? = some r ∧ step inputs n (done ++ new.take j) s1 = .ok (r, s2)
  | [], done, s, s', recs, h => by
    simp only [forwardAll, Except.ok.injEq, Prod.mk.injEq] at h
    exact ⟨[], by simp [h.1], rfl, by simp⟩
  | n :: rest, done, s, s', recs, h => by
    rw [forwardAll] at h
    cases hs : step inputs n done s with
    | error e => rw [hs] at h; cases h
    | ok p =>
      obtain ⟨r, s1⟩ := p
      rw [hs] at h; dsimp only at h
      obtain ⟨new, h1, h2, h3⟩ := forwardAll_spec h
      refine ⟨r :: new, by rw [h1]; simp, by simp [h2], ?_⟩
      intro j m hj
      cases j with
      | zero =>
        simp only [List.getElem?_cons_zero, Option.some.injEq] at hj
        subst hj
        exact ⟨r, s, s1, rfl, by simpa using hs⟩
      | succ j =>
        simp only [List.getElem?_cons_succ] at hj
        obtain ⟨r', a, b, h4, h5⟩ := h3 j m hj
        refine ⟨r', a, b, by simpa using h4, ?_⟩
        simpa using h5

/-- Every node has its record, made of the tensors of its predecessors. -/
theorem graph_made {inputs : Nat} {nodes : List Node} {recs : List Rec} {s : S} (h : forward inputs nodes = .ok (recs, s)) :
    recs.length = nodes.length ∧ ∀ (i : Nat) n, nodes[i]? = some n → ∃ r, recs[i]? = some r ∧
      ((n.prev = [] ∧ ∃ t, Made n.kind [t] r) ∨ (∃ ts, inputsOf (recs.take i) n.prev = .ok ts ∧ Made n.kind ts r)) := by
  unfold forward at h
  cases h1 : forwardAll inputs nodes [] ⟨[], []⟩ with
  | error e => rw [h1] at h; cases h
  | ok p =>
    obtain ⟨rs, s1⟩ := p
    rw [h1] at h; dsimp only at h
    cases h2 : merge [] (nodes.zip rs) s1 with
    | error e => rw [h2] at h; cases h
    | ok s2 =>
      rw [h2] at h
      simp only [Except.ok.injEq, Prod.mk.injEq] at h
      obtain ⟨rfl, rfl⟩ := h
      obtain ⟨new, e1, e2, e3⟩ := forwardAll_spec h1
      simp only [List.nil_append] at e1 e3
      subst e1
      refine ⟨e2, ?_⟩
      intro i n hi
      obtain ⟨r, a, b, h4, h5⟩ := e3 i n hi
      refine ⟨r, h4, ?_⟩
      unfold ChannelNodes.step at h5
      by_cases hp : n.prev = []
      · rw [if_pos hp] at h5
        exact Or.inl ⟨hp, _, made_of_forwardNode h5⟩
      · rw [if_neg hp] at h5
        cases hi' : inputsOf (rs.take i) n.prev with
        | error e => rw [hi'] at h5; cases h5
        | ok ts => rw [hi'] at h5; exact Or.inr ⟨ts, rfl, made_of_forwardNode h5⟩

/-! ### Values -/

theorem valuesOf_append {done more : List (List X)} : ∀ {is : List Nat} {vs : List (List X)}, valuesOf done is = .ok vs →
    valuesOf (done ++ more) is = .ok vs
  | [], vs, h => h
  | i :: is, vs, h => by
    rw [valuesOf] at h ⊢
    cases h1 : done[i]? with
    | none => rw [h1] at h; cases h
    | some v =>
      have hlt := (List.getElem?_eq_some_iff.1 h1).1
      rw [List.getElem?_append_left hlt, h1]
      rw [h1] at h
      cases h2 : valuesOf done is with
      | error e => rw [h2] at h; cases h
      | ok ws => rw [valuesOf_append h2]; rw [h2] at h; exact h

theorem evalAll_snoc (o : Ops X) : ∀ (l : List Node) (n : Node) (done : List (List X)),
    evalAll o (l ++ [n]) done =
      match evalAll o l done with
      | .error e => .error e
      | .ok vs =>
        match valuesOf vs n.prev with
        | .error e => .error e
        | .ok ins =>
          match evalNode o n ins with
          | .error e => .error e
          | .ok v => .ok (vs ++ [v])
  | [], n, done => by
    rw [List.nil_append, evalAll, evalAll]
    rfl
  | a :: l, n, done => by
    rw [List.cons_append, evalAll, evalAll]
    cases h1 : valuesOf done a.prev with
    | error e => rfl
    | ok ins =>
      dsimp only
      cases h2 : evalNode o a ins with
      | error e => rfl
      | ok v => dsimp only; exact evalAll_snoc o l n (done ++ [v])

theorem evalAll_snoc_ok (o : Ops X) {l : List Node} {n : Node} {done vs ins : List (List X)} {v : List X}
    (h1 : evalAll o l done = .ok vs) (h2 : valuesOf vs n.prev = .ok ins) (h3 : evalNode o n ins = .ok v) :
    evalAll o (l ++ [n]) done = .ok (vs ++ [v]) := by
  rw [evalAll_snoc, h1]; dsimp only; rw [h2]; dsimp only; rw [h3]

/-- A tensor with its full and its pruned value. -/
structure Pairing (φ : Elem → Bool) (ts : List Tensor) (ws vs : List (List X)) : Prop where
  out : ∃ l : List (Tensor × List X), ts = l.map (·.1) ∧ ws = l.map (·.2) ∧ vs = l.map (fun p => select (p.1.map φ) p.2) ∧
    ∀ p ∈ l, p.2.length = p.1.length

/-- The values of two runs belong together at one place. -/
def Rel (φ : Elem → Bool) (n : Node) (r : Rec) (w v : List X) : Prop :=
  (n.kind ≠ .stop → w.length = r.ret.length ∧ v = select (r.ret.map φ) w) ∧ (n.kind = .stop → v = w)

theorem pairing_of (φ : Elem → Bool) (nodes : List Node) (recs : List Rec) (k : Nat) (ws vs : List (List X))
    (hrel : ∀ (i : Nat) n r, i < k → nodes[i]? = some n → recs[i]? = some r → ∃ w v, ws[i]? = some w ∧ vs[i]? = some v ∧ Rel φ n r w v)
    (hk : k ≤ nodes.length) :
    ∀ (is : List Nat) (ts : List Tensor), (∀ i ∈ is, ∀ p, nodes[i]? = some p → p.kind ≠ .stop) → inputsOf (recs.take k) is = .ok ts →
      ∃ wi vi, valuesOf ws is = .ok wi ∧ valuesOf vs is = .ok vi ∧ Pairing φ ts wi vi
  | [], ts, _, h => by
    cases h
    exact ⟨[], [], rfl, rfl, ⟨[], rfl, rfl, rfl, by simp⟩⟩
  | i :: is, ts, hs, h => by
    rw [inputsOf] at h
    cases h1 : (recs.take k)[i]? with
    | none => rw [h1] at h; cases h
    | some r =>
      rw [h1] at h
      cases h2 : inputsOf (recs.take k) is with
      | error e => rw [h2] at h; cases h
      | ok us =>
        rw [h2] at h; dsimp only at h
        cases h
        have hik : i < k := by
          have := (List.getElem?_eq_some_iff.1 h1).1
          rw [List.length_take] at this; omega
        rw [List.getElem?_take_of_lt hik] at h1
        have hin : nodes[i]? = some nodes[i] := List.getElem?_eq_getElem (by omega)
        obtain ⟨w, v, e1, e2, hR⟩ := hrel i _ r hik hin h1
        obtain ⟨hl, hv⟩ := hR.1 (hs i List.mem_cons_self _ hin)
        obtain ⟨wi, vi, e3, e4, ⟨l, l1, l2, l3, l4⟩⟩ := pairing_of φ nodes recs k ws vs hrel hk is us
          (fun j hj => hs j (List.mem_cons_of_mem _ hj)) h2
        refine ⟨w :: wi, v :: vi, by rw [valuesOf, e1, e3], by rw [valuesOf, e2, e4], ⟨(r.ret, w) :: l, ?_, ?_, ?_, ?_⟩⟩
        · rw [List.map_cons, ← l1]
        · rw [List.map_cons, ← l2]
        · rw [List.map_cons, ← l3, hv]
        · intro p hp
          rcases List.mem_cons.1 hp with rfl | hp
          · exact hl
          · exact l4 p hp

theorem inputsOf_insOf {done more : List Rec} {n : Node} {ts : List Tensor} (h : inputsOf done n.prev = .ok ts) :
    insOf (done ++ more) n = ts := by
  have key : ∀ (is : List Nat) (ts : List Tensor), inputsOf done is = .ok ts →
      is.filterMap (fun i => ((done ++ more)[i]?).map Rec.ret) = ts := by
    intro is
    induction is with
    | nil => intro ts h; cases h; rfl
    | cons i is ih =>
      intro ts h
      rw [inputsOf] at h
      cases h1 : done[i]? with
      | none => rw [h1] at h; cases h
      | some r =>
        rw [h1] at h
        cases h2 : inputsOf done is with
        | error e => rw [h2] at h; cases h
        | ok us =>
          rw [h2] at h; dsimp only at h; cases h
          have hlt := (List.getElem?_eq_some_iff.1 h1).1
          rw [List.filterMap_cons, List.getElem?_append_left hlt, h1]
          dsimp only [Option.map_some]
          rw [ih us h2]
  exact key n.prev ts h

/-! ### Layers -/

theorem masked_wf {c : Conv W B} (hc : Plain c) {p : List Bool × List Bool} (h1 : p.1.length = c.inC) (h2 : p.2.length = c.outC) :
    (masked c p).WF := by
  obtain ⟨h, _, _⟩ := hc
  refine ⟨h.pos, h.inDvd, h.outDvd, h.rows, h.cols, h.bias, ?_, ?_⟩
  · intro m hm
    simp only [masked, Option.some.injEq] at hm
    rw [← hm]; exact h1
  · intro m hm
    simp only [masked, Option.some.injEq] at hm
    rw [← hm]; exact h2

theorem masked_full {c : Conv W B} (hc : Plain c) (p : List Bool × List Bool) : (masked c p).full = c := by
  obtain ⟨_, h1, h2⟩ := hc
  obtain ⟨a, b, g, w, bi, i, o⟩ := c
  dsimp only at h1 h2
  subst h1 h2
  rfl

theorem static_length [AddCommMonoid X] (corr : W → X → X) (bc : B → X) (c : Conv W B) (h : c.WF) (x : List X) (hx : x.length = c.inC) :
    ∃ y, c.staticForward corr bc x = .ok y ∧ y.length = c.outC := by
  have hbias : ∀ bs, c.bias = some bs → bs.length = c.weight.length := fun bs hb => by rw [h.bias bs hb, h.rows]
  have h1 : c.weight.length % c.groups = 0 := by rw [h.rows]; exact Nat.mod_eq_zero_of_dvd h.outDvd
  have h2 : x.length = c.inC / c.groups * c.groups := by rw [hx]; exact (Nat.div_mul_cancel h.inDvd).symm
  unfold Conv.staticForward
  refine ⟨_, convFn_ok corr bc x ⟨c.weight, c.inC / c.groups⟩ c.bias c.groups h.pos h1 h2 hbias, ?_⟩
  have hlen : ((List.zipWith (fun rows xs => rows.map (dot corr xs))
      (chunks c.groups (c.weight.length / c.groups) c.weight) (chunks c.groups (c.inC / c.groups) x)).flatten).length = c.outC := by
    rw [List.length_flatten, sum_const List.length (c.weight.length / c.groups)]
    · rw [List.length_zipWith, chunks_length, chunks_length, Nat.min_self, h.rows]
      exact Nat.mul_div_cancel' h.outDvd
    · intro l hl
      rw [List.mem_iff_getElem] at hl
      obtain ⟨j, hj, rfl⟩ := hl
      rw [List.getElem_zipWith, List.length_map]
      exact chunks_len c.groups (c.weight.length / c.groups) c.weight
        (by rw [Nat.mul_comm]; exact (Nat.div_mul_cancel (Nat.dvd_of_mod_eq_zero h1)).symm) _ (List.getElem_mem _)
  cases hb : c.bias with
  | none => simpa [addBias, hb] using hlen
  | some bs =>
    simp only [addBias, List.length_zipWith]
    rw [hlen, hbias bs hb, h.rows, Nat.min_self]

theorem conv_layer [AddCommMonoid X] (corr : W → X → X) (bc : B → X) {c : Conv W B} (hc : Plain c) {p : List Bool × List Bool}
    (h1 : p.1.length = c.inC) (_h2 : p.2.length = c.outC) (x : List X) (hx : x.length = c.inC)
    (he : (masked c p).forward corr bc (active (masked c p).inM x) =
      ((masked c p).full.staticForward corr bc (zeroOff (masked c p).inM x)).map (active (masked c p).outM)) :
    ∃ y, c.staticForward corr bc (zeroOff p.1 x) = .ok y ∧ y.length = c.outC ∧
      (masked c p).forward corr bc (select p.1 x) = .ok (select p.2 y) := by
  obtain ⟨y, hy, hl⟩ := static_length corr bc c hc.1 (zeroOff p.1 x) (by rw [zeroOff_length _ _ (by rw [h1, hx])]; exact hx)
  refine ⟨y, hy, hl, ?_⟩
  rw [masked_full hc, show (masked c p).inM = p.1 from rfl, show (masked c p).outM = p.2 from rfl, hy] at he
  rw [select_eq_active, he, select_eq_active]
  rfl

theorem conv_export [AddCommMonoid X] (corr : W → X → X) (bc : B → X) {c : Conv W B} {p : List Bool × List Bool} (hw : (masked c p).WF)
    (v y : List X) (hv : v.length = count p.1) (hf : (masked c p).forward corr bc v = .ok y) :
    ∃ s, (masked c p).toStatic = .ok s ∧ s.staticForward corr bc v = .ok y := by
  have hex : ∃ s, (masked c p).toStatic = .ok s := by
    unfold Conv.forward at hf
    unfold Conv.toStatic
    cases hp : (masked c p).params with
    | error e => rw [hp] at hf; simp [bind, Except.bind] at hf
    | ok q =>
      obtain ⟨w, b⟩ := q
      rw [hp] at hf
      simp only [bind, Except.bind] at hf ⊢
      have hg : (if (masked c p).groups = (masked c p).inC ∧ (masked c p).inC = (masked c p).outC then v.length else (masked c p).groups) =
          (masked c p).staticGroups := by
        unfold Conv.staticGroups
        rw [show (masked c p).inMask = some p.1 from rfl]
        dsimp only
        rw [hv]
      rw [hg] at hf
      unfold convFn at hf
      by_cases hbad : (masked c p).staticGroups = 0 ∨ w.rows.length % (masked c p).staticGroups ≠ 0
      · rw [if_pos] at hf
        · cases hf
        · rcases hbad with h | h
          · exact Or.inl h
          · exact Or.inr (Or.inl h)
      · rw [if_neg hbad]
        exact ⟨_, rfl⟩
  obtain ⟨s, hs⟩ := hex
  exact ⟨s, hs, by rw [C27_static corr bc _ s hw hs v hv]; exact hf⟩

theorem even_of_repeats (φ : Elem → Bool) (t : Tensor) (g : Nat) (hd : g ∣ t.length) (h : Repeats φ t g) :
    Even g (t.length / g) (t.map φ) := by
  intro a ha b hb
  congr 1
  apply List.ext_getElem?
  intro j
  by_cases hj : j < t.length / g
  · rw [List.getElem?_take_of_lt hj, List.getElem?_take_of_lt hj, List.getElem?_drop, List.getElem?_drop, List.getElem?_map, List.getElem?_map]
    have hlt : ∀ a, a < g → a * (t.length / g) + j < t.length := by
      intro a ha
      have h1 : (a + 1) * (t.length / g) ≤ g * (t.length / g) := Nat.mul_le_mul_right _ ha
      rw [Nat.mul_div_cancel' hd, Nat.add_mul, Nat.one_mul] at h1
      omega
    have ga := List.getElem?_eq_getElem (hlt a ha)
    have gb := List.getElem?_eq_getElem (hlt b hb)
    rw [ga, gb, Option.map_some, Option.map_some]
    congr 1
    apply h _ _ _ _ ga gb
    rw [Nat.mul_comm a, Nat.mul_comm b, Nat.mul_add_mod, Nat.mul_add_mod]
  · rw [List.getElem?_eq_none (by rw [List.length_take]; omega), List.getElem?_eq_none (by rw [List.length_take]; omega)]

/-- The three forms of a module at a node. -/
theorem layer_rel [AddCommMonoid X] (corr : Nat → W → X → X) (h0 : ∀ m w, corr m w 0 = 0) (bc : Nat → B → X) (mods : Nat → Module W B X)
    (tbl : List (Nat × List Bool × List Bool)) (φ : Elem → Bool) (m : Nat) (inp out : Tensor)
    (ht : masksOf tbl m = (inp.map φ, out.map φ))
    (hm : (∃ fs, mods m = .chan fs ∧ fs.length = inp.length ∧ out = inp) ∨
      ∃ c, mods m = .conv c ∧ Plain c ∧ c.inC = inp.length ∧ c.outC = out.length ∧ (∃ x ∈ inp, φ x = true) ∧
        (c.groups = 1 ∨ (c.groups ≠ 1 ∧ ¬ (c.groups = c.inC ∧ c.inC = c.outC) ∧ Repeats φ inp c.groups ∧ Repeats φ out c.groups) ∨
          (c.groups ≠ 1 ∧ c.groups = c.inC ∧ c.inC = c.outC ∧ out = inp)))
    (w : List X) (hw : w.length = inp.length) :
    ∃ y, zeroedLayer corr bc mods tbl m w = .ok y ∧ y.length = out.length ∧
      dynLayer corr bc mods tbl m (select (inp.map φ) w) = .ok (select (out.map φ) y) ∧
      staticLayer corr bc mods tbl m (select (inp.map φ) w) = .ok (select (out.map φ) y) := by
  rcases hm with ⟨fs, hf, hl, ho⟩ | ⟨c, hc, hp, hi, ho, ⟨e, he, hφ⟩, hcase⟩
  · subst ho
    have hsel : select (out.map φ) (List.zipWith (fun (f : X → X) x => f x) fs w) =
        List.zipWith (fun f x => f x) (select (out.map φ) fs) (select (out.map φ) w) :=
      (select_zipWith _ _ _ _ (by rw [List.length_map, hl]) (by rw [List.length_map, hw])).symm
    have hlen : (select (out.map φ) w).length = (select (out.map φ) fs).length := by
      rw [select_length _ _ (by rw [List.length_map, hw]), select_length _ _ (by rw [List.length_map, hl])]
    refine ⟨List.zipWith (fun f x => f x) fs w, ?_, ?_, ?_, ?_⟩
    · unfold zeroedLayer; rw [hf]; dsimp only [Module.forward]; rw [if_pos (by rw [hw, hl])]
    · rw [List.length_zipWith, hl, hw, Nat.min_self]
    · unfold dynLayer; rw [hf, ht]; dsimp only
      rw [maskIndex_ok _ _ (by rw [List.length_map, hl])]; dsimp only
      rw [if_pos hlen, hsel]
    · unfold staticLayer exportModule; rw [hf, ht]; dsimp only
      rw [maskIndex_ok _ _ (by rw [List.length_map, hl])]; dsimp only [Module.forward]
      rw [if_pos hlen, hsel]
  · have l1 : (inp.map φ).length = c.inC := by rw [List.length_map, hi]
    have l2 : (out.map φ).length = c.outC := by rw [List.length_map, ho]
    have hx : w.length = c.inC := by rw [hw, hi]
    have hwf := masked_wf (p := (inp.map φ, out.map φ)) hp l1 l2
    have hact : true ∈ (masked c (inp.map φ, out.map φ)).inM := List.mem_map.2 ⟨e, he, hφ⟩
    have heq : (masked c (inp.map φ, out.map φ)).forward (corr m) (bc m) (active (masked c (inp.map φ, out.map φ)).inM w) =
        ((masked c (inp.map φ, out.map φ)).full.staticForward (corr m) (bc m) (zeroOff (masked c (inp.map φ, out.map φ)).inM w)).map
          (active (masked c (inp.map φ, out.map φ)).outM) := by
      rcases hcase with hg | ⟨hg, hnd, r1, r2⟩ | ⟨hg, hd1, hd2, hio⟩
      · exact C27_conv (corr m) (h0 m) (bc m) _ hwf hg hact w hx
      · refine C27_grouped_partial (corr m) (h0 m) (bc m) _ hwf hg hnd ?_ ?_ w hx
        · show Even c.groups (c.inC / c.groups) (inp.map φ)
          rw [hi]; exact even_of_repeats φ inp c.groups (by rw [← hi]; exact hp.1.inDvd) r1
        · show Even c.groups (c.outC / c.groups) (out.map φ)
          rw [ho]; exact even_of_repeats φ out c.groups (by rw [← ho]; exact hp.1.outDvd) r2
      · exact C27_depthwise_partial (corr m) (bc m) _ hwf hd1 hd2 (by rw [hio]; rfl) hact hg w hx
    obtain ⟨y, h1, h2, h3⟩ := conv_layer (corr m) (bc m) hp l1 l2 w hx heq
    refine ⟨y, ?_, by rw [h2, ho], ?_, ?_⟩
    · unfold zeroedLayer; rw [hc, ht]; exact h1
    · unfold dynLayer; rw [hc, ht]; exact h3
    · obtain ⟨s, s1, s2⟩ := conv_export (corr m) (bc m) hwf _ _ (by rw [select_length _ _ (by rw [l1, hx])]) h3
      unfold staticLayer exportModule; rw [hc, ht]; dsimp only; rw [s1]
      exact s2

/-! ### Operations without parameters -/

theorem bind_rel (φ : Elem → Bool) (f : X → X → X) (m : List Bool) : ∀ (l : List (Tensor × List X)) (w : List X), w.length = m.length →
    (∀ p ∈ l, p.1.map φ = m ∧ p.2.length = p.1.length) →
    ∃ y, bindVals f w (l.map (·.2)) = .ok y ∧ y.length = w.length ∧
      bindVals f (select m w) (l.map (fun p => select (p.1.map φ) p.2)) = .ok (select m y)
  | [], w, _, _ => ⟨w, rfl, rfl, rfl⟩
  | p :: l, w, hw, h => by
    obtain ⟨h1, h2⟩ := h p List.mem_cons_self
    have hpl : p.2.length = m.length := by rw [h2, ← h1, List.length_map]
    have hz : (List.zipWith f w p.2).length = w.length := by rw [List.length_zipWith, hpl, hw, Nat.min_self]
    obtain ⟨y, e1, e2, e3⟩ := bind_rel φ f m l (List.zipWith f w p.2) (by rw [hz, hw]) (fun q hq => h q (List.mem_cons_of_mem _ hq))
    refine ⟨y, ?_, by rw [e2, hz], ?_⟩
    · rw [List.map_cons, bindVals, if_pos (by rw [hw, hpl])]; exact e1
    · rw [List.map_cons, bindVals, h1, if_pos (by rw [select_length _ _ hw.symm, select_length _ _ hpl.symm]),
        select_zipWith _ _ _ _ hw.symm hpl.symm]
      exact e3

theorem cat_rel (φ : Elem → Bool) : ∀ (l : List (Tensor × List X)), (∀ p ∈ l, p.2.length = p.1.length) →
    ((l.map (·.2)).flatten).length = ((l.map (·.1)).flatten).length ∧
    (l.map (fun p => select (p.1.map φ) p.2)).flatten = select ((l.map (·.1)).flatten.map φ) (l.map (·.2)).flatten
  | [], _ => ⟨rfl, rfl⟩
  | p :: l, h => by
    obtain ⟨e1, e2⟩ := cat_rel φ l (fun q hq => h q (List.mem_cons_of_mem _ hq))
    have hp := h p List.mem_cons_self
    simp only [List.map_cons, List.flatten_cons, List.length_append, List.map_append]
    refine ⟨by rw [e1, hp], ?_⟩
    rw [e2, select_append _ _ _ _ (by rw [List.length_map, hp])]

theorem select_replicate {α : Type} (b : Bool) : ∀ (xs : List α), select (List.replicate xs.length b) xs = if b then xs else []
  | [] => by cases b <;> rfl
  | x :: xs => by
    rw [List.length_cons, List.replicate_succ]
    have := select_replicate b xs
    cases b
    · simpa [select] using this
    · simpa [select] using this

theorem expand_rel (f : X → List X) (k : Nat) (hf : ∀ x, (f x).length = k) : ∀ (m : List Bool) (w : List X), m.length = w.length →
    select (m.flatMap (List.replicate k)) (w.flatMap f) = (select m w).flatMap f
  | [], [], _ => rfl
  | [], _ :: _, h => by cases h
  | _ :: _, [], h => by cases h
  | b :: m, x :: w, h => by
    rw [List.flatMap_cons, List.flatMap_cons, select_append _ _ _ _ (by rw [List.length_replicate, hf]),
      expand_rel f k hf m w (by simpa using h)]
    have := select_replicate b (f x)
    rw [hf x] at this
    rw [this]
    cases b
    · simp [select]
    · simp [select]

/-! ### One node -/

theorem node_rel [AddCommMonoid X] (corr : Nat → W → X → X) (h0 : ∀ m w, corr m w 0 = 0) (bc : Nat → B → X) (o : Ops X) (mods : Nat → Module W B X)
    (tbl : List (Nat × List Bool × List Bool)) (φ : Elem → Bool) (n : Node) (r : Rec) (ts : List Tensor) (ws vs : List (List X))
    (hmade : Made n.kind ts r) (hpair : Pairing φ ts ws vs) (hfit : FitsNode o mods n r) (hok : NodeOk φ n.kind ts r)
    (hkin : ∀ k, n.kind = .input k → ∀ x ∈ r.ret, φ x = true) (hkm : n.module ≠ none → ∃ x ∈ r.inp, φ x = true)
    (ht : ∀ m, n.module = some m → masksOf tbl m = (r.inp.map φ, r.out.map φ)) :
    ∃ w v, evalNode (o.with (zeroedLayer corr bc mods tbl)) n ws = .ok w ∧ evalNode (o.with (dynLayer corr bc mods tbl)) n vs = .ok v ∧
      evalNode (o.with (staticLayer corr bc mods tbl)) n vs = .ok v ∧ Rel φ n r w v := by
  obtain ⟨l, l1, l2, l3, l4⟩ := hpair.out
  obtain ⟨name, kind, prev, module⟩ := n
  dsimp only at *
  cases kind with
  | input k =>
    refine ⟨o.input name, o.input name, rfl, rfl, rfl, fun _ => ⟨?_, ?_⟩, fun hc => by cases hc⟩
    · exact (show (o.input name).length = k from hfit).trans (show r.ret.length = k from hmade.1).symm
    · have : r.ret.map φ = List.replicate (o.input name).length true := by
        rw [List.eq_replicate_iff]
        refine ⟨by rw [List.length_map]; exact (show r.ret.length = k from hmade.1).trans (show (o.input name).length = k from hfit).symm, ?_⟩
        intro b hb
        obtain ⟨x, hx, rfl⟩ := List.mem_map.1 hb
        exact hkin k rfl x hx
      rw [this, select_replicate]; rfl
  | mix out =>
    obtain ⟨m, c, hm, hc, hp, hg, hi, ho⟩ := hfit
    obtain ⟨e1, e2, e3⟩ := hmade
    rw [l1] at e1
    match l, e1, l2, l3, l4 with
    | [(t, w)], e1, l2, l3, l4 =>
      simp only [List.map_cons, List.map_nil, List.cons.injEq, and_true] at e1
      subst e1
      have hw := l4 _ List.mem_cons_self
      obtain ⟨y, h1, h2, h3, h4⟩ := layer_rel corr h0 bc mods tbl φ m r.inp r.out (ht m hm)
        (Or.inr ⟨c, hc, hp, hi, by rw [ho, e3], hkm (fun hc => by cases hm.symm.trans hc), Or.inl hg⟩) w hw
      subst hm l2 l3
      exact ⟨y, _, h1, h3, h4, fun _ => ⟨by rw [h2, e2], by rw [e2]⟩, fun hc => by cases hc⟩
  | group g out =>
    obtain ⟨m, c, hm, hc, hp, hg, hg1, hnd, hi, ho⟩ := hfit
    obtain ⟨e1, e2, e3⟩ := hmade
    obtain ⟨r1, r2⟩ := hok
    rw [l1] at e1
    match l, e1, l2, l3, l4 with
    | [(t, w)], e1, l2, l3, l4 =>
      simp only [List.map_cons, List.map_nil, List.cons.injEq, and_true] at e1
      subst e1
      have hw := l4 _ List.mem_cons_self
      obtain ⟨y, h1, h2, h3, h4⟩ := layer_rel corr h0 bc mods tbl φ m r.inp r.out (ht m hm)
        (Or.inr ⟨c, hc, hp, hi, by rw [ho, e3], hkm (fun hc => by cases hm.symm.trans hc), Or.inr (Or.inl ⟨by rw [hg]; exact hg1, hnd, by rw [hg]; exact r1, by rw [hg]; exact r2⟩)⟩) w hw
      subst hm l2 l3
      exact ⟨y, _, h1, h3, h4, fun _ => ⟨by rw [h2, e2], by rw [e2]⟩, fun hc => by cases hc⟩
  | passUnion =>
    obtain ⟨⟨rest, e1⟩, e2, e3⟩ := hmade
    rw [l1] at e1
    match l, e1, l2, l3, l4 with
    | (t, w) :: l', e1, l2, l3, l4 =>
      simp only [List.map_cons, List.cons.injEq] at e1
      obtain ⟨e1, _⟩ := e1
      subst e1
      have hw := l4 _ List.mem_cons_self
      dsimp only at hw
      subst l2 l3
      rcases hfit with hn | ⟨m, hm, hcase⟩
      · dsimp only at hn
        subst hn
        refine ⟨w.map (o.act name), (select (r.inp.map φ) w).map (o.act name), rfl, rfl, rfl, fun _ => ⟨by rw [List.length_map, hw, e2], ?_⟩, fun hc => by cases hc⟩
        rw [e2, select_map]
      · dsimp only at hm
        obtain ⟨y, h1, h2, h3, h4⟩ := layer_rel corr h0 bc mods tbl φ m r.inp r.out (ht m hm) (by
          rcases hcase with ⟨fs, hf, hl⟩ | ⟨c, hc, hp, hg, hio, hg1, hi⟩
          · exact Or.inl ⟨fs, hf, hl, e3⟩
          · exact Or.inr ⟨c, hc, hp, hi, by rw [← hio, hi, e3], hkm (by rw [hm]; simp), Or.inr (Or.inr ⟨hg1, hg, hio, e3⟩)⟩) w hw
        subst hm
        exact ⟨y, _, h1, h3, h4, fun _ => ⟨by rw [h2, e2, e3], by rw [e2, e3]⟩, fun hc => by cases hc⟩
  | pass =>
    have e1 : ts = [r.ret] := hmade
    rw [l1] at e1
    match l, e1, l2, l3, l4 with
    | [(t, w)], e1, l2, l3, l4 =>
      simp only [List.map_cons, List.map_nil, List.cons.injEq, and_true] at e1
      subst e1
      have hw := l4 _ List.mem_cons_self
      dsimp only at hw
      subst l2 l3
      exact ⟨w.map (o.act name), (select (r.ret.map φ) w).map (o.act name), rfl, rfl, rfl,
        fun _ => ⟨by rw [List.length_map, hw], by rw [select_map]⟩, fun hc => by cases hc⟩
  | bind =>
    obtain ⟨⟨rest, e1⟩, e2⟩ := hmade
    have hok' : ∀ t ∈ ts, t.map φ = r.inp.map φ := hok
    rw [l1] at e1 hok'
    match l, e1, l2, l3, l4, hok' with
    | (t, w) :: l', e1, l2, l3, l4, hok' =>
      simp only [List.map_cons, List.cons.injEq] at e1
      obtain ⟨e1, _⟩ := e1
      subst e1
      have hw := l4 _ List.mem_cons_self
      dsimp only at hw
      obtain ⟨y, h1, h2, h3⟩ := bind_rel φ (o.op name) (r.inp.map φ) l' w (by rw [List.length_map, hw]) (fun p hp =>
        ⟨hok' p.1 (List.mem_cons_of_mem _ (List.mem_map.2 ⟨p, hp, rfl⟩)), l4 p (List.mem_cons_of_mem _ hp)⟩)
      subst l2 l3
      exact ⟨y, _, h1, h3, h3, fun _ => ⟨by rw [h2, hw, e2], by rw [e2]⟩, fun hc => by cases hc⟩
  | cat =>
    have e1 : r.ret = ts.flatten := hmade
    obtain ⟨h1, h2⟩ := cat_rel φ l l4
    subst l2 l3
    exact ⟨_, _, rfl, rfl, rfl, fun _ => ⟨by rw [e1, l1, h1], by rw [e1, l1, h2]⟩, fun hc => by cases hc⟩
  | expand k =>
    obtain ⟨e1, e2⟩ := hmade
    have hf : ∀ x, (o.split name x).length = k := hfit
    have ho : r.out.map φ = (r.inp.map φ).flatMap (List.replicate k) := hok
    rw [l1] at e1
    match l, e1, l2, l3, l4 with
    | [(t, w)], e1, l2, l3, l4 =>
      simp only [List.map_cons, List.map_nil, List.cons.injEq, and_true] at e1
      subst e1
      have hw := l4 _ List.mem_cons_self
      dsimp only at hw
      subst l2 l3
      refine ⟨w.flatMap (o.split name), (select (r.inp.map φ) w).flatMap (o.split name), rfl, rfl, rfl, fun _ => ⟨?_, ?_⟩, fun hc => by cases hc⟩
      · have : (r.out.map φ).length = ((r.inp.map φ).flatMap (List.replicate k)).length := by rw [ho]
        rw [List.length_map] at this
        rw [e2, this, List.length_flatMap, List.length_flatMap]
        simp only [hf, List.length_replicate, List.map_const', List.length_map, hw, List.sum_replicate]
      · rw [e2, ho, expand_rel _ k hf _ _ (by rw [List.length_map, hw])]
  | stop => exact ⟨[], [], rfl, rfl, rfl, fun h => absurd rfl h, fun _ => rfl⟩
  | groupNorm g c => exact absurd hfit id

/-! ### The whole network -/

theorem register_ok (read : Tensor → Except Err (List Bool)) (φ : Elem → Bool) : ∀ (qs : List (Node × Rec)),
    (∀ q ∈ qs, read q.2.inp = .ok (q.2.inp.map φ) ∧ read q.2.out = .ok (q.2.out.map φ)) →
    (∀ q ∈ qs, ∀ q' ∈ qs, ∀ m, q.1.module = some m → q'.1.module = some m → q.2.inp.map φ = q'.2.inp.map φ ∧ q.2.out.map φ = q'.2.out.map φ) →
    ∃ tbl, register read qs = .ok tbl ∧ ∀ q ∈ qs, ∀ m, q.1.module = some m → masksOf tbl m = (q.2.inp.map φ, q.2.out.map φ)
  | [], _, _ => ⟨[], rfl, by simp⟩
  | (n, r) :: qs, h1, h2 => by
    obtain ⟨tbl, e1, e2⟩ := register_ok read φ qs (fun q hq => h1 q (List.mem_cons_of_mem _ hq))
      (fun q hq q' hq' => h2 q (List.mem_cons_of_mem _ hq) q' (List.mem_cons_of_mem _ hq'))
    cases hm : n.module with
    | none =>
      refine ⟨tbl, by simp only [register, hm]; exact e1, ?_⟩
      intro q hq m hqm
      rcases List.mem_cons.1 hq with rfl | hq
      · rw [hm] at hqm; cases hqm
      · exact e2 q hq m hqm
    | some m0 =>
      obtain ⟨a1, a2⟩ := h1 (n, r) List.mem_cons_self
      dsimp only at a1 a2
      refine ⟨(m0, r.inp.map φ, r.out.map φ) :: tbl, by simp only [register, hm, a1, a2, e1], ?_⟩
      intro q hq m hqm
      by_cases hmm : m = m0
      · subst hmm
        obtain ⟨b1, b2⟩ := h2 (n, r) List.mem_cons_self q hq m hm hqm
        dsimp only at b1 b2
        unfold masksOf
        rw [List.lookup_cons_self, ← b1, ← b2]
        rfl
      · rcases List.mem_cons.1 hq with rfl | hq
        · rw [hm] at hqm; cases hqm; exact absurd rfl hmm
        · have hl : masksOf ((m0, r.inp.map φ, r.out.map φ) :: tbl) m = masksOf tbl m := by
            unfold masksOf
            rw [List.lookup_cons, beq_false_of_ne hmm]
          rw [hl]
          exact e2 q hq m hqm

theorem run_rel [AddCommMonoid X] (corr : Nat → W → X → X) (h0 : ∀ m w, corr m w 0 = 0) (bc : Nat → B → X) (o : Ops X) (mods : Nat → Module W B X)
    {inputs : Nat} {nodes : List Node} {recs : List Rec} {s : S} (h : forward inputs nodes = .ok (recs, s)) (hf : Fits o mods nodes recs)
    (φ : Elem → Bool) (hA : Admissible nodes recs φ) (hK : Kept φ nodes recs) (tbl : List (Nat × List Bool × List Bool))
    (ht : ∀ q ∈ nodes.zip recs, ∀ m, q.1.module = some m → masksOf tbl m = (q.2.inp.map φ, q.2.out.map φ)) :
    ∀ k, k ≤ nodes.length → ∃ ws vs, evalAll (o.with (zeroedLayer corr bc mods tbl)) (nodes.take k) [] = .ok ws ∧
      evalAll (o.with (dynLayer corr bc mods tbl)) (nodes.take k) [] = .ok vs ∧
      evalAll (o.with (staticLayer corr bc mods tbl)) (nodes.take k) [] = .ok vs ∧ ws.length = k ∧ vs.length = k ∧
      (∀ (i : Nat) n r, i < k → nodes[i]? = some n → recs[i]? = some r → ∃ w v, ws[i]? = some w ∧ vs[i]? = some v ∧ Rel φ n r w v) ∧
      (∀ (i : Nat) n r, i < k → nodes[i]? = some n → recs[i]? = some r → ∀ ins, valuesOf (ws.take i) n.prev = .ok ins →
        ∃ ts vi, Made n.kind ts r ∧ Pairing φ ts ins vi)
  | 0, _ => ⟨[], [], rfl, rfl, rfl, rfl, rfl, fun i _ _ h => absurd h (Nat.not_lt_zero i), fun i _ _ h => absurd h (Nat.not_lt_zero i)⟩
  | k + 1, hk => by
    obtain ⟨ws, vs, r1, r2, r3, r4, r5, r6, r7⟩ := run_rel corr h0 bc o mods h hf φ hA hK tbl ht k (by omega)
    obtain ⟨g1, g2⟩ := graph_made h
    have hn : nodes[k]? = some nodes[k] := List.getElem?_eq_getElem (by omega)
    generalize nodes[k] = n at hn
    obtain ⟨r, hr, hcase⟩ := g2 k n hn
    have hq : (n, r) ∈ nodes.zip recs := by
      refine List.mem_of_getElem? (i := k) ?_
      rw [List.getElem?_zip_eq_some]
      exact ⟨hn, hr⟩
    have hmem : n ∈ nodes := List.mem_of_getElem? hn
    have hins : ∃ ts wi vi, valuesOf ws n.prev = .ok wi ∧ valuesOf vs n.prev = .ok vi ∧ Pairing φ ts wi vi ∧ Made n.kind ts r ∧
        NodeOk φ n.kind ts r := by
      rcases hcase with ⟨hp, t, hmade⟩ | ⟨ts, hi, hmade⟩
      · obtain ⟨c, hc⟩ := hf.start n hmem hp
        refine ⟨[], [], [], by rw [hp]; rfl, by rw [hp]; rfl, ⟨[], rfl, rfl, rfl, by simp⟩, ?_, ?_⟩
        · rw [hc] at hmade ⊢; exact hmade
        · rw [hc]; trivial
      · obtain ⟨wi, vi, p1, p2, p3⟩ := pairing_of φ nodes recs k ws vs r6 (by omega) n.prev ts (fun i hi p hp => hf.stop n hmem i hi p hp) hi
        refine ⟨ts, wi, vi, p1, p2, p3, hmade, ?_⟩
        have hk' := hA.node (n, r) hq
        have : insOf recs n = ts := by
          have := inputsOf_insOf (more := recs.drop k) hi
          rw [List.take_append_drop] at this
          exact this
        rw [this] at hk'
        exact hk'
    obtain ⟨ts, wi, vi, i1, i2, i3, i4, i5⟩ := hins
    obtain ⟨kp1, kp2⟩ := hK (n, r) hq
    obtain ⟨w, v, e1, e2, e3, e4⟩ := node_rel corr h0 bc o mods tbl φ n r ts wi vi i4 i3 (hf.node (n, r) hq) i5 kp1 kp2 (ht (n, r) hq)
    have htake : nodes.take (k + 1) = nodes.take k ++ [n] := by rw [List.take_succ, hn]; rfl
    refine ⟨ws ++ [w], vs ++ [v], ?_, ?_, ?_, by simp [r4], by simp [r5], ?_, ?_⟩
    · rw [htake]; exact evalAll_snoc_ok _ r1 i1 e1
    · rw [htake]; exact evalAll_snoc_ok _ r2 i2 e2
    · rw [htake]; exact evalAll_snoc_ok _ r3 i2 e3
    · intro i n' r' hi hn' hr'
      by_cases hik : i = k
      · subst hik
        rw [hn] at hn'; rw [hr] at hr'
        cases hn'; cases hr'
        exact ⟨w, v, by rw [← r4]; simp, by rw [← r5]; simp, e4⟩
      · have hlt : i < k := by omega
        obtain ⟨w', v', q1, q2, q3⟩ := r6 i n' r' hlt hn' hr'
        exact ⟨w', v', by rw [List.getElem?_append_left (by omega)]; exact q1, by rw [List.getElem?_append_left (by omega)]; exact q2, q3⟩
    · intro i n' r' hi hn' hr' ins hv
      rw [List.take_append_of_le_length (by omega)] at hv
      by_cases hik : i = k
      · subst hik
        rw [hn] at hn'; rw [hr] at hr'
        cases hn'; cases hr'
        rw [List.take_of_length_le (by omega), i1] at hv
        cases hv
        exact ⟨ts, vi, i4, i3⟩
      · exact r7 i n' r' (by omega) hn' hr' ins hv

theorem evalAll_prefix (o : Ops X) : ∀ {l : List Node} {done us : List (List X)}, evalAll o l done = .ok us → ∃ new, us = done ++ new
  | [], done, us, h => by cases h; exact ⟨[], by simp⟩
  | n :: l, done, us, h => by
    rw [evalAll] at h
    cases h1 : valuesOf done n.prev with
    | error e => rw [h1] at h; cases h
    | ok ins =>
      rw [h1] at h; dsimp only at h
      cases h2 : evalNode o n ins with
      | error e => rw [h2] at h; cases h
      | ok v =>
        rw [h2] at h; dsimp only at h
        obtain ⟨new, hn⟩ := evalAll_prefix o h
        exact ⟨v :: new, by rw [hn, List.append_assoc]; rfl⟩

theorem evalAll_congr (o o' : Ops X) : ∀ {l : List Node} {done us : List (List X)}, evalAll o l done = .ok us →
    (∀ (i : Nat) n ins, l[i]? = some n → valuesOf (us.take (done.length + i)) n.prev = .ok ins → evalNode o' n ins = evalNode o n ins) →
    evalAll o' l done = .ok us
  | [], _, _, h, _ => h
  | n :: l, done, us, h, hc => by
    obtain ⟨new, hnew⟩ := evalAll_prefix o h
    rw [evalAll] at h ⊢
    cases h1 : valuesOf done n.prev with
    | error e => rw [h1] at h; cases h
    | ok ins =>
      rw [h1] at h; dsimp only at h ⊢
      have h3 : evalNode o' n ins = evalNode o n ins := by
        refine hc 0 n ins rfl ?_
        rw [hnew, Nat.add_zero, List.take_left']
        · exact h1
        · rfl
      rw [h3]
      cases h2 : evalNode o n ins with
      | error e => rw [h2] at h; cases h
      | ok v =>
        rw [h2] at h; dsimp only at h ⊢
        refine evalAll_congr o o' h ?_
        intro i n' ins' hi hv
        refine hc (i + 1) n' ins' (by rw [List.getElem?_cons_succ]; exact hi) ?_
        rw [List.length_append, List.length_singleton] at hv
        rw [← Nat.add_assoc, Nat.add_right_comm]
        exact hv

/-- The nodes that run a module. -/
def Runs : Kind → Prop
  | .mix _ => True
  | .group _ _ => True
  | .groupNorm _ _ => True
  | .passUnion => True
  | _ => False

theorem evalNode_congr (o : Ops X) (f g : Nat → List X → Except Err (List X)) (n : Node) (ins : List (List X))
    (h : ∀ m v rest, ins = v :: rest → n.module = some m → Runs n.kind → f m v = g m v) :
    evalNode (o.with f) n ins = evalNode (o.with g) n ins := by
  have hr : ∀ v rest, ins = v :: rest → Runs n.kind → runLayer (o.with f) n v = runLayer (o.with g) n v := by
    intro v rest hv hk
    unfold runLayer
    cases hm : n.module with
    | none => rfl
    | some m => exact h m v rest hv hm hk
  obtain ⟨name, kind, prev, module⟩ := n
  cases kind <;> match ins, hr with
    | [], _ => rfl
    | [v], hr => first
      | rfl
      | have := hr v [] rfl trivial
        simp only [evalNode, this] <;> rfl
    | v :: _ :: _, hr => first
      | rfl
      | have := hr v _ rfl trivial
        simp only [evalNode, this] <;> rfl

theorem valuesOf_head {done : List (List X)} {j : Nat} {is : List Nat} {v : List X} {rest : List (List X)}
    (h : valuesOf done (j :: is) = .ok (v :: rest)) : done[j]? = some v := by
  rw [valuesOf] at h
  cases h1 : done[j]? with
  | none => rw [h1] at h; cases h
  | some w =>
    rw [h1] at h
    cases h2 : valuesOf done is with
    | error e => rw [h2] at h; cases h
    | ok vs => rw [h2] at h; cases h; rfl

theorem kept_of_masks {inputs : Nat} {nodes : List Node} {recs : List Rec} {s : S} (h : forward inputs nodes = .ok (recs, s)) (φ : Elem → Bool)
    (read : Tensor → Except Err (List Bool)) (hr : ∀ r ∈ recs, read r.inp = .ok (r.inp.map φ) ∧ read r.out = .ok (r.out.map φ))
    (hK : KeptMasks read nodes recs) : Kept φ nodes recs := by
  intro q hq
  obtain ⟨h1, h2⟩ := hK q hq
  obtain ⟨a1, a2⟩ := hr q.2 (List.of_mem_zip hq).2
  constructor
  · intro k hk x hx
    have hn := h1 k hk _ a2
    obtain ⟨i, hi⟩ := List.mem_iff_getElem?.1 hq
    rw [List.getElem?_zip_eq_some] at hi
    obtain ⟨r, hr', hcase⟩ := (graph_made h).2 i q.1 hi.1
    rw [hi.2] at hr'
    cases hr'
    have hout : q.2.out = q.2.ret := by
      rcases hcase with ⟨_, t, hm⟩ | ⟨ts, _, hm⟩ <;> rw [hk] at hm <;> exact hm.2
    cases hb : φ x with
    | true => rfl
    | false => exact absurd (List.mem_map.2 ⟨x, by rw [hout]; exact hx, hb⟩) hn
  · intro hm
    obtain ⟨x, hx, hb⟩ := List.mem_map.1 (h2 hm _ a1)
    exact ⟨x, hx, hb⟩

theorem faithful_of [AddCommMonoid X] (corr : Nat → W → X → X) (h0 : ∀ m w, corr m w 0 = 0) (bc : Nat → B → X) (o : Ops X)
    (mods : Nat → Module W B X) {inputs : Nat} {nodes : List Node} {recs : List Rec} {s : S} (h : forward inputs nodes = .ok (recs, s))
    (hf : Fits o mods nodes recs) (φ : Elem → Bool) (hA : Admissible nodes recs φ) (hK : Kept φ nodes recs)
    (read : Tensor → Except Err (List Bool)) (hr : ∀ r ∈ recs, read r.inp = .ok (r.inp.map φ) ∧ read r.out = .ok (r.out.map φ)) :
    Faithful corr bc o mods read nodes recs := by
  obtain ⟨tbl, t1, t2⟩ := register_ok read φ (nodes.zip recs) (fun q hq => hr q.2 (List.of_mem_zip hq).2) hA.shared
  obtain ⟨ws, vs, r1, r2, r3, _, _, r6, _⟩ := run_rel corr h0 bc o mods h hf φ hA hK tbl t2 nodes.length (le_refl _)
  rw [List.take_length] at r1 r2 r3
  refine ⟨φ, tbl, ws, vs, hr, t1, r1, r2, r3, ?_⟩
  intro i n hi hs
  obtain ⟨r, h1, _⟩ := (graph_made h).2 i n hi
  obtain ⟨w, v, h2, h3, h4⟩ := r6 i n r (List.getElem?_eq_some_iff.1 hi).1 hi h1
  obtain ⟨h5, h6⟩ := h4.1 hs
  exact ⟨r, w, h1, h2, h5, by rw [h3, h6, select_eq_active]⟩

theorem evalAll_node (o : Ops X) : ∀ {l : List Node} {done us : List (List X)}, evalAll o l done = .ok us → ∀ n ∈ l,
    ∃ k ins v, valuesOf (us.take k) n.prev = .ok ins ∧ evalNode o n ins = .ok v
  | [], _, _, _, n, hn => absurd hn List.not_mem_nil
  | n :: l, done, us, h, n', hn => by
    obtain ⟨new, hnew⟩ := evalAll_prefix o h
    rw [evalAll] at h
    cases h1 : valuesOf done n.prev with
    | error e => rw [h1] at h; cases h
    | ok ins =>
      rw [h1] at h; dsimp only at h
      cases h2 : evalNode o n ins with
      | error e => rw [h2] at h; cases h
      | ok v =>
        rw [h2] at h; dsimp only at h
        rcases List.mem_cons.1 hn with rfl | hn
        · refine ⟨done.length, ins, v, ?_, h2⟩
          rw [hnew, List.take_left']
          · exact h1
          · rfl
        · exact evalAll_node o h n' hn

theorem valuesOf_mem {done : List (List X)} : ∀ {is : List Nat} {ins : List (List X)}, valuesOf done is = .ok ins →
    ∀ j ∈ is, ∃ u ∈ ins, done[j]? = some u
  | [], _, _, j, hj => absurd hj List.not_mem_nil
  | i :: is, ins, h, j, hj => by
    rw [valuesOf] at h
    cases h1 : done[i]? with
    | none => rw [h1] at h; cases h
    | some w =>
      rw [h1] at h
      cases h2 : valuesOf done is with
      | error e => rw [h2] at h; cases h
      | ok vs =>
        rw [h2] at h
        cases h
        rcases List.mem_cons.1 hj with rfl | hj
        · exact ⟨w, List.mem_cons_self, h1⟩
        · obtain ⟨u, hu, hd⟩ := valuesOf_mem h2 j hj
          exact ⟨u, List.mem_cons_of_mem _ hu, hd⟩

theorem bindVals_length (f : X → X → X) : ∀ {rest : List (List X)} {v y : List X}, bindVals f v rest = .ok y →
    y.length = v.length ∧ ∀ w ∈ rest, w.length = v.length
  | [], v, y, h => by cases h; exact ⟨rfl, by simp⟩
  | w :: rest, v, y, h => by
    rw [bindVals] at h
    by_cases he : v.length = w.length
    · rw [if_pos he] at h
      obtain ⟨h1, h2⟩ := bindVals_length f h
      have hz : (List.zipWith f v w).length = v.length := by rw [List.length_zipWith, ← he, Nat.min_self]
      refine ⟨by rw [h1, hz], ?_⟩
      intro u hu
      rcases List.mem_cons.1 hu with rfl | hu
      · exact he.symm
      · rw [h2 u hu, hz]
    · rw [if_neg he] at h; cases h

end Verif.PrunedNet
