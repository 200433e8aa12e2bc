import Verif.Spec.OnnxGraph

/-! Helper lemmas for `Verif/Props/OnnxGraph.lean`. -/

namespace Verif.Onnx
open Verif

/-- `e` is a solution of all nodes. -/
def Solves {V : Type} (I : Interp V) (e : String → Option V) (n : Node) : Prop :=
  ∃ args outs, n.inputs.mapM e = some args ∧ I.run n.op args = some outs ∧ outs.length = n.outputs.length ∧
    ∀ p ∈ n.outputs.zip outs, e p.1 = some p.2

/-- The invariant of the loop: `done` are the names taken from the stack, the last one first. -/
structure Inv (E : List (String × String)) (inputs names stack : List String) (indeg : String → ℤ)
    (done : List String) : Prop where
  nodup : (stack ++ done).Nodup
  sub : ∀ v ∈ stack ++ done, v ∈ inputs ∨ v ∈ names
  deg : ∀ v, indeg v = E.countP fun q => q.2 = v ∧ q.1 ∉ done
  zero : ∀ v ∈ names, indeg v = 0 ↔ v ∈ stack ++ done
  ins : ∀ v ∈ inputs, v ∈ stack ++ done
  order : ∀ a v b, done = a ++ v :: b → ∀ q ∈ E, q.2 = v → q.1 ∈ b

/-- Every name outside of the graph inputs is taken from the stack at most once. -/
structure Once (inputs stack : List String) (indeg : String → ℤ) (acc : List String) : Prop where
  count : ∀ v, v ∉ inputs → (stack ++ acc).count v ≤ 1
  deg : ∀ v, v ∉ inputs → v ∈ stack ++ acc → indeg v ≤ 0
  out : ∀ v ∈ acc, v ∉ inputs

/-- The input `t` of the node at position `j`. -/
def inp (c : List Node) (j t : ℕ) : Option String := (c[j]?).bind fun n => n.inputs[t]?

/-- Everything but the inputs. -/
def core (n : Node) : String × Op × List String := (n.name, n.op, n.outputs)

/-- The name is available before position `j`. -/
def Before (avail : List String) (orig : List Node) (j : ℕ) (x : String) : Prop :=
  x ∈ avail ∨ ∃ i, i < j ∧ ∃ n, orig[i]? = some n ∧ x ∈ n.outputs

/-- The invariant of the loop over the paddings, after `k` nodes. -/
structure PadInv (g : Graph) (R : String → String → Prop) (k : ℕ) (c : List Node) (S : List ℕ) : Prop where
  core : c.map core = g.nodes.map core
  dom : ∀ j t, (inp c j t).isSome = (inp g.nodes j t).isSome
  val : ∀ j t x x0, inp c j t = some x → inp g.nodes j t = some x0 → R x x0
  gone : ∀ i ∈ S, ∀ n, g.nodes[i]? = some n → ∀ y ∈ n.outputs, ∀ j t, inp c j t ≠ some y
  back : ∀ j t x, inp c j t = some x → Before (g.inputs ++ g.initNames) g.nodes j x
  old : ∀ j t x, inp c j t = some x → inp g.nodes j t = some x ∨ Before (g.inputs ++ g.initNames) g.nodes k x
  chg : ∀ j t x x0, inp c j t = some x → inp g.nodes j t = some x0 → x = x0 ∨ ∃ m ∈ g.nodes, m.op = .pad ∧ x0 ∈ m.outputs
  lt : ∀ i ∈ S, i < k
  nodup : S.Nodup
  zero : ∀ i n, g.nodes[i]? = some n → (i ∈ S ↔ i < k ∧ g.ZeroPad n)

/-- `y = Relu(Pad(x, 0))`, with the nodes given in the wrong order, a constant nobody reads and an
initializer nobody reads. -/
def gLoose : Graph :=
  { nodes := [⟨"relu", .other "Relu", ["b"], ["y"]⟩, ⟨"lost", .constant (some ⟨[], [3]⟩), [], ["q"]⟩,
      ⟨"conv", .other "Conv", ["x", "w"], ["b"]⟩],
    inits := [("w", ⟨[1], [2]⟩), ("old", ⟨[1], [5]⟩)], inputs := ["x"], outputs := ["y"] }

/-- Integers: convolution multiplies, Relu cuts, a constant is its first entry, padding adds. -/
def intInterp : Interp ℚ where
  lit d := d.vals.headD 0
  run
    | .constant (some d), _ => some [d.vals.headD 0]
    | .identity, [v] => some [v]
    | .pad, v :: w :: _ => some [v + w]
    | .other "Conv", [a, b] => some [a * b]
    | .other "Relu", [a] => some [max a 0]
    | _, _ => none

/-- Two nodes that read each other. -/
def gCycle : Graph :=
  { nodes := [⟨"a", .other "Add", ["x", "q"], ["p"]⟩, ⟨"b", .other "Relu", ["p"], ["q"]⟩], inits := [],
    inputs := ["x"], outputs := ["q"] }

/-- A padding by nothing, whose widths are a copy of a constant, and a padding by something. -/
def padNodes : List Node :=
  [⟨"c", .constant (some ⟨[2], [0, 0]⟩), [], ["c"]⟩, ⟨"i", .identity, ["c"], ["w"]⟩,
    ⟨"pad", .pad, ["x", "w"], ["p"]⟩, ⟨"pad2", .pad, ["p", "one"], ["r"]⟩, ⟨"relu", .other "Relu", ["r"], ["y"]⟩]

def gPads (outs : List String) : Graph :=
  { nodes := padNodes, inits := [("one", ⟨[1], [1]⟩)], inputs := ["x"], outputs := outs }

theorem mapM_congr {V : Type} {f g : String → Option V} : ∀ (l : List String), (∀ x ∈ l, f x = g x) → l.mapM f = l.mapM g
  | [], _ => rfl
  | a :: l, h => by
    rw [List.mapM_cons, List.mapM_cons, h a (by simp), mapM_congr l fun x hx => h x (by simp [hx])]

theorem lookup_zip_none {V : Type} {names : List String} {vals : List V} {y : String} (h : y ∉ names) :
    (names.zip vals).lookup y = none := by
  rw [List.lookup_eq_none_iff]
  intro p hp
  have := (List.of_mem_zip hp).1
  simp only [bne_iff_ne, ne_eq]
  rintro rfl
  exact h this

theorem lookup_of_nodup {V : Type} : ∀ {l : List (String × V)}, (l.map (·.1)).Nodup → ∀ {p}, p ∈ l → l.lookup p.1 = some p.2
  | (a, b) :: l, h, p, hp => by
    rw [List.map_cons, List.nodup_cons] at h
    rcases List.mem_cons.1 hp with rfl | hp'
    · simp
    · have hne : p.1 ≠ a := fun hpa => h.1 (List.mem_map.2 ⟨p, hp', hpa⟩)
      rw [List.lookup_cons]
      simp only [beq_eq_false_iff_ne.2 hne]
      exact lookup_of_nodup h.2 hp'

theorem zip_keys_nodup {V : Type} {names : List String} {vals : List V} (h : names.Nodup) :
    ((names.zip vals).map (·.1)).Nodup := by
  have : ∀ (a : List String) (b : List V), ((a.zip b).map (·.1)).Sublist a := by
    intro a
    induction a with
    | nil => intro b; simp
    | cons x a ih =>
      intro b
      cases b with
      | nil => simp
      | cons y b => simpa using (ih b).cons₂ x
  exact h.sublist (this _ _)

theorem evalNode_some {V : Type} {I : Interp V} {env e : String → Option V} {n : Node} :
    evalNode I env n = some e ↔ ∃ args outs, n.inputs.mapM env = some args ∧ I.run n.op args = some outs ∧
      outs.length = n.outputs.length ∧ e = assign env n.outputs outs := by
  unfold evalNode
  rcases h1 : n.inputs.mapM env with _ | args
  · simp
  rcases h2 : I.run n.op args with _ | outs
  · simp [h2]
  by_cases h3 : outs.length = n.outputs.length
  · simp [h2, h3, eq_comm]
  · simp [h2, h3]

theorem eval_iff {V : Type} (I : Interp V) (e : String → Option V) : ∀ (l : List Node) (avail : List String)
    (env : String → Option V), Runs avail l → (l.flatMap (·.outputs)).Nodup →
    (∀ y ∈ l.flatMap (·.outputs), y ∉ avail) →
    (evalAll I env l = some e ↔ (∀ y, y ∉ l.flatMap (·.outputs) → e y = env y) ∧ ∀ n ∈ l, Solves I e n)
  | [], avail, env, _, _, _ => by
    simp only [evalAll, List.foldlM_nil, List.flatMap_nil, List.not_mem_nil, not_false_eq_true, forall_const,
      false_implies, implies_true, and_true]
    constructor
    · rintro h y
      rw [← Option.some.inj h]
    · intro h
      exact congrArg some (funext fun y => (h y).symm)
  | n :: r, avail, env, hr, hn, hd => by
    rw [List.flatMap_cons] at hn hd
    obtain ⟨hn1, hn2, hn3⟩ := List.nodup_append.1 hn
    have ih := fun env' => eval_iff I e r (avail ++ n.outputs) env' hr.2 hn2 (by
      intro y hy ha
      rcases List.mem_append.1 ha with ha | ha
      · exact hd y (List.mem_append.2 (Or.inr hy)) ha
      · exact hn3 y ha y hy rfl)
    have hout : ∀ y ∈ n.outputs, y ∉ r.flatMap (·.outputs) := fun y h1 h2 => hn3 y h1 y h2 rfl
    have hinp : ∀ x ∈ n.inputs, x ∉ n.outputs ++ r.flatMap (·.outputs) := fun x hx h => hd x h (hr.1 x hx)
    have e1 : evalAll I env (n :: r) = (evalNode I env n).bind fun env' => evalAll I env' r := rfl
    rw [e1, Option.bind_eq_some_iff]
    constructor
    · rintro ⟨env1, h1, h2⟩
      obtain ⟨args, outs, a1, a2, a3, rfl⟩ := evalNode_some.1 h1
      obtain ⟨g1, g2⟩ := (ih _).1 h2
      have hrest : ∀ y, y ∉ n.outputs ++ r.flatMap (·.outputs) → e y = env y := by
        intro y hy
        rw [List.mem_append, not_or] at hy
        rw [g1 y hy.2]
        unfold assign
        rw [lookup_zip_none hy.1]; rfl
      refine ⟨by rw [List.flatMap_cons]; exact hrest, ?_⟩
      intro m hm
      rcases List.mem_cons.1 hm with rfl | hm
      · refine ⟨args, outs, ?_, a2, a3, ?_⟩
        · rw [← a1]
          exact mapM_congr _ fun x hx => hrest x (hinp x hx)
        · intro p hp
          rw [g1 p.1 (hout _ (List.of_mem_zip hp).1)]
          unfold assign
          rw [lookup_of_nodup (zip_keys_nodup hn1) hp]; rfl
      · exact g2 m hm
    · rintro ⟨g1, g2⟩
      rw [List.flatMap_cons] at g1
      obtain ⟨args, outs, a1, a2, a3, a4⟩ := g2 n (by simp)
      refine ⟨assign env n.outputs outs, evalNode_some.2 ⟨args, outs, ?_, a2, a3, rfl⟩, (ih _).2 ⟨?_, fun m hm => g2 m (by simp [hm])⟩⟩
      · rw [← a1]
        exact mapM_congr _ fun x hx => (g1 x (hinp x hx)).symm
      · intro y hy
        unfold assign
        by_cases ho : y ∈ n.outputs
        · obtain ⟨i, hi, rfl⟩ := List.mem_iff_getElem.1 ho
          have hp : (n.outputs[i], outs[i]'(by omega)) ∈ n.outputs.zip outs := by
            rw [List.mem_iff_getElem]
            exact ⟨i, by rw [List.length_zip]; omega, by simp⟩
          rw [lookup_of_nodup (zip_keys_nodup hn1) hp, a4 _ hp]; rfl
        · rw [lookup_zip_none ho]
          exact g1 y (by rw [List.mem_append, not_or]; exact ⟨ho, hy⟩)

theorem perm_flatMap {l l' : List Node} (h : l.Perm l') : (l.flatMap (·.outputs)).Perm (l'.flatMap (·.outputs)) :=
  h.flatMap_right _

/-- Two orders of execution of the same nodes give the same values, or fail both. -/
theorem eval_perm {V : Type} (I : Interp V) {avail : List String} (env : String → Option V) {l l' : List Node}
    (hp : l.Perm l') (h1 : Runs avail l) (h2 : Runs avail l') (hn : (l.flatMap (·.outputs)).Nodup)
    (hd : ∀ y ∈ l.flatMap (·.outputs), y ∉ avail) : evalAll I env l = evalAll I env l' := by
  have hm := perm_flatMap hp
  ext e
  rw [eval_iff I e l avail env h1 hn hd,
    eval_iff I e l' avail env h2 (hm.nodup_iff.1 hn) fun y hy => hd y (hm.mem_iff.2 hy)]
  simp only [hm.mem_iff, hp.mem_iff]

theorem visit_fold : ∀ (L : List String) (stack : List String) (indeg : String → ℤ),
    (∀ v, (L.count v : ℤ) ≤ indeg v) →
    ∃ pushed : List String, L.foldl visit (stack, indeg) = (pushed ++ stack, fun v => indeg v - L.count v) ∧
      pushed.Nodup ∧ ∀ v, v ∈ pushed ↔ v ∈ L ∧ indeg v = L.count v
  | [], stack, indeg, _ => ⟨[], by simp, by simp, by simp⟩
  | a :: L, stack, indeg, h => by
    have ha : (L.count a : ℤ) + 1 ≤ indeg a := by have := h a; rw [List.count_cons_self] at this; push_cast at this; exact this
    have hu : ∀ v, Function.update indeg a (indeg a - 1) v = indeg v - (if v = a then 1 else 0) := by
      intro v
      by_cases hv : v = a
      · subst hv; simp
      · simp [hv]
    obtain ⟨pushed, h1, h2, h3⟩ := visit_fold L (if indeg a - 1 = 0 then a :: stack else stack)
      (Function.update indeg a (indeg a - 1)) (by
        intro v
        rw [hu]
        by_cases hv : v = a
        · subst hv; simp; omega
        · have := h v; rw [List.count_cons_of_ne (Ne.symm hv)] at this; simp [hv]; exact this)
    have hc : ∀ v, indeg v - (if v = a then 1 else 0) - (L.count v : ℤ) = indeg v - ((a :: L).count v : ℕ) := by
      intro v
      by_cases hv : v = a
      · subst hv; rw [List.count_cons_self]; push_cast; simp; ring
      · rw [List.count_cons_of_ne (Ne.symm hv)]; simp [hv]
    by_cases hz : indeg a - 1 = 0
    · have hL : L.count a = 0 := by omega
      refine ⟨pushed ++ [a], ?_, ?_, ?_⟩
      · rw [List.foldl_cons]
        show L.foldl visit (if indeg a - 1 = 0 then a :: stack else stack, Function.update indeg a (indeg a - 1)) = _
        rw [h1, if_pos hz]
        refine Prod.ext (by simp) (funext fun v => ?_)
        show Function.update indeg a (indeg a - 1) v - _ = _
        rw [hu, hc]
      · rw [List.nodup_append]
        refine ⟨h2, by simp, ?_⟩
        intro x hx y hy
        rw [List.mem_singleton] at hy
        rintro rfl
        subst hy
        exact absurd ((h3 x).1 hx).1 (List.count_eq_zero.1 hL)
      · intro v
        rw [List.mem_append, List.mem_singleton, h3, hu]
        by_cases hv : v = a
        · subst hv
          simp [hL]; omega
        · rw [List.count_cons_of_ne (Ne.symm hv)]; simp [hv]
    · refine ⟨pushed, ?_, h2, ?_⟩
      · rw [List.foldl_cons]
        show L.foldl visit (if indeg a - 1 = 0 then a :: stack else stack, Function.update indeg a (indeg a - 1)) = _
        rw [h1, if_neg hz]
        refine Prod.ext rfl (funext fun v => ?_)
        show Function.update indeg a (indeg a - 1) v - _ = _
        rw [hu, hc]
      · intro v
        rw [h3, hu]
        by_cases hv : v = a
        · subst hv
          rw [List.count_cons_self]
          push_cast
          simp only [if_true, List.mem_cons, true_or, true_and]
          constructor
          · rintro ⟨_, h⟩; omega
          · intro h
            refine ⟨?_, by omega⟩
            by_contra hm
            have := List.count_eq_zero.2 hm
            omega
        · rw [List.count_cons_of_ne (Ne.symm hv)]; simp [hv]

theorem countP_split {α : Type} (p q r : α → Bool) : ∀ (l : List α), (∀ x ∈ l, (p x = true ↔ q x = true ∨ r x = true) ∧ ¬ (q x = true ∧ r x = true)) →
    l.countP p = l.countP q + l.countP r
  | [], _ => rfl
  | a :: l, h => by
    rw [List.countP_cons, List.countP_cons, List.countP_cons, countP_split p q r l fun x hx => h x (by simp [hx])]
    have := h a (by simp)
    rcases hp : p a <;> rcases hq : q a <;> rcases hr : r a <;> simp_all <;> omega

theorem Inv.step {E : List (String × String)} {inputs names stack done : List String} {indeg : String → ℤ} {p : String}
    (hE : ∀ q ∈ E, q.2 ∈ names) (hdis : ∀ v ∈ inputs, v ∉ names) (h : Inv E inputs names (p :: stack) indeg done) :
    ∃ stack' indeg', ((E.filter (·.1 = p)).map (·.2)).foldl visit (stack, indeg) = (stack', indeg') ∧
      Inv E inputs names stack' indeg' (p :: done) := by
  set L := (E.filter (·.1 = p)).map (·.2) with hL
  have hpd : p ∉ done := by
    have := h.nodup
    rw [List.cons_append, List.nodup_cons, List.mem_append, not_or] at this
    exact this.1.2
  have hcount : ∀ v, L.count v = E.countP fun q => q.2 = v ∧ q.1 = p := by
    intro v
    rw [hL, List.count, List.countP_map, List.countP_filter]
    refine List.countP_congr fun q _ => ?_
    simp [and_comm]
  have hsplit : ∀ v, (E.countP fun q => q.2 = v ∧ q.1 ∉ done) = (E.countP fun q => q.2 = v ∧ q.1 ∉ p :: done) + L.count v := by
    intro v
    rw [hcount]
    refine countP_split _ _ _ E fun q _ => ?_
    simp only [decide_eq_true_eq, List.mem_cons, not_or]
    constructor
    · constructor
      · rintro ⟨h1, h2⟩
        by_cases hq : q.1 = p
        · exact Or.inr ⟨h1, hq⟩
        · exact Or.inl ⟨h1, hq, h2⟩
      · rintro (⟨h1, _, h2⟩ | ⟨h1, h2⟩)
        · exact ⟨h1, h2⟩
        · exact ⟨h1, h2 ▸ hpd⟩
    · rintro ⟨⟨_, h1, _⟩, _, h2⟩
      exact h1 h2
  obtain ⟨pushed, e, hn, hp⟩ := visit_fold L stack indeg (by
    intro v
    rw [h.deg v, hsplit v]
    push_cast; omega)
  have hLn : ∀ v ∈ L, v ∈ names := by
    intro v hv
    obtain ⟨q, hq, rfl⟩ := List.mem_map.1 hv
    exact hE q (List.mem_of_mem_filter hq)
  have hnew : ∀ v ∈ pushed, v ∉ (p :: stack) ++ done := by
    intro v hv hm
    obtain ⟨h1, h2⟩ := (hp v).1 hv
    have := (h.zero v (hLn v h1)).2 hm
    have := List.count_pos_iff.2 h1
    omega
  refine ⟨_, _, e, ?_⟩
  have hperm : ((pushed ++ stack) ++ (p :: done)).Perm (pushed ++ ((p :: stack) ++ done)) := by
    rw [List.append_assoc]
    refine List.Perm.append_left _ ?_
    rw [List.cons_append]
    exact List.perm_middle
  have hmem : ∀ v, v ∈ (pushed ++ stack) ++ (p :: done) ↔ v ∈ pushed ∨ v ∈ (p :: stack) ++ done := by
    intro v; rw [hperm.mem_iff, List.mem_append]
  refine ⟨?_, ?_, ?_, ?_, ?_, ?_⟩
  · rw [hperm.nodup_iff, List.nodup_append]
    refine ⟨hn, h.nodup, ?_⟩
    rintro x hx y hy rfl
    exact hnew x hx hy
  · intro v hv
    rcases (hmem v).1 hv with hv | hv
    · exact Or.inr (hLn v ((hp v).1 hv).1)
    · exact h.sub v hv
  · intro v
    show indeg v - L.count v = _
    rw [h.deg v, hsplit v]
    push_cast; ring
  · intro v hv
    rw [hmem, hp, ← h.zero v hv]
    show indeg v - L.count v = 0 ↔ _
    have h1 : (L.count v : ℤ) ≤ indeg v := by
      rw [h.deg v, hsplit v]; push_cast; omega
    constructor
    · intro hz
      by_cases hm : v ∈ L
      · exact Or.inl ⟨hm, by omega⟩
      · have := List.count_eq_zero.2 hm
        exact Or.inr (by omega)
    · rintro (⟨_, h2⟩ | h2)
      · omega
      · omega
  · intro v hv
    rw [hmem]
    exact Or.inr (h.ins v hv)
  · intro a v b hab q hq hqv
    rcases a with _ | ⟨a0, a⟩
    · rw [List.nil_append, List.cons.injEq] at hab
      obtain ⟨rfl, rfl⟩ := hab
      have hpn : p ∈ names := hqv ▸ hE q hq
      have hz := (h.zero p hpn).2 (by simp)
      rw [h.deg p] at hz
      have hz' : (E.countP fun q => q.2 = p ∧ q.1 ∉ done) = 0 := by exact_mod_cast hz
      rw [List.countP_eq_zero] at hz'
      have := hz' q hq
      simpa [hqv] using this
    · rw [List.cons_append, List.cons.injEq] at hab
      exact h.order a v b hab.2 q hq hqv

theorem kahn_spec {E : List (String × String)} {inputs names : List String}
    (hE : ∀ q ∈ E, q.2 ∈ names) (hdis : ∀ v ∈ inputs, v ∉ names) : ∀ (fuel : ℕ) (stack done : List String)
    (indeg : String → ℤ), Inv E inputs names stack indeg done → inputs.length + names.length ≤ fuel + done.length →
    ∃ final indeg', kahn E inputs fuel stack indeg (done.filter (· ∉ inputs)) = some (final.filter (· ∉ inputs)).reverse ∧
      Inv E inputs names [] indeg' final
  | fuel, [], done, indeg, h, _ => ⟨done, indeg, by cases fuel <;> simp [kahn], h⟩
  | 0, p :: stack, done, indeg, h, hf => by
    exfalso
    have h1 : ((p :: stack) ++ done).length ≤ (inputs ++ names).length :=
      (List.subperm_of_subset h.nodup fun v hv => List.mem_append.2 (h.sub v hv)).length_le
    simp only [List.length_append, List.length_cons] at h1
    omega
  | fuel + 1, p :: stack, done, indeg, h, hf => by
    obtain ⟨stack', indeg', e, hi⟩ := h.step hE hdis
    obtain ⟨final, indeg'', e2, h2⟩ := kahn_spec hE hdis fuel stack' (p :: done) indeg' hi (by simp; omega)
    refine ⟨final, indeg'', ?_, h2⟩
    rw [← e2]
    show kahn E inputs fuel _ _ _ = _
    rw [e]
    refine congrArg _ ?_
    by_cases hp : p ∈ inputs
    · simp [hp]
    · simp [hp]

theorem edges_ok {g : Graph} (hg : g.Valid) : ∃ E, edges g = .ok E ∧
    ∀ p v, (p, v) ∈ E ↔ ∃ n ∈ g.nodes, n.name = v ∧ ∃ x ∈ n.inputs, x ∉ g.initNames ∧ producer g x = some p := by
  have key : ∀ (l : List (Node × String)), (∀ q ∈ l, q.1 ∈ g.nodes ∧ q.2 ∈ q.1.inputs) →
      ∃ F, (l.mapM fun q => edgeOf g q.1 q.2) = .ok F ∧
        ∀ p v, (p, v) ∈ F.flatten ↔ ∃ q ∈ l, q.1.name = v ∧ q.2 ∉ g.initNames ∧ producer g q.2 = some p := by
    intro l
    induction l with
    | nil => intro _; exact ⟨[], rfl, by simp⟩
    | cons q l ih =>
      intro h
      obtain ⟨F, e, hF⟩ := ih fun q hq => h q (by simp [hq])
      obtain ⟨hq1, hq2⟩ := h q (by simp)
      by_cases hi : q.2 ∈ g.initNames
      · refine ⟨[] :: F, ?_, ?_⟩
        · have : edgeOf g q.1 q.2 = .ok [] := if_pos hi
          rw [List.mapM_cons, e, this]; rfl
        · intro p v
          rw [List.flatten_cons, List.nil_append, hF]
          constructor
          · rintro ⟨q', h1, h2⟩; exact ⟨q', by simp [h1], h2⟩
          · rintro ⟨q', h1, h2, h3, h4⟩
            rcases List.mem_cons.1 h1 with rfl | h1
            · exact absurd hi h3
            · exact ⟨q', h1, h2, h3, h4⟩
      · have hp : ∃ p, producer g q.2 = some p := by
          unfold producer
          by_cases hx : q.2 ∈ g.inputs
          · exact ⟨_, if_pos hx⟩
          · rw [if_neg hx]
            rcases hg.closed _ hq1 _ hq2 with h1 | h1 | ⟨m, hm, hy⟩
            · exact absurd h1 hx
            · exact absurd h1 hi
            · rcases hf : g.nodes.reverse.find? fun n => n.outputs.contains q.2 with _ | m'
              · rw [List.find?_eq_none] at hf
                exact absurd (by simpa using hy) (hf m (by simpa using hm))
              · exact ⟨m'.name, by rw [hf]; rfl⟩
        obtain ⟨p0, hp0⟩ := hp
        refine ⟨[(p0, q.1.name)] :: F, ?_, ?_⟩
        · have : edgeOf g q.1 q.2 = .ok [(p0, q.1.name)] := by
            unfold edgeOf
            rw [if_neg hi, hp0]
          rw [List.mapM_cons, e, this]; rfl
        · intro p v
          rw [List.flatten_cons, List.mem_append, hF, List.mem_singleton, Prod.mk.injEq]
          constructor
          · rintro (⟨rfl, rfl⟩ | ⟨q', h1, h2⟩)
            · exact ⟨q, by simp, rfl, hi, hp0⟩
            · exact ⟨q', by simp [h1], h2⟩
          · rintro ⟨q', h1, h2, h3, h4⟩
            rcases List.mem_cons.1 h1 with rfl | h1
            · rw [hp0] at h4
              exact Or.inl ⟨(Option.some.inj h4).symm, h2.symm⟩
            · exact Or.inr ⟨q', h1, h2, h3, h4⟩
  obtain ⟨F, e, hF⟩ := key (g.nodes.flatMap fun n => n.inputs.map fun x => (n, x)) (by
    intro q hq
    obtain ⟨n, hn, hx⟩ := List.mem_flatMap.1 hq
    obtain ⟨x, hx', rfl⟩ := List.mem_map.1 hx
    exact ⟨hn, hx'⟩)
  refine ⟨F.flatten, ?_, ?_⟩
  · unfold edges; rw [e]; rfl
  · intro p v
    rw [hF]
    constructor
    · rintro ⟨q, hq, h2⟩
      obtain ⟨n, hn, hx⟩ := List.mem_flatMap.1 hq
      obtain ⟨x, hx', rfl⟩ := List.mem_map.1 hx
      exact ⟨n, hn, h2.1, x, hx', h2.2⟩
    · rintro ⟨n, hn, h1, x, hx, h2⟩
      exact ⟨(n, x), List.mem_flatMap.2 ⟨n, hn, List.mem_map.2 ⟨x, hx, rfl⟩⟩, h1, h2⟩

theorem writer_unique {l : List Node} (h : (l.flatMap (·.outputs)).Nodup) {m n : Node} (hm : m ∈ l) (hn : n ∈ l)
    {x : String} (h1 : x ∈ m.outputs) (h2 : x ∈ n.outputs) : m = n := by
  by_contra hne
  have hp := (List.nodup_flatMap.1 h).2
  have : ∀ {l : List Node}, l.Pairwise (Function.onFun List.Disjoint fun n => n.outputs) → m ∈ l → n ∈ l → False := by
    intro l hp hm hn
    induction l with
    | nil => simp at hm
    | cons a l ih =>
      rw [List.pairwise_cons] at hp
      rcases List.mem_cons.1 hm with hm' | hm'
      · rcases List.mem_cons.1 hn with hn' | hn'
        · exact hne (hm'.trans hn'.symm)
        · exact (hm' ▸ hp.1 n hn') h1 h2
      · rcases List.mem_cons.1 hn with hn' | hn'
        · exact (hn' ▸ hp.1 m hm') h2 h1
        · exact ih hp.2 hm' hn'
  exact this hp hm hn

theorem producer_iff {g : Graph} (hg : g.Valid) {x p : String} : producer g x = some p ↔
    (x ∈ g.inputs ∧ p = x) ∨ ∃ m ∈ g.nodes, x ∈ m.outputs ∧ p = m.name := by
  unfold producer
  by_cases hx : x ∈ g.inputs
  · rw [if_pos hx, Option.some.injEq]
    constructor
    · rintro rfl; exact Or.inl ⟨hx, rfl⟩
    · rintro (⟨_, rfl⟩ | ⟨m, hm, hy, _⟩)
      · rfl
      · exact absurd hx (hg.fresh m hm x hy).1
  · rw [if_neg hx, Option.map_eq_some_iff]
    constructor
    · rintro ⟨m, hf, rfl⟩
      have h1 := List.mem_of_find?_eq_some hf
      have h2 := List.find?_some hf
      exact Or.inr ⟨m, by simpa using h1, by simpa using h2, rfl⟩
    · rintro (⟨h, _⟩ | ⟨m, hm, hy, rfl⟩)
      · exact absurd h hx
      · rcases hf : g.nodes.reverse.find? fun n => n.outputs.contains x with _ | m'
        · rw [List.find?_eq_none] at hf
          exact absurd (by simpa using hy) (hf m (by simpa using hm))
        · refine ⟨m', hf, ?_⟩
          have h1 : m' ∈ g.nodes := by simpa using List.mem_of_find?_eq_some hf
          have h2 : x ∈ m'.outputs := by simpa using List.find?_some hf
          rw [writer_unique hg.once h1 hm h2 hy]

theorem runs_concat {avail : List String} {n : Node} : ∀ {l : List Node},
    Runs avail (l ++ [n]) ↔ Runs avail l ∧ ∀ x ∈ n.inputs, x ∈ avail ∨ ∃ m ∈ l, x ∈ m.outputs
  | [] => by simp [Runs]
  | m :: l => by
    rw [List.cons_append]
    show (_ ∧ Runs (avail ++ m.outputs) (l ++ [n])) ↔ (_ ∧ Runs (avail ++ m.outputs) l) ∧ _
    rw [runs_concat, and_assoc]
    refine and_congr_right fun _ => and_congr_right fun _ => forall₂_congr fun x _ => ?_
    simp only [List.mem_append, List.mem_cons, exists_eq_or_imp, or_assoc]

theorem name_unique {g : Graph} (hg : g.Valid) {m n : Node} (hm : m ∈ g.nodes) (hn : n ∈ g.nodes) (h : m.name = n.name) :
    m = n := List.inj_on_of_nodup_map (List.nodup_append.1 hg.names).2.1 hm hn h

theorem named_iff {g : Graph} (hg : g.Valid) {v : String} {n : Node} : g.named v = some n ↔ n ∈ g.nodes ∧ n.name = v := by
  unfold Graph.named
  constructor
  · intro h
    exact ⟨by simpa using List.mem_of_find?_eq_some h, by simpa using List.find?_some h⟩
  · rintro ⟨h1, h2⟩
    rcases hf : g.nodes.reverse.find? fun n => n.name = v with _ | m
    · rw [List.find?_eq_none] at hf
      exact absurd (by simpa using h2) (hf n (by simpa using h1))
    · have h3 : m ∈ g.nodes := by simpa using List.mem_of_find?_eq_some hf
      have h4 : m.name = v := by simpa using List.find?_some hf
      rw [← name_unique hg h3 h1 (h4.trans h2.symm)]; exact hf

/-- What the sort does on valid graphs: the names that were reached, in an order of execution; all of them if
there is an order. -/
theorem sort_core {g : Graph} (hg : g.Valid) : ∃ l : List Node,
    topoSort g = (if l.length ≠ g.nodes.length then .error .runtime else .ok { g with nodes := l }) ∧
    l.Nodup ∧ (∀ n ∈ l, n ∈ g.nodes) ∧ Runs (g.inputs ++ g.initNames) l ∧ (g.Acyclic → ∀ n ∈ g.nodes, n ∈ l) := by
  obtain ⟨hi, hn, hin⟩ := List.nodup_append.1 hg.names
  set names := g.nodes.map (·.name) with hnames
  obtain ⟨E, he, hE⟩ := edges_ok hg
  have hdis : ∀ v ∈ g.inputs, v ∉ names := fun v h1 h2 => hin v h1 v h2 rfl
  have hEn : ∀ q ∈ E, q.2 ∈ names := by
    intro q hq
    obtain ⟨n, hn, h, _⟩ := (hE q.1 q.2).1 hq
    exact h ▸ List.mem_map.2 ⟨n, hn, rfl⟩
  have hdd : names.reverse.dedup.reverse = names := by
    rw [(List.nodup_reverse.2 hn).dedup, List.reverse_reverse]
  set indeg : String → ℤ := fun n => E.countP (·.2 = n) with hindeg
  set roots := g.inputs ++ names.filter fun n => indeg n = 0 with hroots
  have inv : Inv E g.inputs names roots.reverse indeg [] := by
    refine ⟨?_, ?_, ?_, ?_, ?_, ?_⟩
    · rw [List.append_nil, List.nodup_reverse]
      exact hg.names.sublist (List.Sublist.append_left List.filter_sublist _)
    · intro v hv
      rw [List.append_nil, List.mem_reverse, hroots, List.mem_append] at hv
      exact hv.imp id List.mem_of_mem_filter
    · intro v
      simp [hindeg]
    · intro v hv
      rw [List.append_nil, List.mem_reverse, hroots, List.mem_append, List.mem_filter]
      constructor
      · intro h; exact Or.inr ⟨hv, by simpa using h⟩
      · rintro (h | ⟨_, h⟩)
        · exact absurd hv (hdis v h)
        · simpa using h
    · intro v hv
      rw [List.append_nil, List.mem_reverse, hroots, List.mem_append]
      exact Or.inl hv
    · intro a v b h; simp at h
  obtain ⟨final, indeg', hk, hf⟩ := kahn_spec hEn hdis (g.inputs.length + g.nodes.length) roots.reverse [] indeg inv
    (by simp [hnames])
  have hnod : final.Nodup := by simpa using hf.nodup
  refine ⟨(final.filter (· ∉ g.inputs)).reverse.filterMap g.named, ?_, ?_, ?_, ?_, ?_⟩
  · unfold topoSort
    rw [he]
    show (match kahn E g.inputs (g.inputs.length + g.nodes.length)
      (g.inputs ++ (names.reverse.dedup.reverse).filter fun n => indeg n = 0).reverse indeg [] with
      | none => (Except.error Err.assertion : Except Err Graph)
      | some names => _) = _
    rw [hdd, ← hroots, show ([] : List String) = ([] : List String).filter (· ∉ g.inputs) from rfl, hk]
  · refine List.Nodup.filterMap ?_ (List.nodup_reverse.2 (hnod.filter _))
    intro a a' b h1 h2
    rw [Option.mem_def, named_iff hg] at h1 h2
    rw [← h1.2, h2.2]
  · intro n hn
    obtain ⟨v, _, hv⟩ := List.mem_filterMap.1 hn
    exact ((named_iff hg).1 hv).1
  · have key : ∀ (b a : List String), final = a ++ b →
        Runs (g.inputs ++ g.initNames) ((b.filter (· ∉ g.inputs)).reverse.filterMap g.named) := by
      intro b
      induction b with
      | nil => intro a _; trivial
      | cons v b ih =>
        intro a hab
        have ih' := ih (a ++ [v]) (by simp [hab])
        by_cases hv : v ∈ g.inputs
        · simpa [hv] using ih'
        · rw [List.filter_cons_of_pos (by simpa using hv), List.reverse_cons, List.filterMap_append]
          rcases hvn : g.named v with _ | n
          · simpa [hvn] using ih'
          · obtain ⟨hn1, hn2⟩ := (named_iff hg).1 hvn
            rw [show List.filterMap g.named [v] = [n] by simp [hvn], runs_concat]
            refine ⟨ih', fun x hx => ?_⟩
            rw [List.mem_append]
            by_cases hxi : x ∈ g.initNames
            · exact Or.inl (Or.inr hxi)
            rcases hg.closed n hn1 x hx with h1 | h1 | ⟨m, hm, hy⟩
            · exact Or.inl (Or.inl h1)
            · exact absurd h1 hxi
            · right
              have hp : producer g x = some m.name := (producer_iff hg).2 (Or.inr ⟨m, hm, hy, rfl⟩)
              have hq : (m.name, v) ∈ E := (hE _ _).2 ⟨n, hn1, hn2, x, hx, hxi, hp⟩
              have hb := hf.order a v b hab _ hq rfl
              have hmi : m.name ∉ g.inputs := fun h => hdis _ h (List.mem_map.2 ⟨m, hm, rfl⟩)
              refine ⟨m, List.mem_filterMap.2 ⟨m.name, ?_, (named_iff hg).2 ⟨hm, rfl⟩⟩, hy⟩
              rw [List.mem_reverse, List.mem_filter]
              exact ⟨hb, by simpa using hmi⟩
    exact key final [] rfl
  · rintro ⟨l, hp, hr⟩
    have hfin : ∀ (l : List Node) (avail : List String), Runs avail l → (∀ n ∈ l, n ∈ g.nodes) →
        (∀ x ∈ avail, x ∈ g.inputs ∨ x ∈ g.initNames ∨ ∃ m ∈ g.nodes, x ∈ m.outputs ∧ m.name ∈ final) →
        ∀ n ∈ l, n.name ∈ final := by
      intro l
      induction l with
      | nil => intro _ _ _ _ n hn; simp at hn
      | cons n l ih =>
        intro avail hr hl ha
        have hnn : n ∈ g.nodes := hl n (by simp)
        have h0 : n.name ∈ final := by
          have := (hf.zero n.name (List.mem_map.2 ⟨n, hnn, rfl⟩)).1 (by
            rw [hf.deg]
            have : (E.countP fun q => q.2 = n.name ∧ q.1 ∉ final) = 0 := by
              rw [List.countP_eq_zero]
              intro q hq hq'
              obtain ⟨q1, q2⟩ : q.2 = n.name ∧ q.1 ∉ final := by simpa using hq'
              obtain ⟨n', hn', h1, x, hx, hxi, hpx⟩ := (hE q.1 q.2).1 hq
              obtain rfl := name_unique hg hn' hnn (h1.trans q1)
              rcases (producer_iff hg).1 hpx with ⟨h2, h3⟩ | ⟨m, hm, hy, h3⟩
              · exact q2 (h3 ▸ by simpa using hf.ins x h2)
              · rcases ha x (hr.1 x hx) with h4 | h4 | ⟨m', hm', hy', h4⟩
                · exact (hg.fresh m hm x hy).1 h4
                · exact hxi h4
                · rw [writer_unique hg.once hm hm' hy hy'] at h3
                  exact q2 (h3 ▸ h4)
            exact_mod_cast this)
          simpa using this
        intro m hm
        rcases List.mem_cons.1 hm with rfl | hm
        · exact h0
        · refine ih (avail ++ n.outputs) hr.2 (fun k hk => hl k (by simp [hk])) ?_ m hm
          intro x hx
          rcases List.mem_append.1 hx with hx | hx
          · exact ha x hx
          · exact Or.inr (Or.inr ⟨n, hnn, hx, h0⟩)
    intro n hn
    have h1 := hfin l _ hr (fun n hn => hp.mem_iff.1 hn) (by
      intro x hx
      rcases List.mem_append.1 hx with hx | hx
      · exact Or.inl hx
      · exact Or.inr (Or.inl hx)) n (hp.mem_iff.2 hn)
    refine List.mem_filterMap.2 ⟨n.name, ?_, (named_iff hg).2 ⟨hn, rfl⟩⟩
    rw [List.mem_reverse, List.mem_filter]
    exact ⟨h1, by simpa using fun h => hdis _ h (List.mem_map.2 ⟨n, hn, rfl⟩)⟩

theorem nodes_nodup {g : Graph} (hg : g.Valid) : g.nodes.Nodup :=
  List.Nodup.of_map _ (List.nodup_append.1 hg.names).2.1

theorem sort_ok {g : Graph} (hg : g.Valid) (ha : g.Acyclic) :
    ∃ l, topoSort g = .ok { g with nodes := l } ∧ l.Perm g.nodes ∧ Runs (g.inputs ++ g.initNames) l := by
  obtain ⟨l, h1, h2, h3, h4, h5⟩ := sort_core hg
  have hp : l.Perm g.nodes := (List.perm_ext_iff_of_nodup h2 (nodes_nodup hg)).2 fun n => ⟨h3 n, h5 ha n⟩
  refine ⟨l, ?_, hp, h4⟩
  rw [h1, if_neg (not_not.2 hp.length_eq)]

theorem Once.fold {inputs acc : List String} : ∀ (L : List String) {stack : List String} {indeg : String → ℤ},
    Once inputs stack indeg acc → Once inputs (L.foldl visit (stack, indeg)).1 (L.foldl visit (stack, indeg)).2 acc
  | [], _, _, h => h
  | m :: L, stack, indeg, h => by
    rw [List.foldl_cons]
    refine Once.fold L (stack := (visit (stack, indeg) m).1) (indeg := (visit (stack, indeg) m).2) ?_
    have hu : ∀ v, Function.update indeg m (indeg m - 1) v ≤ indeg v := by
      intro v
      by_cases hv : v = m
      · subst hv; simp
      · simp [hv]
    by_cases hd : indeg m - 1 = 0
    · have e : (visit (stack, indeg) m).1 = m :: stack := if_pos hd
      have e2 : (visit (stack, indeg) m).2 = Function.update indeg m (indeg m - 1) := rfl
      rw [e, e2]
      have hm : m ∉ inputs → m ∉ stack ++ acc := by
        intro h1 h2
        have := h.deg m h1 h2
        omega
      refine ⟨?_, ?_, h.out⟩
      · intro v hv
        rw [List.cons_append]
        by_cases hvm : v = m
        · subst hvm
          rw [List.count_cons_self, List.count_eq_zero.2 (hm hv)]
        · rw [List.count_cons_of_ne (Ne.symm hvm)]; exact h.count v hv
      · intro v hv hmem
        rw [List.cons_append] at hmem
        rcases List.mem_cons.1 hmem with rfl | hmem
        · simp; omega
        · exact le_trans (hu v) (h.deg v hv hmem)
    · have e : (visit (stack, indeg) m).1 = stack := if_neg hd
      have e2 : (visit (stack, indeg) m).2 = Function.update indeg m (indeg m - 1) := rfl
      rw [e, e2]
      exact ⟨h.count, fun v hv hmem => le_trans (hu v) (h.deg v hv hmem), h.out⟩

theorem kahn_once {E : List (String × String)} {inputs : List String} : ∀ (fuel : ℕ) (stack : List String)
    (indeg : String → ℤ) (acc r : List String), Once inputs stack indeg acc → kahn E inputs fuel stack indeg acc = some r → r.Nodup
  | fuel, [], indeg, acc, r, h, hk => by
    have : acc.reverse = r := by cases fuel <;> simpa [kahn] using hk
    rw [← this, List.nodup_reverse, List.nodup_iff_count_le_one]
    intro v
    by_cases hv : v ∈ acc
    · simpa using h.count v (h.out v hv)
    · rw [List.count_eq_zero.2 hv]; omega
  | 0, _ :: _, _, _, _, _, hk => by simp [kahn] at hk
  | fuel + 1, p :: stack, indeg, acc, r, h, hk => by
    have h1 : Once inputs stack indeg (if p ∈ inputs then acc else p :: acc) := by
      by_cases hp : p ∈ inputs
      · rw [if_pos hp]
        refine ⟨fun v hv => le_trans ?_ (h.count v hv), fun v hv hm => h.deg v hv (by simp [List.mem_append.1 hm]), h.out⟩
        rw [List.cons_append]
        exact List.count_le_count_cons
      · rw [if_neg hp]
        have hperm : (stack ++ p :: acc).Perm ((p :: stack) ++ acc) := List.perm_middle
        refine ⟨fun v hv => ?_, fun v hv hm => h.deg v hv (hperm.mem_iff.1 hm), ?_⟩
        · rw [hperm.count_eq]; exact h.count v hv
        · intro v hv
          rcases List.mem_cons.1 hv with rfl | hv
          · exact hp
          · exact h.out v hv
    exact kahn_once fuel _ _ _ r (h1.fold _) hk

theorem runs_filter {p : Node → Bool} : ∀ {l : List Node} {avail avail' : List String}, Runs avail l →
    (∀ n ∈ l, p n = true → ∀ x ∈ n.inputs, x ∈ avail → x ∈ avail') →
    (∀ n ∈ l, p n = true → ∀ x ∈ n.inputs, ∀ m ∈ l, x ∈ m.outputs → p m = true) → Runs avail' (l.filter p)
  | [], _, _, _, _, _ => trivial
  | n :: l, avail, avail', hr, h1, h2 => by
    by_cases hp : p n = true
    · rw [List.filter_cons_of_pos hp]
      refine ⟨fun x hx => h1 n (by simp) hp x hx (hr.1 x hx), runs_filter hr.2 ?_ fun m hm hpm x hx k hk =>
        h2 m (by simp [hm]) hpm x hx k (by simp [hk])⟩
      intro m hm hpm x hx ha
      rcases List.mem_append.1 ha with ha | ha
      · exact List.mem_append.2 (Or.inl (h1 m (by simp [hm]) hpm x hx ha))
      · exact List.mem_append.2 (Or.inr ha)
    · rw [List.filter_cons_of_neg hp]
      refine runs_filter hr.2 ?_ fun m hm hpm x hx k hk => h2 m (by simp [hm]) hpm x hx k (by simp [hk])
      intro m hm hpm x hx ha
      rcases List.mem_append.1 ha with ha | ha
      · exact h1 m (by simp [hm]) hpm x hx ha
      · exact absurd (h2 m (by simp [hm]) hpm x hx n (by simp) ha) hp

theorem removeNode_fold : ∀ (r l : List Node), l.Nodup → r.Nodup → (∀ n ∈ r, n ∈ l) →
    r.foldlM removeNode l = .ok (l.filter (· ∉ r))
  | [], l, _, _, _ => by
    simp only [List.foldlM_nil, List.not_mem_nil, not_false_eq_true, decide_true, List.filter_true]; rfl
  | a :: r, l, hl, hr, h => by
    rw [List.nodup_cons] at hr
    have e : removeNode l a = .ok (l.erase a) := if_pos (h a (by simp))
    rw [List.foldlM_cons, e]
    show r.foldlM removeNode (l.erase a) = _
    rw [removeNode_fold r (l.erase a) (hl.erase a) hr.2 (by
      intro n hn
      rw [hl.mem_erase_iff]
      exact ⟨fun h => hr.1 (h ▸ hn), h n (by simp [hn])⟩), hl.erase_eq_filter, List.filter_filter]
    refine congrArg Except.ok (List.filter_congr fun n _ => ?_)
    by_cases hna : n = a <;> simp [hna]

theorem produced_iff {g : Graph} {x : String} : g.produced x = true ↔ ∃ m ∈ g.nodes, x ∈ m.outputs := by
  simp [Graph.produced]

theorem consumed_iff {g : Graph} {x : String} : g.consumed x = true ↔ ∃ m ∈ g.nodes, x ∈ m.inputs := by
  simp [Graph.consumed]

theorem lookup_mem_iff {V : Type} {l : List (String × V)} (h : (l.map (·.1)).Nodup) {x : String} {d : V} :
    l.lookup x = some d ↔ (x, d) ∈ l := by
  constructor
  · intro hl
    induction l with
    | nil => simp at hl
    | cons p l ih =>
      rw [List.map_cons, List.nodup_cons] at h
      rw [List.lookup_cons] at hl
      by_cases hx : x = p.1
      · simp only [beq_iff_eq.2 hx, Option.some.injEq] at hl
        simp [hx, ← hl]
      · simp only [beq_eq_false_iff_ne.2 hx] at hl
        simp [ih h.2 hl]
  · intro hm
    exact lookup_of_nodup h hm

theorem redundant_eq {g : Graph} {inits : List (String × Data)} (h : (inits.map (·.1)).Nodup) :
    redundant g inits = inits.filter fun p => !g.consumed p.1 := by
  have hr : (inits.reverse.map (·.1)).Nodup := by
    rw [List.map_reverse]; exact List.nodup_reverse.2 h
  unfold redundant
  rw [(List.nodup_reverse.2 h).dedup, List.reverse_reverse]
  have : ∀ l : List (String × Data), (∀ p ∈ l, p ∈ inits) →
      (((l.map (·.1)).filter fun x => !g.consumed x).filterMap fun x => (inits.reverse.lookup x).map fun d => (x, d)) =
        l.filter fun p => !g.consumed p.1 := by
    intro l
    induction l with
    | nil => intro _; rfl
    | cons p l ih =>
      intro hl
      have hp : inits.reverse.lookup p.1 = some p.2 := lookup_of_nodup hr (by simpa using hl p (by simp))
      by_cases hc : g.consumed p.1 = true
      · simp [hc, ih fun q hq => hl q (by simp [hq])]
      · have ih' := ih fun q hq => hl q (by simp [hq])
        simp only [Bool.not_eq_true] at hc
        simp [hc, hp, ih']
  exact this inits fun _ h => h

theorem optimize_ok {g : Graph} (hg : g.Valid) (ha : g.Acyclic) : ∃ l,
    optimize g = .ok { g with nodes := l, inits := g.inits.filter fun p => g.consumed p.1 } ∧
    l.Perm (g.nodes.filter fun n => !g.standalone n) ∧
    Runs (g.inputs ++ (g.inits.filter fun p => g.consumed p.1).map (·.1)) l := by
  set nodes := g.nodes.filter fun n => !g.standalone n with hnodes
  set inits := g.inits.filter fun p => g.consumed p.1 with hinits
  have hin : g.inits.Nodup := List.Nodup.of_map _ hg.arrays
  have e1 : (g.nodes.filter g.standalone).foldlM removeNode g.nodes = .ok nodes := by
    rw [removeNode_fold _ _ (nodes_nodup hg) ((nodes_nodup hg).filter _) fun n hn => List.mem_of_mem_filter hn]
    refine congrArg Except.ok (List.filter_congr fun n hn => ?_)
    by_cases hs : g.standalone n = true <;> simp [List.mem_filter, hn, hs]
  have e2 : (redundant g g.inits).foldl List.erase g.inits = inits := by
    rw [redundant_eq hg.arrays, ← List.diff_eq_foldl, hin.diff_eq_filter]
    refine List.filter_congr fun p hp => ?_
    by_cases hs : g.consumed p.1 = true <;> simp [List.mem_filter, hp, hs]
  have hkeep : ∀ n ∈ g.nodes, ∀ x ∈ n.inputs, ∀ m ∈ g.nodes, x ∈ m.outputs → (!g.standalone m) = true := by
    intro n hn x hx m hm hy
    simp only [Graph.standalone, Bool.not_eq_true', Bool.and_eq_false_iff, List.all_eq_false]
    right
    exact ⟨x, hy, by simpa using consumed_iff.2 ⟨n, hn, hx⟩⟩
  have hinit : ∀ n ∈ g.nodes, ∀ x ∈ n.inputs, x ∈ g.initNames → x ∈ inits.map (·.1) := by
    intro n hn x hx hi
    obtain ⟨p, hp, rfl⟩ := List.mem_map.1 hi
    exact List.mem_map.2 ⟨p, List.mem_filter.2 ⟨hp, consumed_iff.2 ⟨n, hn, hx⟩⟩, rfl⟩
  have hsub : ∀ n ∈ nodes, n ∈ g.nodes := fun n hn => List.mem_of_mem_filter hn
  have hv : ({ g with nodes := nodes, inits := inits } : Graph).Valid := by
    refine ⟨?_, ?_, ?_, ?_, ?_⟩
    · exact hg.names.sublist ((List.filter_sublist.map _).append_left _)
    · exact hg.arrays.sublist (List.filter_sublist.map _)
    · refine hg.once.sublist ?_
      show (nodes.flatMap _).Sublist (g.nodes.flatMap _)
      exact List.filter_sublist.flatMap _
    · intro n hn y hy
      obtain ⟨h1, h2⟩ := hg.fresh n (hsub n hn) y hy
      refine ⟨h1, fun h => h2 ?_⟩
      exact (List.filter_sublist.map _).subset h
    · intro n hn x hx
      rcases hg.closed n (hsub n hn) x hx with h | h | ⟨m, hm, hy⟩
      · exact Or.inl h
      · exact Or.inr (Or.inl (hinit n (hsub n hn) x hx h))
      · exact Or.inr (Or.inr ⟨m, List.mem_filter.2 ⟨hm, hkeep n (hsub n hn) x hx m hm hy⟩, hy⟩)
  have hac : ({ g with nodes := nodes, inits := inits } : Graph).Acyclic := by
    obtain ⟨l, hp, hr⟩ := ha
    refine ⟨l.filter fun n => !g.standalone n, hp.filter _, runs_filter hr ?_ ?_⟩
    · intro n hn _ x hx hav
      rcases List.mem_append.1 hav with h | h
      · exact List.mem_append.2 (Or.inl h)
      · exact List.mem_append.2 (Or.inr (hinit n (hp.mem_iff.1 hn) x hx h))
    · intro n hn _ x hx m hm hy
      exact hkeep n (hp.mem_iff.1 hn) x hx m (hp.mem_iff.1 hm) hy
  obtain ⟨l, h1, h2, h3⟩ := sort_ok hv hac
  refine ⟨l, ?_, h2, h3⟩
  unfold optimize
  rw [e1]
  simp only [bind, Except.bind, e2]
  exact h1

theorem standalone_iff {g : Graph} {n : Node} : g.standalone n = true ↔ g.Isolated n := by
  unfold Graph.standalone Graph.Isolated
  rw [Bool.and_eq_true, List.all_eq_true, List.all_eq_true]
  refine and_congr (forall₂_congr fun x _ => ?_) (forall₂_congr fun x _ => ?_)
  · rw [Bool.not_eq_true', ← Bool.not_eq_true, produced_iff]; push Not; rfl
  · rw [Bool.not_eq_true', ← Bool.not_eq_true, consumed_iff]; push Not; rfl

theorem valid_avail {g : Graph} (hg : g.Valid) {l : List Node} (hp : l.Perm g.nodes) :
    (l.flatMap (·.outputs)).Nodup ∧ ∀ y ∈ l.flatMap (·.outputs), y ∉ g.inputs ++ g.initNames := by
  refine ⟨(perm_flatMap hp).nodup_iff.2 hg.once, ?_⟩
  intro y hy h
  obtain ⟨n, hn, hy⟩ := List.mem_flatMap.1 hy
  have := hg.fresh n (hp.mem_iff.1 hn) y hy
  rcases List.mem_append.1 h with h | h
  · exact this.1 h
  · exact this.2 h

theorem eval_some {V : Type} {I : Interp V} {g : Graph} (hg : g.Valid) {l : List Node} (hp : l.Perm g.nodes)
    (hr : Runs (g.inputs ++ g.initNames) l) {ins : String → Option V} {vals : List V} :
    ({ g with nodes := l } : Graph).eval I ins = some vals ↔
      ∃ e, (∀ y, (∀ n ∈ g.nodes, y ∉ n.outputs) → e y = g.start I ins y) ∧ (∀ n ∈ g.nodes, Solves I e n) ∧
        g.outputs.mapM e = some vals := by
  obtain ⟨h1, h2⟩ := valid_avail hg hp
  have hm : ∀ y, y ∉ l.flatMap (·.outputs) ↔ ∀ n ∈ g.nodes, y ∉ n.outputs := by
    intro y
    rw [List.mem_flatMap]
    push Not
    exact ⟨fun h n hn => h n (hp.mem_iff.2 hn), fun h n hn => h n (hp.mem_iff.1 hn)⟩
  unfold Graph.eval
  rw [Option.bind_eq_bind, Option.bind_eq_some_iff]
  constructor
  · rintro ⟨e, he, ho⟩
    obtain ⟨h3, h4⟩ := (eval_iff I e l _ _ hr h1 h2).1 he
    exact ⟨e, fun y hy => h3 y ((hm y).2 hy), fun n hn => h4 n (hp.mem_iff.2 hn), ho⟩
  · rintro ⟨e, h3, h4, ho⟩
    exact ⟨e, (eval_iff I e l _ _ hr h1 h2).2 ⟨fun y hy => h3 y ((hm y).1 hy), fun n hn => h4 n (hp.mem_iff.1 hn)⟩, ho⟩

theorem solves_congr {V : Type} {I : Interp V} {e e' : String → Option V} {n : Node} (h : Solves I e n)
    (h1 : ∀ x ∈ n.inputs, e' x = e x) (h2 : ∀ y ∈ n.outputs, e' y = e y) : Solves I e' n := by
  obtain ⟨args, outs, a1, a2, a3, a4⟩ := h
  refine ⟨args, outs, ?_, a2, a3, fun p hp => ?_⟩
  · rw [← a1]; exact mapM_congr _ h1
  · rw [h2 _ (List.of_mem_zip hp).1]; exact a4 p hp

theorem optimize_valid {g : Graph} (hg : g.Valid) {l : List Node}
    (hp : l.Perm (g.nodes.filter fun n => !g.standalone n)) :
    ({ g with nodes := l, inits := g.inits.filter fun p => g.consumed p.1 } : Graph).Valid := by
  have hmem : ∀ n, n ∈ l ↔ n ∈ g.nodes ∧ ¬ g.Isolated n := by
    intro n
    rw [hp.mem_iff, List.mem_filter, ← standalone_iff]; simp
  refine ⟨?_, ?_, ?_, ?_, ?_⟩
  · show (g.inputs ++ l.map _).Nodup
    rw [((hp.map _).append_left g.inputs).nodup_iff]
    exact hg.names.sublist ((List.filter_sublist.map _).append_left _)
  · exact hg.arrays.sublist (List.filter_sublist.map _)
  · show (l.flatMap _).Nodup
    rw [(perm_flatMap hp).nodup_iff]
    exact hg.once.sublist (List.filter_sublist.flatMap _)
  · intro n hn y hy
    obtain ⟨h1, h2⟩ := hg.fresh n ((hmem n).1 hn).1 y hy
    exact ⟨h1, fun h => h2 ((List.filter_sublist.map _).subset h)⟩
  · intro n hn x hx
    have hng := ((hmem n).1 hn).1
    rcases hg.closed n hng x hx with h | h | ⟨m, hm, hy⟩
    · exact Or.inl h
    · obtain ⟨p, hp', rfl⟩ := List.mem_map.1 h
      exact Or.inr (Or.inl (List.mem_map.2 ⟨p, List.mem_filter.2 ⟨hp', consumed_iff.2 ⟨n, hng, hx⟩⟩, rfl⟩))
    · exact Or.inr (Or.inr ⟨m, (hmem m).2 ⟨hm, fun hi => hi.2 x hy n hng hx⟩, hy⟩)

theorem start_filter {V : Type} (I : Interp V) {g : Graph} (hg : g.Valid) (l : List Node) (ins : String → Option V)
    {x : String} (hx : x ∈ g.initNames → g.Read x) :
    ({ g with nodes := l, inits := g.inits.filter fun p => g.consumed p.1 } : Graph).start I ins x = g.start I ins x := by
  unfold Graph.start
  by_cases hi : x ∈ g.inputs
  · simp [hi]
  · simp only [hi, if_false]
    refine congrArg _ ?_
    have hs : ((g.inits.filter fun p => g.consumed p.1).map (·.1)).Nodup := hg.arrays.sublist (List.filter_sublist.map _)
    ext d
    rw [lookup_mem_iff hs, lookup_mem_iff hg.arrays, List.mem_filter]
    constructor
    · exact fun h => h.1
    · exact fun h => ⟨h, consumed_iff.2 (hx (List.mem_map.2 ⟨_, h, rfl⟩))⟩

/-- The proof of `C70_optimize_partial`. -/
theorem optimize_computes {V : Type} (I : Interp V) {g : Graph} (hg : g.Valid) {ins : String → Option V} {vals : List V}
    (hc : g.Computes I ins vals) (ho : ∀ y ∈ g.outputs, (∀ n ∈ g.nodes, y ∈ n.outputs → ¬ g.Isolated n) ∧
      (y ∈ g.initNames → g.Read y)) :
    ∃ g', optimize g = .ok g' ∧ g'.inputs = g.inputs ∧ g'.outputs = g.outputs ∧ g'.eval I ins = some vals ∧
      (∀ n, n ∈ g'.nodes ↔ n ∈ g.nodes ∧ ¬ g.Isolated n) ∧ g'.nodes.Nodup ∧
      ∀ p, p ∈ g'.inits ↔ p ∈ g.inits ∧ g.Read p.1 := by
  obtain ⟨l0, hp0, hr0, he0⟩ := hc
  obtain ⟨l, h1, h2, h3⟩ := optimize_ok hg ⟨l0, hp0, hr0⟩
  have hv := optimize_valid hg h2
  have hmem : ∀ n, n ∈ l ↔ n ∈ g.nodes ∧ ¬ g.Isolated n := by
    intro n
    rw [h2.mem_iff, List.mem_filter, ← standalone_iff]; simp
  refine ⟨_, h1, rfl, rfl, ?_, hmem, nodes_nodup hv, ?_⟩
  · obtain ⟨e, e1, e2, e3⟩ := (eval_some hg hp0 hr0).1 he0
    set g' : Graph := { g with nodes := l, inits := g.inits.filter fun p => g.consumed p.1 } with hg'
    refine (eval_some (g := g') hv (List.Perm.refl _) h3).2 ?_
    classical
    have hkeep : ∀ x, (∀ n ∈ g.nodes, x ∈ n.outputs → ¬ g.Isolated n) → (x ∈ g.initNames → g.Read x) →
        (if ∃ n ∈ l, x ∈ n.outputs then e x else g'.start I ins x) = e x := by
      intro x hx hi
      by_cases hh : ∃ n ∈ l, x ∈ n.outputs
      · rw [if_pos hh]
      · rw [if_neg hh, start_filter I hg l ins hi, e1]
        intro n hn hy
        exact hh ⟨n, (hmem n).2 ⟨hn, hx n hn hy⟩, hy⟩
    refine ⟨fun x => if ∃ n ∈ l, x ∈ n.outputs then e x else g'.start I ins x, ?_, ?_, ?_⟩
    · intro y hy
      refine if_neg ?_
      rintro ⟨n, hn, h⟩
      exact hy n hn h
    · intro n hn
      have hn' := (hmem n).1 hn
      refine solves_congr (e2 n hn'.1) ?_ ?_
      · intro x hx
        exact hkeep x (fun m hm hy hi => hi.2 x hy n hn'.1 hx) fun _ => ⟨n, hn'.1, hx⟩
      · intro y hy
        exact if_pos ⟨n, hn, hy⟩
    · rw [← e3]
      exact mapM_congr _ fun y hy => hkeep y (ho y hy).1 (ho y hy).2
  · intro p
    show p ∈ g.inits.filter _ ↔ _
    rw [List.mem_filter, consumed_iff]; rfl

theorem eval_lost {V : Type} {I : Interp V} {g : Graph} (hg : g.Valid) (hr : Runs (g.inputs ++ g.initNames) g.nodes)
    {y : String} (hy : y ∈ g.outputs) (h1 : y ∉ g.inputs) (h2 : y ∉ g.initNames) (h3 : ∀ n ∈ g.nodes, y ∉ n.outputs)
    (ins : String → Option V) : g.eval I ins = none := by
  rw [Option.eq_none_iff_forall_ne_some]
  intro vals hv
  obtain ⟨e, e1, _, e3⟩ := (eval_some (g := g) hg (List.Perm.refl _) hr).1 hv
  have hn : e y = none := by
    rw [e1 y h3]
    unfold Graph.start
    rw [if_neg h1, Option.map_eq_none_iff, List.lookup_eq_none_iff]
    intro p hp
    simp only [bne_iff_ne, ne_eq]
    rintro rfl
    exact h2 (List.mem_map.2 ⟨p, hp, rfl⟩)
  have : ∀ (l : List String) (v : List V), y ∈ l → l.mapM e ≠ some v := by
    intro l
    induction l with
    | nil => simp
    | cons a l ih =>
      intro v hm h
      rw [List.mapM_cons] at h
      rcases List.mem_cons.1 hm with rfl | hm
      · rw [hn] at h; simp at h
      · rcases ha : e a with _ | b
        · rw [ha] at h; simp at h
        · rcases hl : l.mapM e with _ | c
          · rw [ha, hl] at h; simp at h
          · exact ih c hm hl
  exact this _ _ hy e3

theorem inp_setInput (c : List Node) (r : ℕ × ℕ) (x : String) (j t : ℕ) :
    inp (setInput c r x) j t = if (j, t) = r then (inp c j t).map fun _ => x else inp c j t := by
  unfold inp setInput
  rw [List.getElem?_modify]
  rcases hc : c[j]? with _ | n
  · simp
  · by_cases h1 : r.1 = j
    · by_cases h2 : r.2 = t
      · have : (j, t) = r := by ext <;> simp [h1, h2]
        subst h1 h2
        rcases hn : n.inputs[r.2]? with _ | z
        · have := List.getElem?_eq_none_iff.1 hn
          simp [this]
        · obtain ⟨hlt, _⟩ := List.getElem?_eq_some_iff.1 hn
          simp [hn, hlt]
      · have : (j, t) ≠ r := fun h => h2 (by rw [← h])
        simp [h1, this, List.getElem?_set_ne h2]
    · have : (j, t) ≠ r := fun h => h1 (by rw [← h])
      simp [h1, this]

theorem core_setInput (c : List Node) (r : ℕ × ℕ) (x : String) : (setInput c r x).map core = c.map core := by
  refine List.ext_getElem? fun j => ?_
  unfold setInput
  rw [List.getElem?_map, List.getElem?_map, List.getElem?_modify]
  rcases c[j]? with _ | n
  · simp
  · by_cases h : r.1 = j <;> simp [h, core]

theorem inp_setAll (x : String) : ∀ (rs : List (ℕ × ℕ)) (c : List Node) (j t : ℕ),
    inp (rs.foldl (fun ns r => setInput ns r x) c) j t = if (j, t) ∈ rs then (inp c j t).map fun _ => x else inp c j t
  | [], _, _, _ => by simp
  | r :: rs, c, j, t => by
    rw [List.foldl_cons, inp_setAll x rs, inp_setInput]
    by_cases h1 : (j, t) ∈ rs <;> by_cases h2 : (j, t) = r
    · rw [if_pos h1, if_pos h2, if_pos (List.mem_cons_of_mem _ h1), Option.map_map]; rfl
    · rw [if_pos h1, if_neg h2, if_pos (List.mem_cons_of_mem _ h1)]
    · rw [if_neg h1, if_pos h2, if_pos (List.mem_cons.2 (Or.inl h2))]
    · rw [if_neg h1, if_neg h2, if_neg (by simp [h1, h2])]

theorem core_setAll (x : String) : ∀ (rs : List (ℕ × ℕ)) (c : List Node),
    (rs.foldl (fun ns r => setInput ns r x) c).map core = c.map core
  | [], _ => rfl
  | r :: rs, c => by rw [List.foldl_cons, core_setAll x rs, core_setInput]

theorem mem_readers {nodes : List Node} {y : String} {j t : ℕ} : (j, t) ∈ readers nodes y ↔ inp nodes j t = some y := by
  unfold readers inp
  rw [List.mem_flatMap, Option.bind_eq_some_iff]
  constructor
  · rintro ⟨p, hp, hq⟩
    obtain ⟨q, hq, he⟩ := List.mem_map.1 hq
    obtain ⟨hq1, hq2⟩ := List.mem_filter.1 hq
    obtain ⟨rfl, rfl⟩ := Prod.mk.inj he
    rw [List.mem_zipIdx_iff_getElem?] at hp hq1
    exact ⟨p.1, hp, by rw [hq1]; simpa using hq2⟩
  · rintro ⟨n, h1, h2⟩
    refine ⟨(n, j), List.mem_zipIdx_iff_getElem?.2 h1, List.mem_map.2 ⟨(y, t), List.mem_filter.2 ⟨?_, by simp⟩, rfl⟩⟩
    exact List.mem_zipIdx_iff_getElem?.2 h2

theorem mem_inp {c : List Node} {j : ℕ} {n : Node} (h : c[j]? = some n) {x : String} :
    x ∈ n.inputs ↔ ∃ t, inp c j t = some x := by
  unfold inp
  rw [h, List.mem_iff_getElem?]; rfl

theorem Before.mono {avail : List String} {orig : List Node} {j k : ℕ} {x : String} (h : Before avail orig j x) (hjk : j ≤ k) :
    Before avail orig k x := by
  rcases h with h | ⟨i, hi, r⟩
  · exact Or.inl h
  · exact Or.inr ⟨i, lt_of_lt_of_le hi hjk, r⟩

theorem runs_iff_before : ∀ {l : List Node} {avail : List String}, Runs avail l ↔
    ∀ (j : ℕ) (n : Node), l[j]? = some n → ∀ x ∈ n.inputs, Before avail l j x
  | [], _ => by simp [Runs]
  | m :: l, avail => by
    show (_ ∧ Runs (avail ++ m.outputs) l) ↔ _
    rw [runs_iff_before]
    constructor
    · rintro ⟨h1, h2⟩ j n hj x hx
      rcases j with _ | j
      · rw [List.getElem?_cons_zero, Option.some.injEq] at hj
        subst hj
        exact Or.inl (h1 x hx)
      · rw [List.getElem?_cons_succ] at hj
        rcases h2 j n hj x hx with h | ⟨i, hi, k, hk, hy⟩
        · rcases List.mem_append.1 h with h | h
          · exact Or.inl h
          · exact Or.inr ⟨0, by omega, m, by simp, h⟩
        · exact Or.inr ⟨i + 1, by omega, k, by simpa using hk, hy⟩
    · intro h
      refine ⟨?_, ?_⟩
      · intro x hx
        rcases h 0 m (by simp) x hx with h | ⟨i, hi, _⟩
        · exact h
        · omega
      · intro j n hj x hx
        rcases h (j + 1) n (by simpa using hj) x hx with h | ⟨i, hi, k, hk, hy⟩
        · exact Or.inl (List.mem_append.2 (Or.inl h))
        · rcases i with _ | i
          · rw [List.getElem?_cons_zero, Option.some.injEq] at hk
            subst hk
            exact Or.inl (List.mem_append.2 (Or.inr hy))
          · exact Or.inr ⟨i, by omega, k, by simpa using hk, hy⟩

theorem core_get {c orig : List Node} (h : c.map core = orig.map core) {j : ℕ} {n : Node} (hn : c[j]? = some n) :
    ∃ m, orig[j]? = some m ∧ core m = core n := by
  have := congrArg (fun l => l[j]?) h
  simp only [List.getElem?_map, hn, Option.map_some] at this
  obtain ⟨m, hm, he⟩ := Option.map_eq_some_iff.1 this.symm
  exact ⟨m, hm, he⟩

theorem before_not {g : Graph} (hg : g.Valid) {k : ℕ} {n : Node} (hn : g.nodes[k]? = some n) {y : String}
    (hy : y ∈ n.outputs) : ¬ Before (g.inputs ++ g.initNames) g.nodes k y := by
  have hnm : n ∈ g.nodes := List.mem_of_getElem? hn
  rintro (h | ⟨i, hi, m, hm, hym⟩)
  · have := hg.fresh n hnm y hy
    rcases List.mem_append.1 h with h | h
    · exact this.1 h
    · exact this.2 h
  · have hmn : m = n := writer_unique hg.once (List.mem_of_getElem? hm) hnm hym hy
    subst hmn
    obtain ⟨h1, e1⟩ := List.getElem?_eq_some_iff.1 hm
    obtain ⟨h2, e2⟩ := List.getElem?_eq_some_iff.1 hn
    have := (nodes_nodup hg).getElem_inj_iff.1 (e1.trans e2.symm)
    omega

theorem data_stable {x : String} : ∀ (l : List Node) (params : List (String × Data)), (∀ n ∈ l, x ∉ n.outputs) →
    (l.foldl dataStep params).lookup x = params.lookup x
  | [], _, _ => rfl
  | n :: l, params, h => by
    rw [List.foldl_cons, data_stable l _ fun m hm => h m (by simp [hm])]
    have hn := h n (by simp)
    have key : ∀ y r d, n.outputs = y :: r → ((y, d) :: params).lookup x = params.lookup x := by
      intro y r d hy
      rw [hy] at hn
      have : x ≠ y := fun h => hn (by simp [h])
      rw [List.lookup_cons, beq_eq_false_iff_ne.2 this]
    unfold dataStep
    split
    · next y r ho =>
      split
      · exact key _ _ _ ho
      · rfl
    · next ho => exact key _ _ _ ho
    · rfl

theorem nameData_known {g : Graph} (hg : g.Valid) (hr : Runs (g.inputs ++ g.initNames) g.nodes) {x : String} {d : Data}
    (h : g.Known x d) : g.nameData.lookup x = some d := by
  have split : ∀ n ∈ g.nodes, ∃ pre post, g.nodes = pre ++ n :: post ∧ (∀ y ∈ n.outputs, ∀ m ∈ post, y ∉ m.outputs) ∧
      ∀ x ∈ n.inputs, ∀ m ∈ n :: post, x ∉ m.outputs := by
    intro n hn
    obtain ⟨pre, post, e⟩ := List.append_of_mem hn
    have hk : g.nodes[pre.length]? = some n := by rw [e]; simp
    refine ⟨pre, post, e, ?_, ?_⟩
    · intro y hy m hm hym
      obtain ⟨i, hi⟩ := List.mem_iff_getElem?.1 hm
      have hk' : g.nodes[pre.length + 1 + i]? = some m := by
        rw [e, List.getElem?_append_right (by omega), show pre.length + 1 + i - pre.length = i + 1 by omega]
        simpa using hi
      exact before_not hg hk' hym (Or.inr ⟨pre.length, by omega, n, hk, hy⟩)
    · intro x hx m hm hxm
      obtain ⟨i, hi⟩ := List.mem_iff_getElem?.1 hm
      have hk' : g.nodes[pre.length + i]? = some m := by
        rw [e, List.getElem?_append_right (by omega), show pre.length + i - pre.length = i by omega]
        exact hi
      exact before_not hg hk' hxm ((runs_iff_before.1 hr _ n hk x hx).mono (by omega))
  unfold Graph.nameData
  induction h with
  | @array x d h =>
    rw [data_stable]
    · refine lookup_of_nodup (p := (x, d)) ?_ (by simpa using h)
      rw [List.map_reverse]
      exact List.nodup_reverse.2 hg.arrays
    · intro n hn hx
      exact (hg.fresh n hn x hx).2 (List.mem_map.2 ⟨_, h, rfl⟩)
  | @constant n y r d hn ho hy =>
    obtain ⟨pre, post, e, h1, _⟩ := split n hn
    rw [e, List.foldl_append, List.foldl_cons, data_stable post _ (h1 y (by simp [hy]))]
    unfold dataStep
    rw [ho, hy]
    simp
  | @copy n x y r d hn ho hi hy _ ih =>
    obtain ⟨pre, post, e, h1, h2⟩ := split n hn
    rw [e, List.foldl_append, data_stable (n :: post) _ (h2 x (by simp [hi]))] at ih
    rw [e, List.foldl_append, List.foldl_cons, data_stable post _ (h1 y (by simp [hy]))]
    unfold dataStep at ih ⊢
    rw [ho, hi, hy]
    dsimp only
    rw [ih]
    simp

theorem known_value {V : Type} {I : Interp V} (hI : I.Standard) {g : Graph} (hg : g.Valid)
    (happ : ∀ x ∈ g.inputs, x ∉ g.initNames) {ins e : String → Option V}
    (e1 : ∀ y, (∀ n ∈ g.nodes, y ∉ n.outputs) → e y = g.start I ins y) (e2 : ∀ n ∈ g.nodes, Solves I e n)
    {x : String} {d : Data} (h : g.Known x d) : e x = some (I.lit d) := by
  induction h with
  | @array x d h =>
    have hx : x ∈ g.initNames := List.mem_map.2 ⟨_, h, rfl⟩
    rw [e1 x fun n hn hxn => (hg.fresh n hn x hxn).2 hx]
    unfold Graph.start
    rw [if_neg fun hi => happ x hi hx, (lookup_mem_iff hg.arrays).2 h]
    rfl
  | @constant n y r d hn ho hy =>
    obtain ⟨args, outs, _, a2, a3, a4⟩ := e2 n hn
    rw [ho, hI.constant, Option.some.injEq] at a2
    subst a2
    exact a4 (y, I.lit d) (by simp [hy])
  | @copy n x y r d hn ho hi hy _ ih =>
    obtain ⟨args, outs, a1, a2, a3, a4⟩ := e2 n hn
    rw [hi] at a1
    simp [ih] at a1
    subst a1
    rw [ho, hI.identity, Option.some.injEq] at a2
    subst a2
    exact a4 (y, I.lit d) (by simp [hy])

theorem pad_value {V : Type} {I : Interp V} (hI : I.Standard) {g : Graph} (hg : g.Valid)
    (happ : ∀ x ∈ g.inputs, x ∉ g.initNames) {ins e : String → Option V}
    (e1 : ∀ y, (∀ n ∈ g.nodes, y ∉ n.outputs) → e y = g.start I ins y) (e2 : ∀ n ∈ g.nodes, Solves I e n)
    {n : Node} (hn : n ∈ g.nodes) {x y : String} {d : Data} (hp : g.PadOf n x y d) (hz : ∀ a ∈ d.vals, a = 0) : e x = e y := by
  obtain ⟨p, rest, hi, hk, _⟩ := hp.inputs
  obtain ⟨args, outs, a1, a2, a3, a4⟩ := e2 n hn
  have hv := known_value hI hg happ e1 e2 hk
  rw [hi, List.mapM_cons, List.mapM_cons, hv] at a1
  rcases hx : e x with _ | v
  · simp [hx] at a1
  · rcases hr : rest.mapM e with _ | w
    · simp [hx, hr] at a1
    · simp [hx, hr] at a1
      subst a1
      rw [hp.op, hI.pad v d w hz, Option.some.injEq] at a2
      subst a2
      exact (a4 (y, v) (by simp [hp.outputs])).symm

theorem pad_step {g : Graph} (hg : g.Valid) {R : String → String → Prop}
    (htrans : ∀ x y z, R x y → R y z → R x z)
    (hR : ∀ n ∈ g.nodes, ∀ x y d, g.PadOf n x y d → (∀ a ∈ d.vals, a = 0) → R x y)
    (hruns : Runs (g.inputs ++ g.initNames) g.nodes) {k : ℕ} {c : List Node} {S : List ℕ} (h : PadInv g R k c S) (hk : k < g.nodes.length)
    (hpads : ∀ m, g.nodes[k]? = some m → m.op = .pad → g.PadFine m) :
    ∃ c' S', padStep g.nodes g.nameData (c, S) k = .ok (c', S') ∧ PadInv g R (k + 1) c' S' := by
  have hlen : c.length = g.nodes.length := by simpa using congrArg List.length h.core
  obtain ⟨n, hn⟩ : ∃ n, c[k]? = some n := ⟨c[k], List.getElem?_eq_getElem (by omega)⟩
  obtain ⟨m, hm, hmn⟩ := core_get h.core hn
  have hmg : m ∈ g.nodes := List.mem_of_getElem? hm
  obtain ⟨_, hop, hout⟩ : m.name = n.name ∧ m.op = n.op ∧ m.outputs = n.outputs := by
    simpa [core] using hmn
  have keep : ∀ c' S', c' = c → S' = S → ¬ g.ZeroPad m → PadInv g R (k + 1) c' S' := by
    rintro c' S' rfl rfl hz
    refine ⟨h.core, h.dom, h.val, h.gone, h.back, fun j t x hx => (h.old j t x hx).imp id fun hb => hb.mono (by omega),
      h.chg, fun i hi => Nat.lt_succ_of_lt (h.lt i hi), h.nodup, ?_⟩
    intro i n' hi
    rw [h.zero i n' hi]
    constructor
    · rintro ⟨h1, h2⟩; exact ⟨by omega, h2⟩
    · rintro ⟨h1, h2⟩
      refine ⟨?_, h2⟩
      rcases Nat.lt_succ_iff_lt_or_eq.1 h1 with h3 | h3
      · exact h3
      · subst h3
        rw [hm, Option.some.injEq] at hi
        exact absurd (hi ▸ h2) hz
  by_cases hpad : n.op = .pad
  · obtain ⟨x0, y, d, hp, hread⟩ := hpads m hm (hop.trans hpad)
    obtain ⟨p, rest, hin, hkn, hpfree⟩ := hp.inputs
    have hd := nameData_known hg hruns hkn
    have i0 : inp g.nodes k 0 = some x0 := by unfold inp; rw [hm]; simp [hin]
    have i1 : inp g.nodes k 1 = some p := by unfold inp; rw [hm]; simp [hin]
    obtain ⟨x, hx⟩ : ∃ x, inp c k 0 = some x := Option.isSome_iff_exists.1 (by rw [h.dom, i0]; rfl)
    obtain ⟨p', hp'⟩ : ∃ x, inp c k 1 = some x := Option.isSome_iff_exists.1 (by rw [h.dom, i1]; rfl)
    obtain rfl : p' = p := by
      rcases h.chg k 1 p' p hp' i1 with h1 | ⟨m', hm', h1, h2⟩
      · exact h1
      · exact absurd h2 (hpfree m' hm' h1)
    obtain ⟨r, hnin⟩ : ∃ r, n.inputs = x :: p' :: r := by
      unfold inp at hx hp'
      rw [hn] at hx hp'
      rcases hni : n.inputs with _ | ⟨a, _ | ⟨b, r⟩⟩
      · simp [hni] at hx
      · simp [hni] at hp'
      · simp [hni] at hx hp'
        exact ⟨r, by rw [hx, hp']⟩
    have hno : n.outputs = [y] := by rw [← hout, hp.outputs]
    have hym : y ∈ m.outputs := by rw [hp.outputs]; simp
    by_cases hz : ∀ a ∈ d.vals, a = 0
    · obtain ⟨q, hq, hyq⟩ := hread hz
      obtain ⟨j0, hj0⟩ := List.mem_iff_getElem?.1 hq
      obtain ⟨t0, ht0⟩ := (mem_inp hj0).1 hyq
      have hrd : (j0, t0) ∈ readers g.nodes y := mem_readers.2 ht0
      obtain ⟨r0, rs, hrs⟩ : ∃ r0 rs, readers g.nodes y = r0 :: rs := by
        rcases hh : readers g.nodes y with _ | ⟨r0, rs⟩
        · rw [hh] at hrd; simp at hrd
        · exact ⟨r0, rs, rfl⟩
      refine ⟨(readers g.nodes y).foldl (fun ns r => setInput ns r x) c, S ++ [k], ?_, ?_⟩
      · unfold padStep
        dsimp only
        rw [hn]
        dsimp only
        rw [if_pos hpad, hnin, hno]
        dsimp only
        rw [hd]
        dsimp only
        rw [if_pos (by simpa using hz), hrs]
      · have hxb : Before (g.inputs ++ g.initNames) g.nodes k x := h.back k 0 x hx
        have hxy : x ≠ y := by
          rintro rfl
          exact before_not hg hm hym hxb
        have hget : ∀ j t z, inp ((readers g.nodes y).foldl (fun ns r => setInput ns r x) c) j t = some z →
            (inp g.nodes j t = some y ∧ z = x) ∨ (inp g.nodes j t ≠ some y ∧ inp c j t = some z) := by
          intro j t z hz
          rw [inp_setAll] at hz
          by_cases hr : (j, t) ∈ readers g.nodes y
          · rw [if_pos hr] at hz
            obtain ⟨_, _, rfl⟩ := Option.map_eq_some_iff.1 hz
            exact Or.inl ⟨mem_readers.1 hr, rfl⟩
          · rw [if_neg hr] at hz
            exact Or.inr ⟨fun h => hr (mem_readers.2 h), hz⟩
        have hafter : ∀ j t, inp g.nodes j t = some y → k < j := by
          intro j t hjt
          unfold inp at hjt
          obtain ⟨nj, hnj, hy'⟩ := Option.bind_eq_some_iff.1 hjt
          have := runs_iff_before.1 hruns j nj hnj y (List.mem_of_getElem? hy')
          by_contra hle
          exact before_not hg hm hym (this.mono (by omega))
        refine ⟨(core_setAll x _ c).trans h.core, ?_, ?_, ?_, ?_, ?_, ?_, ?_, ?_, ?_⟩
        · intro j t
          rw [inp_setAll, ← h.dom]
          split_ifs <;> simp
        · intro j t z x1 hz1 h1
          rcases hget j t z hz1 with ⟨h2, rfl⟩ | ⟨h2, h3⟩
          · rw [h1, Option.some.injEq] at h2
            subst h2
            exact htrans _ _ _ (h.val k 0 z x0 hx i0) (hR m hmg x0 x1 d hp hz)
          · exact h.val j t z x1 h3 h1
        · intro i hi n' hn' y' hy' j t hjt
          rcases List.mem_append.1 hi with hi | hi
          · rcases hget j t y' hjt with ⟨_, rfl⟩ | ⟨_, h3⟩
            · exact h.gone i hi n' hn' y' hy' k 0 hx
            · exact h.gone i hi n' hn' y' hy' j t h3
          · rw [List.mem_singleton] at hi
            subst hi
            rw [hm, Option.some.injEq] at hn'
            subst hn'
            have hy2 : y' = y := by rw [hp.outputs] at hy'; simpa using hy'
            subst hy2
            rcases hget j t y' hjt with ⟨_, h2⟩ | ⟨h2, h3⟩
            · exact hxy h2.symm
            · rcases h.old j t y' h3 with h4 | h4
              · exact h2 h4
              · exact before_not hg hm hym h4
        · intro j t z hz1
          rcases hget j t z hz1 with ⟨h2, rfl⟩ | ⟨_, h3⟩
          · exact hxb.mono (hafter j t h2).le
          · exact h.back j t z h3
        · intro j t z hz1
          rcases hget j t z hz1 with ⟨h2, rfl⟩ | ⟨_, h3⟩
          · exact Or.inr (hxb.mono (by omega))
          · exact (h.old j t z h3).imp id fun hb => hb.mono (by omega)
        · intro j t z x1 hz1 h1
          rcases hget j t z hz1 with ⟨h2, rfl⟩ | ⟨_, h3⟩
          · rw [h1, Option.some.injEq] at h2
            subst h2
            exact Or.inr ⟨m, hmg, hp.op, hym⟩
          · exact h.chg j t z x1 h3 h1
        · intro i hi
          rcases List.mem_append.1 hi with hi | hi
          · exact Nat.lt_succ_of_lt (h.lt i hi)
          · rw [List.mem_singleton] at hi; omega
        · rw [List.nodup_append]
          refine ⟨h.nodup, by simp, ?_⟩
          intro a ha b hb
          rw [List.mem_singleton] at hb
          have := h.lt a ha
          omega
        · intro i n' hi
          rw [List.mem_append, List.mem_singleton, h.zero i n' hi]
          constructor
          · rintro (⟨h1, h2⟩ | rfl)
            · exact ⟨by omega, h2⟩
            · rw [hm, Option.some.injEq] at hi
              exact ⟨by omega, hi ▸ ⟨x0, y, d, hp, hz⟩⟩
          · rintro ⟨h1, h2⟩
            rcases Nat.lt_succ_iff_lt_or_eq.1 h1 with h3 | h3
            · exact Or.inl ⟨h3, h2⟩
            · exact Or.inr h3
    · refine ⟨c, S, ?_, keep c S rfl rfl ?_⟩
      · unfold padStep
        dsimp only
        rw [hn]
        dsimp only
        rw [if_pos hpad, hnin, hno]
        dsimp only
        rw [hd]
        dsimp only
        rw [if_neg (by simpa using hz)]
      · rintro ⟨x1, y1, d1, hp1, hz1⟩
        obtain ⟨p1, rest1, hin1, hkn1, _⟩ := hp1.inputs
        have hd1 := nameData_known hg hruns hkn1
        rw [hin1, List.cons.injEq, List.cons.injEq] at hin
        rw [hin.2.1, hd, Option.some.injEq] at hd1
        exact hz (hd1 ▸ hz1)
  · refine ⟨c, S, ?_, keep c S rfl rfl ?_⟩
    · unfold padStep
      dsimp only
      rw [hn]
      dsimp only
      rw [if_neg hpad]
    · rintro ⟨x1, y1, d1, hp1, _⟩
      exact hpad (hop ▸ hp1.op)

theorem pad_loop {g : Graph} (hg : g.Valid) {R : String → String → Prop} (hrefl : ∀ x, R x x)
    (htrans : ∀ x y z, R x y → R y z → R x z)
    (hR : ∀ n ∈ g.nodes, ∀ x y d, g.PadOf n x y d → (∀ a ∈ d.vals, a = 0) → R x y)
    (hruns : Runs (g.inputs ++ g.initNames) g.nodes) : ∀ k, k ≤ g.nodes.length →
    (∀ i, i < k → ∀ m, g.nodes[i]? = some m → m.op = .pad → g.PadFine m) →
    ∃ c S, (List.range k).foldlM (padStep g.nodes g.nameData) (g.nodes, []) = .ok (c, S) ∧ PadInv g R k c S
  | 0, _, _ => by
    refine ⟨g.nodes, [], rfl, rfl, fun _ _ => rfl, ?_, by simp, ?_, ?_, ?_, by simp, by simp, by simp⟩
    · intro j t x x0 h1 h2
      rw [h1, Option.some.injEq] at h2
      exact h2 ▸ hrefl x
    · intro j t x hx
      unfold inp at hx
      obtain ⟨n, hn, hx⟩ := Option.bind_eq_some_iff.1 hx
      exact runs_iff_before.1 hruns j n hn x (List.mem_of_getElem? hx)
    · exact fun j t x hx => Or.inl hx
    · intro j t x x0 h1 h2
      rw [h1, Option.some.injEq] at h2
      exact Or.inl h2
  | k + 1, hk, hpads => by
    obtain ⟨c, S, e, h⟩ := pad_loop hg hrefl htrans hR hruns k (by omega) fun i hi => hpads i (by omega)
    obtain ⟨c', S', e', h'⟩ := pad_step hg htrans hR hruns h (by omega) (hpads k (by omega))
    refine ⟨c', S', ?_, h'⟩
    rw [List.range_succ, List.foldlM_append, e]
    simp only [bind, Except.bind, List.foldlM_cons, List.foldlM_nil, e']; rfl

theorem runs_closed {l : List Node} {avail : List String} (h : Runs avail l) {n : Node} (hn : n ∈ l) {x : String}
    (hx : x ∈ n.inputs) : x ∈ avail ∨ ∃ m ∈ l, x ∈ m.outputs := by
  obtain ⟨j, hj⟩ := List.mem_iff_getElem?.1 hn
  rcases runs_iff_before.1 h j n hj x hx with h | ⟨i, _, m, hm, hy⟩
  · exact Or.inl h
  · exact Or.inr ⟨m, List.mem_of_getElem? hm, hy⟩

theorem mapM_forall {V : Type} {e : String → Option V} : ∀ {a b : List String}, List.Forall₂ (fun x y => e x = e y) a b →
    a.mapM e = b.mapM e
  | _, _, .nil => rfl
  | _, _, .cons h h' => by rw [List.mapM_cons, List.mapM_cons, h, mapM_forall h']

theorem core_outputs {c orig : List Node} (h : c.map core = orig.map core) :
    c.flatMap (·.outputs) = orig.flatMap (·.outputs) := by
  have := congrArg (fun l => l.flatMap fun p : String × Op × List String => p.2.2) h
  simpa [List.flatMap_map, core] using this

theorem core_names {c orig : List Node} (h : c.map core = orig.map core) : c.map (·.name) = orig.map (·.name) := by
  have := congrArg (fun l => l.map fun p : String × Op × List String => p.1) h
  simpa [core, Function.comp_def] using this

/-- What is left after the paddings are taken out. -/
theorem pads_result {g : Graph} (hg : g.Valid) (hruns : Runs (g.inputs ++ g.initNames) g.nodes)
    (hpads : ∀ n ∈ g.nodes, n.op = .pad → g.PadFine n)
    {R : String → String → Prop} (hrefl : ∀ x, R x x) (htrans : ∀ x y z, R x y → R y z → R x z)
    (hR : ∀ n ∈ g.nodes, ∀ x y d, g.PadOf n x y d → (∀ a ∈ d.vals, a = 0) → R x y) :
    ∃ l, removePads g = .ok { g with nodes := l } ∧ Runs (g.inputs ++ g.initNames) l ∧ ({ g with nodes := l } : Graph).Valid ∧
      (∀ n ∈ l, ∃ m ∈ g.nodes, core m = core n ∧ ¬ g.ZeroPad m ∧ List.Forall₂ R n.inputs m.inputs) ∧
      (∀ m ∈ g.nodes, ¬ g.ZeroPad m → ∃ n ∈ l, core m = core n) ∧
      ∀ n ∈ l, ∀ x ∈ n.inputs, ∀ m ∈ g.nodes, x ∈ m.outputs → ¬ g.ZeroPad m := by
  obtain ⟨c, S, e, h⟩ := pad_loop hg hrefl htrans hR hruns g.nodes.length le_rfl
    fun i _ m hm => hpads m (List.mem_of_getElem? hm)
  have hcn : (c.map (·.name)).Nodup := by
    rw [core_names h.core]; exact (List.nodup_append.1 hg.names).2.1
  have hcd : c.Nodup := List.Nodup.of_map _ hcn
  set rem := S.filterMap fun i => c[i]? with hrem
  have hremmem : ∀ j n, c[j]? = some n → (n ∈ rem ↔ j ∈ S) := by
    intro j n hj
    rw [hrem, List.mem_filterMap]
    constructor
    · rintro ⟨i, hi, hn⟩
      obtain ⟨h1, e1⟩ := List.getElem?_eq_some_iff.1 hj
      obtain ⟨h2, e2⟩ := List.getElem?_eq_some_iff.1 hn
      have := hcd.getElem_inj_iff.1 (e1.trans e2.symm)
      exact this ▸ hi
    · exact fun hj' => ⟨j, hj', hj⟩
  have hrz : ∀ (j : ℕ) n m, c[j]? = some n → g.nodes[j]? = some m → (n ∈ rem ↔ g.ZeroPad m) := by
    intro j n m hj hm
    rw [hremmem j n hj, h.zero j m hm]
    have := (List.getElem?_eq_some_iff.1 hm).1
    simp [this]
  have hremnd : rem.Nodup := by
    refine List.Nodup.filterMap ?_ h.nodup
    intro i j n hi hj
    obtain ⟨h1, e1⟩ := List.getElem?_eq_some_iff.1 hi
    obtain ⟨h2, e2⟩ := List.getElem?_eq_some_iff.1 hj
    exact hcd.getElem_inj_iff.1 (e1.trans e2.symm)
  have hfold := removeNode_fold rem c hcd hremnd (by
    intro n hn
    obtain ⟨i, _, hi⟩ := List.mem_filterMap.1 hn
    exact List.mem_of_getElem? hi)
  have hpos : ∀ n ∈ c, ∃ (j : ℕ) (m : Node), c[j]? = some n ∧ g.nodes[j]? = some m ∧ core m = core n := by
    intro n hn
    obtain ⟨j, hj⟩ := List.mem_iff_getElem?.1 hn
    obtain ⟨m, hm, hmn⟩ := core_get h.core hj
    exact ⟨j, m, hj, hm, hmn⟩
  have hcruns : Runs (g.inputs ++ g.initNames) c := by
    rw [runs_iff_before]
    intro j n hj x hx
    obtain ⟨t, ht⟩ := (mem_inp hj).1 hx
    rcases h.back j t x ht with h1 | ⟨i, hi, m, hm, hy⟩
    · exact Or.inl h1
    · obtain ⟨n', hn', he⟩ := core_get h.core.symm hm
      refine Or.inr ⟨i, hi, n', hn', ?_⟩
      have : n'.outputs = m.outputs := congrArg (fun p : String × Op × List String => p.2.2) he
      rwa [this]
  have hgone : ∀ n ∈ c, ∀ x ∈ n.inputs, ∀ m ∈ g.nodes, x ∈ m.outputs → ¬ g.ZeroPad m := by
    intro n hn x hx m hm hxm hz
    obtain ⟨j, _, hj, _, _⟩ := hpos n hn
    obtain ⟨t, ht⟩ := (mem_inp hj).1 hx
    obtain ⟨i, hi⟩ := List.mem_iff_getElem?.1 hm
    exact h.gone i ((h.zero i m hi).2 ⟨(List.getElem?_eq_some_iff.1 hi).1, hz⟩) m hi x hxm j t ht
  have hlruns : Runs (g.inputs ++ g.initNames) (c.filter fun n => decide (n ∉ rem)) := by
    refine runs_filter hcruns (fun _ _ _ _ _ h => h) ?_
    intro m hm _ x hx k hk hxk
    obtain ⟨j, k', hj, hk', he⟩ := hpos k hk
    have : k'.outputs = k.outputs := congrArg (fun p : String × Op × List String => p.2.2) he
    exact decide_eq_true fun hr => hgone m hm x hx k' (List.mem_of_getElem? hk') (this ▸ hxk) ((hrz j k k' hj hk').1 hr)
  refine ⟨c.filter fun n => decide (n ∉ rem), ?_, hlruns, ⟨?_, hg.arrays, ?_, ?_, ?_⟩, ?_, ?_, ?_⟩
  · unfold removePads
    rw [e]
    simp only [bind, Except.bind]
    rw [← hrem, hfold]
  · refine hg.names.sublist (List.Sublist.append_left ?_ _)
    show List.Sublist ((c.filter fun n => decide (n ∉ rem)).map _) _
    rw [← core_names h.core]
    exact List.filter_sublist.map _
  · refine hg.once.sublist ?_
    show List.Sublist ((c.filter fun n => decide (n ∉ rem)).flatMap _) _
    rw [← core_outputs h.core]
    exact List.filter_sublist.flatMap _
  · intro n hn y hy
    obtain ⟨j, m, hj, hm, he⟩ := hpos n (List.mem_filter.1 hn).1
    have : m.outputs = n.outputs := congrArg (fun p : String × Op × List String => p.2.2) he
    exact hg.fresh m (List.mem_of_getElem? hm) y (this ▸ hy)
  · intro n hn x hx
    rcases runs_closed hlruns hn hx with h1 | h1
    · rcases List.mem_append.1 h1 with h2 | h2
      · exact Or.inl h2
      · exact Or.inr (Or.inl h2)
    · exact Or.inr (Or.inr h1)
  · intro n hn
    obtain ⟨hn1, hn2⟩ := List.mem_filter.1 hn
    obtain ⟨j, m, hj, hm, he⟩ := hpos n hn1
    refine ⟨m, List.mem_of_getElem? hm, he, fun hz => (of_decide_eq_true hn2) ((hrz j n m hj hm).2 hz), ?_⟩
    have hi : ∀ t, inp c j t = n.inputs[t]? := by intro t; unfold inp; rw [hj]; rfl
    have hi' : ∀ t, inp g.nodes j t = m.inputs[t]? := by intro t; unfold inp; rw [hm]; rfl
    have hlen : n.inputs.length = m.inputs.length := by
      have hd : ∀ t, (n.inputs[t]?).isSome = (m.inputs[t]?).isSome := fun t => by rw [← hi, ← hi', h.dom]
      have h1 := hd n.inputs.length
      have h2 := hd m.inputs.length
      simp at h1 h2
      omega
    refine List.forall₂_iff_get.2 ⟨hlen, fun t h1 h2 => h.val j t _ _ ?_ ?_⟩
    · rw [hi]; simp
    · rw [hi']; simp
  · intro m hm hz
    obtain ⟨j, hj⟩ := List.mem_iff_getElem?.1 hm
    obtain ⟨n, hn, he⟩ := core_get h.core.symm hj
    exact ⟨n, List.mem_filter.2 ⟨List.mem_of_getElem? hn, decide_eq_true fun hr => hz ((hrz j n m hn hj).1 hr)⟩, he.symm⟩
  · exact fun n hn => hgone n (List.mem_filter.1 hn).1

theorem pad_error {g : Graph} (hg : g.Valid) (hr : Runs (g.inputs ++ g.initNames) g.nodes) {pre post : List Node} {n : Node}
    (hs : g.nodes = pre ++ n :: post) (hpre : ∀ m ∈ pre, m.op = .pad → g.PadFine m) {err : Err}
    (h : ∀ c S n', PadInv g (fun _ _ => True) pre.length c S → c[pre.length]? = some n' → core n' = core n →
      padStep g.nodes g.nameData (c, S) pre.length = .error err) : removePads g = .error err := by
  have hlen : g.nodes.length = pre.length + (1 + post.length) := by rw [hs]; simp; omega
  obtain ⟨c, S, e, hi⟩ := pad_loop hg (R := fun _ _ => True) (fun _ => trivial) (fun _ _ _ _ _ => trivial)
    (fun _ _ _ _ _ _ _ => trivial) hr pre.length (by omega) (by
      intro i hi m hm
      rw [hs, List.getElem?_append_left hi] at hm
      exact hpre m (List.mem_of_getElem? hm))
  have hcl : c.length = g.nodes.length := by simpa using congrArg List.length hi.core
  obtain ⟨n', hn'⟩ : ∃ n', c[pre.length]? = some n' := ⟨c[pre.length]'(by omega), List.getElem?_eq_getElem (by omega)⟩
  obtain ⟨m, hm, hmn⟩ := core_get hi.core hn'
  have hmn' : m = n := by
    rw [hs] at hm
    simpa using hm.symm
  subst hmn'
  have he := h c S n' hi hn' hmn.symm
  unfold removePads
  rw [hlen, List.range_add, List.foldlM_append, e, show (1 + post.length) = post.length + 1 by omega, List.range_succ_eq_map]
  simp only [bind, Except.bind, List.map_cons, List.foldlM_cons, Nat.add_zero, he]

theorem lookup_some_mem {V : Type} : ∀ {l : List (String × V)} {x : String} {d : V}, l.lookup x = some d → (x, d) ∈ l
  | (a, b) :: l, x, d, h => by
    rw [List.lookup_cons] at h
    by_cases hx : x = a
    · simp [hx] at h
      simp [hx, h]
    · rw [beq_eq_false_iff_ne.2 hx] at h
      exact List.mem_cons_of_mem _ (lookup_some_mem h)

theorem known_of_mem {g : Graph} {x : String} {d : Data} (h : (x, d) ∈ g.nameData) : g.Known x d := by
  have key : ∀ (l : List Node) (params : List (String × Data)), (∀ n ∈ l, n ∈ g.nodes) →
      (∀ p ∈ params, g.Known p.1 p.2) → ∀ p ∈ l.foldl dataStep params, g.Known p.1 p.2 := by
    intro l
    induction l with
    | nil => exact fun _ _ h => h
    | cons n l ih =>
      intro params hl hp
      rw [List.foldl_cons]
      refine ih _ (fun m hm => hl m (by simp [hm])) ?_
      intro q hq
      have hn := hl n (by simp)
      unfold dataStep at hq
      split at hq
      · next ho hi hy =>
        split at hq
        · next hd =>
          rcases List.mem_cons.1 hq with rfl | hq'
          · exact .copy hn ho hi hy (hp _ (lookup_some_mem hd))
          · exact hp q hq'
        · exact hp q hq
      · next ho hy =>
        rcases List.mem_cons.1 hq with rfl | hq'
        · exact .constant hn ho hy
        · exact hp q hq'
      · exact hp q hq
  exact key g.nodes _ (fun _ h => h) (fun p hp => .array (List.mem_reverse.1 hp)) (x, d) h

theorem pad_inputs {g : Graph} {R : String → String → Prop} {k : ℕ} {c : List Node} {S : List ℕ} (h : PadInv g R k c S)
    {n' : Node} (hn' : c[k]? = some n') {x p : String} (i0 : inp g.nodes k 0 = some x) (i1 : inp g.nodes k 1 = some p)
    (hfree : ∀ m ∈ g.nodes, m.op = .pad → p ∉ m.outputs) : ∃ x' r, n'.inputs = x' :: p :: r := by
  obtain ⟨x', hx⟩ : ∃ x, inp c k 0 = some x := Option.isSome_iff_exists.1 (by rw [h.dom, i0]; rfl)
  obtain ⟨p', hp'⟩ : ∃ x, inp c k 1 = some x := Option.isSome_iff_exists.1 (by rw [h.dom, i1]; rfl)
  obtain rfl : p' = p := by
    rcases h.chg k 1 p' p hp' i1 with h1 | ⟨m', hm', h1, h2⟩
    · exact h1
    · exact absurd h2 (hfree m' hm' h1)
  unfold inp at hx hp'
  rw [hn'] at hx hp'
  rcases hni : n'.inputs with _ | ⟨a, _ | ⟨b, r⟩⟩
  · simp [hni] at hx
  · simp [hni] at hp'
  · simp [hni] at hx hp'
    exact ⟨a, r, by rw [hp']⟩

theorem gLoose_valid : gLoose.Valid :=
  ⟨by decide +kernel, by decide +kernel, by decide +kernel, by decide +kernel, by decide +kernel⟩

theorem gLoose_acyclic : gLoose.Acyclic :=
  ⟨[⟨"lost", .constant (some ⟨[], [3]⟩), [], ["q"]⟩, ⟨"conv", .other "Conv", ["x", "w"], ["b"]⟩,
    ⟨"relu", .other "Relu", ["b"], ["y"]⟩], by decide +kernel, by decide +kernel⟩

theorem gPads_valid (outs : List String) : (gPads outs).Valid :=
  ⟨show (["x"] ++ padNodes.map (·.name)).Nodup by decide +kernel, show ["one"].Nodup by decide +kernel,
    show (padNodes.flatMap (·.outputs)).Nodup by decide +kernel,
    show ∀ n ∈ padNodes, ∀ y ∈ n.outputs, y ∉ ["x"] ∧ y ∉ ["one"] by decide +kernel,
    show ∀ n ∈ padNodes, ∀ x ∈ n.inputs, x ∈ ["x"] ∨ x ∈ ["one"] ∨ ∃ m ∈ padNodes, x ∈ m.outputs by decide +kernel⟩

theorem gPads_runs (outs : List String) : Runs ((gPads outs).inputs ++ (gPads outs).initNames) (gPads outs).nodes :=
  show Runs (["x"] ++ ["one"]) padNodes by decide +kernel

theorem gPads_zero (outs : List String) : (gPads outs).PadOf ⟨"pad", .pad, ["x", "w"], ["p"]⟩ "x" "p" ⟨[2], [0, 0]⟩ :=
  ⟨rfl, rfl, "w", [], rfl, .copy (n := ⟨"i", .identity, ["c"], ["w"]⟩) (show _ ∈ padNodes by decide +kernel) rfl rfl rfl
    (.constant (n := ⟨"c", .constant (some ⟨[2], [0, 0]⟩), [], ["c"]⟩) (show _ ∈ padNodes by decide +kernel) rfl rfl),
    show ∀ m ∈ padNodes, m.op = .pad → "w" ∉ m.outputs by decide +kernel⟩

theorem gPads_one (outs : List String) : (gPads outs).PadOf ⟨"pad2", .pad, ["p", "one"], ["r"]⟩ "p" "r" ⟨[1], [1]⟩ :=
  ⟨rfl, rfl, "one", [], rfl, .array (by simp [gPads]), show ∀ m ∈ padNodes, m.op = .pad → "one" ∉ m.outputs by decide +kernel⟩

theorem gPads_fine (outs : List String) (h : "p" ∉ outs) : ∀ n ∈ (gPads outs).nodes, n.op = .pad →
    ∃ x y d, (gPads outs).PadOf n x y d ∧ ((∀ a ∈ d.vals, a = 0) → (gPads outs).Read y ∧ y ∉ (gPads outs).outputs) := by
  intro n hn ho
  have : n = ⟨"pad", .pad, ["x", "w"], ["p"]⟩ ∨ n = ⟨"pad2", .pad, ["p", "one"], ["r"]⟩ := by
    have key : ∀ n ∈ padNodes, n.op = .pad → n = ⟨"pad", .pad, ["x", "w"], ["p"]⟩ ∨ n = ⟨"pad2", .pad, ["p", "one"], ["r"]⟩ := by
      decide +kernel
    exact key n hn ho
  rcases this with rfl | rfl
  · exact ⟨_, _, _, gPads_zero outs, fun _ => ⟨⟨⟨"pad2", .pad, ["p", "one"], ["r"]⟩, show _ ∈ padNodes by decide +kernel,
      by decide +kernel⟩, h⟩⟩
  · exact ⟨_, _, _, gPads_one outs, fun hz => absurd (hz 1 (by simp)) (by norm_num)⟩

end Verif.Onnx
