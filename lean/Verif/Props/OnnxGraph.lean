import Verif.Lemmas.OnnxGraph

/-! C70: edits of ONNX graphs before deployment. -/

namespace Verif.Onnx
open Verif

/-! ## Specification -/

/-! ## Evaluation does not depend on the order -/

/-! ## Kahn's algorithm -/

/-! ## The edges of a graph -/

/-- Sorting puts the nodes of a graph without cycles into an order of execution; nothing is lost or added. -/
theorem C70_sort {g : Graph} (hg : g.Valid) (ha : g.Acyclic) :
    ∃ l, topoSort g = .ok { g with nodes := l } ∧ l.Perm g.nodes ∧ Runs (g.inputs ++ g.initNames) l := sort_ok hg ha

/-- A graph with a cycle is refused. -/
theorem C70_cycle {g : Graph} (hg : g.Valid) (ha : ¬ g.Acyclic) : topoSort g = .error .runtime := by
  obtain ⟨l, h1, h2, h3, h4, _⟩ := sort_core hg
  rw [h1, if_pos]
  intro hl
  exact ha ⟨l, (List.subperm_of_subset h2 h3).perm_of_length_le hl.ge, h4⟩

/-- The order does not matter: two orders of execution of a valid graph give the same outputs, or fail both,
whatever the operators do. -/
theorem C70_meaning {V : Type} (I : Interp V) {g : Graph} (hg : g.Valid) {l : List Node} (hp : l.Perm g.nodes)
    (h1 : Runs (g.inputs ++ g.initNames) g.nodes) (h2 : Runs (g.inputs ++ g.initNames) l) (ins : String → Option V) :
    ({ g with nodes := l } : Graph).eval I ins = g.eval I ins := by
  have := eval_perm I (g.start I ins) hp.symm h1 h2 hg.once (by
    intro y hy h
    obtain ⟨n, hn, hy⟩ := List.mem_flatMap.1 hy
    have := hg.fresh n hn y hy
    rcases List.mem_append.1 h with h | h
    · exact this.1 h
    · exact this.2 h)
  unfold Graph.eval
  rw [this]; rfl

/-- DISAGREEMENT: names of nodes are optional in ONNX and need not differ, but a graph in which two nodes
have the same name is never sorted: the error says that it has a cycle. -/
theorem C70_names_violated {g : Graph} (hn : ¬ (g.nodes.map (·.name)).Nodup) (g' : Graph) : topoSort g ≠ .ok g' := by
  intro h
  unfold topoSort at h
  rcases he : edges g with e | E
  · rw [he] at h; simp [bind, Except.bind] at h
  rw [he] at h
  simp only [bind, Except.bind] at h
  split at h
  · simp at h
  rename_i r hk
  split_ifs at h with hl
  have hr : r.Nodup := by
    refine kahn_once _ _ _ _ _ ⟨?_, ?_, by simp⟩ hk
    · intro v hv
      rw [List.append_nil, List.count_reverse, List.count_append, List.count_eq_zero.2 hv, zero_add]
      exact List.nodup_iff_count_le_one.1 ((List.nodup_reverse.2 (List.nodup_dedup _)).filter _) v
    · intro v hv hm
      rw [List.append_nil, List.mem_reverse, List.mem_append] at hm
      rcases hm with hm | hm
      · exact absurd hm hv
      · have := (List.mem_filter.1 hm).2
        simp only [decide_eq_true_eq] at this
        omega
  have hn1 : ∀ v n, g.named v = some n → n ∈ g.nodes ∧ n.name = v := by
    intro v n hv
    exact ⟨by simpa using List.mem_of_find?_eq_some hv, by simpa using List.find?_some hv⟩
  have hnd : ((r.filterMap g.named).map (·.name)).Nodup := by
    have : ∀ r : List String, ((r.filterMap g.named).map (·.name)).Sublist r := by
      intro r
      induction r with
      | nil => simp
      | cons v r ih =>
        rcases hv : g.named v with _ | n
        · rw [List.filterMap_cons_none hv]; exact ih.cons v
        · rw [List.filterMap_cons_some hv, List.map_cons, (hn1 v n hv).2]; exact ih.cons₂ v
    exact hr.sublist (this r)
  have hsub : ∀ v ∈ (r.filterMap g.named).map (·.name), v ∈ g.nodes.map (·.name) := by
    intro v hv
    obtain ⟨n, hn, rfl⟩ := List.mem_map.1 hv
    obtain ⟨w, _, hw⟩ := List.mem_filterMap.1 hn
    exact List.mem_map.2 ⟨n, (hn1 w n hw).1, rfl⟩
  have := (List.subperm_of_subset hnd hsub).perm_of_length_le (by
    rw [List.length_map, List.length_map]; exact (not_not.1 hl).ge)
  exact hn (this.nodup_iff.1 hnd)

/-- DISAGREEMENT: inputs of nodes may be omitted in ONNX, the name is then empty. A graph in which a node
reads such a name (or any that is not defined) cannot be sorted: the lookup fails. -/
theorem C70_omitted_violated {g : Graph} {n : Node} (hn : n ∈ g.nodes) {x : String} (hx : x ∈ n.inputs)
    (h1 : x ∉ g.inputs) (h2 : x ∉ g.initNames) (h3 : ∀ m ∈ g.nodes, x ∉ m.outputs) : topoSort g = .error .key := by
  have hk : ∀ q : Node × String, (∃ e, edgeOf g q.1 q.2 = .ok e) ∨ edgeOf g q.1 q.2 = .error .key := by
    intro q
    unfold edgeOf
    split_ifs
    · exact Or.inl ⟨_, rfl⟩
    · rcases producer g q.2 with _ | p
      · exact Or.inr rfl
      · exact Or.inl ⟨_, rfl⟩
  have key : ∀ l : List (Node × String), (n, x) ∈ l → (l.mapM fun q => edgeOf g q.1 q.2) = .error .key := by
    intro l
    induction l with
    | nil => simp
    | cons q l ih =>
      intro hq
      rw [List.mapM_cons]
      rcases hk q with ⟨e, he⟩ | he
      · rcases List.mem_cons.1 hq with rfl | hq
        · exfalso
          unfold edgeOf at he
          have : producer g x = none := by
            unfold producer
            rw [if_neg h1, Option.map_eq_none_iff, List.find?_eq_none]
            intro m hm
            simpa using h3 m (by simpa using hm)
          rw [if_neg h2, this] at he
          exact absurd he (by simp)
        · rw [he, ih hq]; rfl
      · rw [he]; rfl
  unfold topoSort edges
  rw [key _ (List.mem_flatMap.2 ⟨n, hn, List.mem_map.2 ⟨x, hx, rfl⟩⟩)]
  rfl

/-! ## Removing what is not used -/

/-- Optimising a valid graph without cycles removes exactly the isolated nodes and the initializers that no
node reads, sorts the rest, and keeps the outputs, when none of them comes from what is removed. Missing:
outputs that come straight from an isolated node or an unread initializer, see `C70_direct_violated` and
`C70_array_violated`. -/
theorem C70_optimize_partial {V : Type} (I : Interp V) {g : Graph} (hg : g.Valid) {ins : String → Option V} {vals : List V}
    (hc : g.Computes I ins vals) (ho : ∀ y ∈ g.outputs, (∀ n ∈ g.nodes, y ∈ n.outputs → ¬ g.Isolated n) ∧
      (y ∈ g.initNames → g.Read y)) :
    ∃ g', optimize g = .ok g' ∧ g'.inputs = g.inputs ∧ g'.outputs = g.outputs ∧ g'.eval I ins = some vals ∧
      (∀ n, n ∈ g'.nodes ↔ n ∈ g.nodes ∧ ¬ g.Isolated n) ∧ g'.nodes.Nodup ∧
      ∀ p, p ∈ g'.inits ↔ p ∈ g.inits ∧ g.Read p.1 :=
  optimize_computes I hg hc ho

/-- DISAGREEMENT: a node between a graph input and a graph output is connected with no other node. It is
taken for unused and removed, and the graph that remains does not define its output. -/
theorem C70_direct_violated {g : Graph} (hg : g.Valid) (ha : g.Acyclic) {n : Node} (hn : n ∈ g.nodes)
    (hi : g.Isolated n) {y : String} (hy : y ∈ n.outputs) (ho : y ∈ g.outputs) :
    ∃ g', optimize g = .ok g' ∧ ∀ (V : Type) (I : Interp V) ins, g'.eval I ins = none := by
  obtain ⟨l, h1, h2, h3⟩ := optimize_ok hg ha
  refine ⟨_, h1, fun V I ins => eval_lost (optimize_valid hg h2) h3 ho (hg.fresh n hn y hy).1 ?_ ?_ ins⟩
  · exact fun h => (hg.fresh n hn y hy).2 ((List.filter_sublist.map _).subset h)
  · intro m hm hym
    have hm' : m ∈ g.nodes ∧ ¬ g.Isolated m := by
      have := h2.mem_iff.1 hm
      rw [List.mem_filter] at this
      exact ⟨this.1, by rw [← standalone_iff]; simpa using this.2⟩
    rw [writer_unique hg.once hm'.1 hn hym hy] at hm'
    exact hm'.2 hi

/-- DISAGREEMENT: an initializer that is itself an output of the graph and is not read by a node is removed,
and the output is lost. -/
theorem C70_array_violated {g : Graph} (hg : g.Valid) (ha : g.Acyclic) {y : String} (hy : y ∈ g.initNames)
    (hi : y ∉ g.inputs) (hr : ¬ g.Read y) (ho : y ∈ g.outputs) :
    ∃ g', optimize g = .ok g' ∧ ∀ (V : Type) (I : Interp V) ins, g'.eval I ins = none := by
  obtain ⟨l, h1, h2, h3⟩ := optimize_ok hg ha
  refine ⟨_, h1, fun V I ins => eval_lost (optimize_valid hg h2) h3 ho hi ?_ ?_ ins⟩
  · intro h
    obtain ⟨p, hp, rfl⟩ := List.mem_map.1 h
    exact hr (consumed_iff.1 (List.mem_filter.1 hp).2)
  · intro m hm hym
    have := List.mem_of_mem_filter (h2.mem_iff.1 hm)
    exact (hg.fresh m this y hym).2 hy

/-! ## Removing paddings by nothing -/

/-- Taking out the paddings by nothing: it succeeds, takes out exactly the nodes that pad by known widths
of zero, leaves name, operator and outputs of the others, and the graph computes what it did. Missing:
the guards on paddings; see `C70_output_violated`, `C70_unread_violated`, `C70_computed_violated` and
`C70_old_violated`. -/
theorem C70_pads_partial {g : Graph} (hg : g.Valid) (hr : Runs (g.inputs ++ g.initNames) g.nodes)
    (happ : ∀ x ∈ g.inputs, x ∉ g.initNames)
    (hpads : ∀ n ∈ g.nodes, n.op = .pad → ∃ x y d, g.PadOf n x y d ∧
      ((∀ a ∈ d.vals, a = 0) → g.Read y ∧ y ∉ g.outputs)) :
    ∃ g', removePads g = .ok g' ∧ g'.Valid ∧ Runs (g'.inputs ++ g'.initNames) g'.nodes ∧
      g'.inputs = g.inputs ∧ g'.inits = g.inits ∧ g'.outputs = g.outputs ∧
      (∀ nm op outs, (∃ n ∈ g'.nodes, n.name = nm ∧ n.op = op ∧ n.outputs = outs) ↔
        ∃ n ∈ g.nodes, ¬ g.ZeroPad n ∧ n.name = nm ∧ n.op = op ∧ n.outputs = outs) ∧
      ∀ (V : Type) (I : Interp V), I.Standard → ∀ ins vals, g.eval I ins = some vals → g'.eval I ins = some vals := by
  have hpads' : ∀ n ∈ g.nodes, n.op = .pad → g.PadFine n := by
    intro n hn ho
    obtain ⟨x, y, d, h1, h2⟩ := hpads n hn ho
    exact ⟨x, y, d, h1, fun hz => (h2 hz).1⟩
  obtain ⟨l, h1, h2, h3, h4, h5, h6⟩ := pads_result hg hr hpads' (R := fun _ _ => True) (fun _ => trivial)
    (fun _ _ _ _ _ => trivial) (fun _ _ _ _ _ _ _ => trivial)
  refine ⟨_, h1, h3, h2, rfl, rfl, rfl, ?_, ?_⟩
  · intro nm op outs
    constructor
    · rintro ⟨n, hn, rfl, rfl, rfl⟩
      obtain ⟨m, hm, he, hz, _⟩ := h4 n hn
      obtain ⟨a, b, c⟩ : m.name = n.name ∧ m.op = n.op ∧ m.outputs = n.outputs := by simpa [core] using he
      exact ⟨m, hm, hz, a, b, c⟩
    · rintro ⟨m, hm, hz, rfl, rfl, rfl⟩
      obtain ⟨n, hn, he⟩ := h5 m hm hz
      obtain ⟨a, b, c⟩ : m.name = n.name ∧ m.op = n.op ∧ m.outputs = n.outputs := by simpa [core] using he
      exact ⟨n, hn, a.symm, b.symm, c.symm⟩
  · intro V I hI ins vals hev
    obtain ⟨e, e1, e2, e3⟩ := (eval_some hg (List.Perm.refl _) hr).1 hev
    obtain ⟨l', h1', _, _, h4', _, _⟩ := pads_result hg hr hpads' (R := fun x y => e x = e y) (fun _ => rfl)
      (fun _ _ _ => Eq.trans) (fun n hn x y d hp hz => pad_value hI hg happ e1 e2 hn hp hz)
    obtain rfl : l' = l := by
      rw [h1, Except.ok.injEq] at h1'
      exact (congrArg Graph.nodes h1').symm
    refine (eval_some (g := { g with nodes := l' }) h3 (List.Perm.refl _) h2).2 ?_
    classical
    have hkeep : ∀ x, (∀ m ∈ g.nodes, x ∈ m.outputs → ¬ g.ZeroPad m) →
        (if ∃ n ∈ l', x ∈ n.outputs then e x else g.start I ins x) = e x := by
      intro x hx
      by_cases hh : ∃ n ∈ l', x ∈ n.outputs
      · rw [if_pos hh]
      · rw [if_neg hh, e1]
        intro m hm hy
        obtain ⟨n, hn, he⟩ := h5 m hm (hx m hm hy)
        have : m.outputs = n.outputs := congrArg (fun p : String × Op × List String => p.2.2) he
        exact hh ⟨n, hn, this ▸ hy⟩
    refine ⟨fun x => if ∃ n ∈ l', x ∈ n.outputs then e x else g.start I ins x, ?_, ?_, ?_⟩
    · intro y hy
      refine if_neg ?_
      rintro ⟨n, hn, h⟩
      exact hy n hn h
    · intro n hn
      obtain ⟨m, hm, he, hz, hf⟩ := h4' n hn
      obtain ⟨_, b, c⟩ : m.name = n.name ∧ m.op = n.op ∧ m.outputs = n.outputs := by simpa [core] using he
      have hs : Solves I e n := by
        obtain ⟨args, outs, a1, a2, a3, a4⟩ := e2 m hm
        refine ⟨args, outs, ?_, b ▸ a2, c ▸ a3, c ▸ a4⟩
        rw [← a1]
        exact mapM_forall hf
      refine solves_congr hs ?_ ?_
      · exact fun x hx => hkeep x (h6 n hn x hx)
      · exact fun y hy => if_pos ⟨n, hn, hy⟩
    · rw [← e3]
      refine mapM_congr _ fun y hy => hkeep y ?_
      rintro m hm hym ⟨x, y', d, hp, hz⟩
      obtain ⟨x1, y1, d1, hp1, h⟩ := hpads m hm hp.op
      have hy1 : y1 = y := by have := hp1.outputs; rw [this] at hym; exact (List.mem_singleton.1 hym).symm
      obtain ⟨p, r, hi, hk, _⟩ := hp.inputs
      obtain ⟨p1, r1, hi1, hk1, _⟩ := hp1.inputs
      rw [hi, List.cons.injEq, List.cons.injEq] at hi1
      have hd := nameData_known hg hr hk
      rw [hi1.2.1, nameData_known hg hr hk1, Option.some.injEq] at hd
      subst hd hy1
      exact (h hz).2 hy

/-- DISAGREEMENT: a padding by nothing that is both read and an output of the graph is taken out, and
nothing writes that output any more: the exported graph fails on every input. -/
theorem C70_output_violated {g : Graph} (hg : g.Valid) (hr : Runs (g.inputs ++ g.initNames) g.nodes)
    (hpads : ∀ n ∈ g.nodes, n.op = .pad → g.PadFine n) {n : Node} (hn : n ∈ g.nodes) (hz : g.ZeroPad n) {y : String}
    (hy : y ∈ n.outputs) (ho : y ∈ g.outputs) :
    ∃ g', removePads g = .ok g' ∧ ∀ (V : Type) (I : Interp V) ins, g'.eval I ins = none := by
  obtain ⟨l, h1, h2, h3, h4, _, _⟩ := pads_result hg hr hpads (R := fun _ _ => True) (fun _ => trivial)
    (fun _ _ _ _ _ => trivial) (fun _ _ _ _ _ _ _ => trivial)
  refine ⟨_, h1, fun V I ins => ?_⟩
  refine eval_lost (g := { g with nodes := l }) h3 h2 ho (hg.fresh n hn y hy).1 (hg.fresh n hn y hy).2 ?_ ins
  intro k hk hyk
  obtain ⟨m, hm, he, hzm, _⟩ := h4 k hk
  have : m.outputs = k.outputs := congrArg (fun p : String × Op × List String => p.2.2) he
  rw [writer_unique hg.once hm hn (this ▸ hyk) hy] at hzm
  exact hzm hz

/-- DISAGREEMENT: a padding by nothing whose output no node reads (it is an output of the graph, say) stops
the export with a KeyError. -/
theorem C70_unread_violated {g : Graph} (hg : g.Valid) (hr : Runs (g.inputs ++ g.initNames) g.nodes) {pre post : List Node}
    {n : Node} (hs : g.nodes = pre ++ n :: post) (hpre : ∀ m ∈ pre, m.op = .pad → g.PadFine m) (hz : g.ZeroPad n)
    (hread : ∀ y ∈ n.outputs, ¬ g.Read y) : removePads g = .error .key := by
  have hn : g.nodes[pre.length]? = some n := by rw [hs]; simp
  obtain ⟨x, y, d, hp, hz⟩ := hz
  refine pad_error hg hr hs hpre ?_
  intro c S n' hi hn' he
  obtain ⟨p, rest, hin, hk, hfree⟩ := hp.inputs
  have i0 : inp g.nodes pre.length 0 = some x := by unfold inp; rw [hn]; simp [hin]
  have i1 : inp g.nodes pre.length 1 = some p := by unfold inp; rw [hn]; simp [hin]
  obtain ⟨x', r, hnin⟩ := pad_inputs hi hn' i0 i1 hfree
  obtain ⟨_, ho, hout⟩ : n'.name = n.name ∧ n'.op = n.op ∧ n'.outputs = n.outputs := by simpa [core] using he
  have hrd : readers g.nodes y = [] := by
    rw [List.eq_nil_iff_forall_not_mem]
    rintro ⟨j, t⟩ hjt
    have := mem_readers.1 hjt
    unfold inp at this
    obtain ⟨q, hq, hy⟩ := Option.bind_eq_some_iff.1 this
    exact hread y (by rw [hp.outputs]; simp) ⟨q, List.mem_of_getElem? hq, List.mem_of_getElem? hy⟩
  unfold padStep
  dsimp only
  rw [hn']
  dsimp only
  rw [if_pos (ho.trans hp.op), hnin, hout, hp.outputs]
  dsimp only
  rw [nameData_known hg hr hk]
  dsimp only
  rw [if_pos (by simpa using hz), hrd]

/-- DISAGREEMENT: a padding whose widths are computed by the graph stops the export with a KeyError, also
when it pads by something. -/
theorem C70_computed_violated {g : Graph} (hg : g.Valid) (hr : Runs (g.inputs ++ g.initNames) g.nodes) {pre post : List Node}
    {n : Node} (hs : g.nodes = pre ++ n :: post) (hpre : ∀ m ∈ pre, m.op = .pad → g.PadFine m) (hop : n.op = .pad)
    {x p y : String} {rest r : List String} (hin : n.inputs = x :: p :: rest) (ho : n.outputs = y :: r)
    (hk : ∀ d, ¬ g.Known p d) (hfree : ∀ m ∈ g.nodes, m.op = .pad → p ∉ m.outputs) : removePads g = .error .key := by
  have hn : g.nodes[pre.length]? = some n := by rw [hs]; simp
  refine pad_error hg hr hs hpre ?_
  intro c S n' hi hn' he
  have i0 : inp g.nodes pre.length 0 = some x := by unfold inp; rw [hn]; simp [hin]
  have i1 : inp g.nodes pre.length 1 = some p := by unfold inp; rw [hn]; simp [hin]
  obtain ⟨x', r', hnin⟩ := pad_inputs hi hn' i0 i1 hfree
  obtain ⟨_, ho', hout⟩ : n'.name = n.name ∧ n'.op = n.op ∧ n'.outputs = n.outputs := by simpa [core] using he
  have hl : g.nameData.lookup p = none := by
    rcases hl : g.nameData.lookup p with _ | d
    · rfl
    · exact absurd (known_of_mem (lookup_some_mem hl)) (hk d)
  unfold padStep
  dsimp only
  rw [hn']
  dsimp only
  rw [if_pos (ho'.trans hop), hnin, hout, ho]
  dsimp only
  rw [hl]

/-- DISAGREEMENT: a padding in the style of old operator sets, with its widths as an attribute and one input,
stops the export with an IndexError. -/
theorem C70_old_violated {g : Graph} (hg : g.Valid) (hr : Runs (g.inputs ++ g.initNames) g.nodes) {pre post : List Node}
    {n : Node} (hs : g.nodes = pre ++ n :: post) (hpre : ∀ m ∈ pre, m.op = .pad → g.PadFine m) (hop : n.op = .pad)
    (hin : n.inputs.length ≤ 1) : removePads g = .error .index := by
  have hn : g.nodes[pre.length]? = some n := by rw [hs]; simp
  refine pad_error hg hr hs hpre ?_
  intro c S n' hi hn' he
  obtain ⟨_, ho', _⟩ : n'.name = n.name ∧ n'.op = n.op ∧ n'.outputs = n.outputs := by simpa [core] using he
  have hd := hi.dom pre.length 1
  have hlen : n'.inputs.length ≤ 1 := by
    unfold inp at hd
    rw [hn, hn'] at hd
    have h0 : n.inputs[1]? = none := List.getElem?_eq_none_iff.2 hin
    have h1 : (n'.inputs[1]?).isSome = false := by
      have : (n'.inputs[1]?).isSome = (n.inputs[1]?).isSome := hd
      rw [this, h0]; rfl
    simpa using h1
  unfold padStep
  dsimp only
  rw [hn']
  dsimp only
  rw [if_pos (ho'.trans hop)]
  rcases hi' : n'.inputs with _ | ⟨a, _ | ⟨b, r⟩⟩
  · rfl
  · rfl
  · rw [hi'] at hlen; simp at hlen

/-! ## Concrete cases -/

example : ∃ l, topoSort gLoose = .ok { gLoose with nodes := l } ∧ l.Perm gLoose.nodes ∧
    Runs (gLoose.inputs ++ gLoose.initNames) l := C70_sort gLoose_valid gLoose_acyclic

example : ∃ g', optimize gLoose = .ok g' ∧ g'.eval intInterp (fun x => if x = "x" then some 7 else none) = some [14] := by
  obtain ⟨l, hp, hr⟩ := gLoose_acyclic
  obtain ⟨g', h1, _, _, h2, _⟩ := C70_optimize_partial intInterp gLoose_valid
    (ins := fun x => if x = "x" then some 7 else none) (vals := [14])
    ⟨[⟨"lost", .constant (some ⟨[], [3]⟩), [], ["q"]⟩, ⟨"conv", .other "Conv", ["x", "w"], ["b"]⟩,
      ⟨"relu", .other "Relu", ["b"], ["y"]⟩], by decide +kernel, by decide +kernel, by decide +kernel⟩
    (by unfold Graph.Isolated Graph.Read; decide +kernel)
  exact ⟨g', h1, h2⟩

example : topoSort gCycle = .error .runtime := by
  refine C70_cycle ⟨by decide +kernel, by decide +kernel, by decide +kernel, by decide +kernel, by decide +kernel⟩ ?_
  rintro ⟨l, hp, hr⟩
  match l, hp.length_eq, hp, hr with
  | [m, n], _, hp, hr =>
    have hm := hp.mem_iff.1 (List.mem_cons_self : m ∈ [m, n])
    have h1 := hr.1
    rcases List.mem_cons.1 hm with rfl | hm'
    · exact absurd (h1 "q" (by decide)) (by decide)
    · rcases List.mem_cons.1 hm' with rfl | hm''
      · exact absurd (h1 "p" (by decide)) (by decide)
      · simp at hm''

example : ∃ l, l.Perm gLoose.nodes ∧ l ≠ gLoose.nodes ∧ Runs (gLoose.inputs ++ gLoose.initNames) l :=
  ⟨_, gLoose_acyclic.choose_spec.1, fun h => by
    have := gLoose_acyclic.choose_spec.2
    rw [h] at this
    revert this
    decide +kernel, gLoose_acyclic.choose_spec.2⟩

/-- Nodes without names: all names are empty. -/
example (g' : Graph) : topoSort
    { nodes := [⟨"", .other "Relu", ["x"], ["a"]⟩, ⟨"", .other "Relu", ["a"], ["b"]⟩],
      inits := [], inputs := ["x"], outputs := ["b"] } ≠ .ok g' := C70_names_violated (by decide +kernel) g'

/-- Clip without a lower bound. -/
example : topoSort
    { nodes := [⟨"clip", .other "Clip", ["x", "", "hi"], ["a"]⟩], inits := [("hi", ⟨[], [6]⟩)],
      inputs := ["x"], outputs := ["a"] } = .error .key :=
  C70_omitted_violated (n := ⟨"clip", .other "Clip", ["x", "", "hi"], ["a"]⟩) (by decide +kernel) (x := "") (by decide +kernel)
    (by decide +kernel) (by decide +kernel) (by decide +kernel)

/-- A graph whose output is a constant. -/
example : ∃ g', optimize { gLoose with outputs := ["y", "q"] } = .ok g' ∧
    ∀ (V : Type) (I : Interp V) ins, g'.eval I ins = none :=
  C70_direct_violated ⟨by decide +kernel, by decide +kernel, by decide +kernel, by decide +kernel, by decide +kernel⟩
    gLoose_acyclic (n := ⟨"lost", .constant (some ⟨[], [3]⟩), [], ["q"]⟩) (by decide +kernel)
    (by unfold Graph.Isolated; decide +kernel) (y := "q") (by decide +kernel) (by decide +kernel)

/-- A graph whose output is an initializer. -/
example : ∃ g', optimize { gLoose with outputs := ["y", "old"] } = .ok g' ∧
    ∀ (V : Type) (I : Interp V) ins, g'.eval I ins = none :=
  C70_array_violated ⟨by decide +kernel, by decide +kernel, by decide +kernel, by decide +kernel, by decide +kernel⟩
    gLoose_acyclic (y := "old") (by decide +kernel) (by decide +kernel) (by unfold Graph.Read; decide +kernel)
    (by decide +kernel)

example : ∃ g', removePads (gPads ["y"]) = .ok g' ∧ ∀ (V : Type) (I : Interp V), I.Standard → ∀ ins vals,
    (gPads ["y"]).eval I ins = some vals → g'.eval I ins = some vals := by
  obtain ⟨g', h1, _, _, _, _, _, _, h2⟩ := C70_pads_partial (gPads_valid ["y"]) (gPads_runs _) (by decide +kernel)
    (gPads_fine _ (by decide +kernel))
  exact ⟨g', h1, h2⟩

example : (gPads ["y"]).eval intInterp (fun x => if x = "x" then some 7 else none) = some [8] := by decide +kernel

example : ∃ g', removePads (gPads ["y", "p"]) = .ok g' ∧ ∀ (V : Type) (I : Interp V) ins, g'.eval I ins = none := by
  refine C70_output_violated (gPads_valid _) (gPads_runs _) ?_ (n := ⟨"pad", .pad, ["x", "w"], ["p"]⟩)
    (by unfold gPads; decide +kernel) ⟨_, _, _, gPads_zero _, by simp⟩ (y := "p") (by decide +kernel) (by decide +kernel)
  intro n hn ho
  have key : ∀ n ∈ padNodes, n.op = .pad → n = ⟨"pad", .pad, ["x", "w"], ["p"]⟩ ∨ n = ⟨"pad2", .pad, ["p", "one"], ["r"]⟩ := by
    decide +kernel
  rcases key n hn ho with rfl | rfl
  · exact ⟨_, _, _, gPads_zero _, fun _ => ⟨⟨"pad2", .pad, ["p", "one"], ["r"]⟩, show _ ∈ padNodes by decide +kernel,
      by decide +kernel⟩⟩
  · exact ⟨_, _, _, gPads_one _, fun hz => absurd (hz 1 (by simp)) (by norm_num)⟩

/-- The padding is the last node. -/
example : removePads
    { nodes := [⟨"pad", .pad, ["x", "w"], ["p"]⟩], inits := [("w", ⟨[2], [0, 0]⟩)], inputs := ["x"],
      outputs := ["p"] } = .error .key :=
  C70_unread_violated ⟨by decide +kernel, by decide +kernel, by decide +kernel, by decide +kernel, by decide +kernel⟩
    (by decide +kernel) (pre := []) (post := []) rfl (by simp)
    ⟨"x", "p", ⟨[2], [0, 0]⟩, ⟨rfl, rfl, "w", [], rfl, .array (by decide +kernel), by decide +kernel⟩, by simp⟩
    (by unfold Graph.Read; decide +kernel)

/-- The widths are computed from the shape. -/
example : removePads
    { nodes := [⟨"shape", .other "Shape", ["x"], ["w"]⟩, ⟨"pad", .pad, ["x", "w"], ["p"]⟩], inits := [],
      inputs := ["x"], outputs := ["p"] } = .error .key := by
  refine C70_computed_violated ⟨by decide +kernel, by decide +kernel, by decide +kernel, by decide +kernel, by decide +kernel⟩
    (by decide +kernel) (pre := [⟨"shape", .other "Shape", ["x"], ["w"]⟩]) (post := []) rfl (by simp)
    rfl rfl rfl ?_ (by decide +kernel)
  intro d h
  cases h with
  | array h => simp at h
  | @constant n _ _ _ hn ho => rcases List.mem_pair.1 hn with rfl | rfl <;> simp at ho
  | @copy n _ _ _ _ hn ho => rcases List.mem_pair.1 hn with rfl | rfl <;> simp at ho

/-- Opset 9. -/
example : removePads { nodes := [⟨"pad", .pad, ["x"], ["p"]⟩], inits := [], inputs := ["x"], outputs := ["p"] } =
    .error .index :=
  C70_old_violated ⟨by decide +kernel, by decide +kernel, by decide +kernel, by decide +kernel, by decide +kernel⟩
    (by decide +kernel) (pre := []) (post := []) rfl (by simp) rfl (by decide +kernel)

end Verif.Onnx
