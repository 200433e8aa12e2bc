import Verif.Lemmas.FakeQuantDel

/-! C49: deleting fake-quantisers from a graph. -/
namespace Verif.FakeQuantDel

/-! ### What a graph computes -/

/-! ### Removing one node -/

/-! ### Removal keeps the function -/

/-! ### The programs are sequences of removals -/

/-- C49, the function is kept: whichever deletion is used (before or after
operations, methods, functions or modules), if it returns a graph, then only
fake-quantisers are missing, every other node is there with its arguments
redirected past removed fake-quantisers, and with fake-quantisation switched
off every remaining node (the output included) has the same value for every
interpretation of the operations and every input. -/
theorem C49_function (m m' : GM) (hw : WF m) (pred : Node → Bool) (pats : List Nat)
    (h : delBefore pred m = .ok m' ∨ delAfter pred m = .ok m' ∨
      delBeforeModule pats m = .ok m') : Rest m m' := by
  apply rest_of_reach m m' hw
  rcases h with h | h | h
  · exact before_reach pred m m' hw h
  · exact foldlM_reach _ (afterStep_reach _) _ m m' hw h
  · exact foldlM_reach _ (moduleStep_reach _) _ m m' hw h

/-- C49, deletions after operations always succeed. -/
theorem C49_after_succeeds (m : GM) (hw : WF m) (pred : Node → Bool) :
    ∃ m', delAfter pred m = .ok m' := by
  refine foldlM_total _ (fun _ => True) ?_ _ m hw trivial
  intro m i hw _
  suffices h : ∃ m', afterStep ((_root_.List.filter pred _).map (·.id)) m i = .ok m' by
    obtain ⟨m', h⟩ := h
    exact ⟨m', h, afterStep_reach _ m i m' hw h, trivial⟩
  unfold afterStep
  split
  · exact ⟨m, rfl⟩
  · rename_i n hn
    obtain ⟨hmem, _⟩ := node?_some m i n hn
    split
    · rename_i hf
      obtain ⟨j, hj⟩ := hw.unary n hmem hf
      rw [hj]
      simp only
      split
      · exact remove_total m hw n _ hmem hf
      · exact ⟨m, rfl⟩
    · exact ⟨m, rfl⟩

/-- C49, deletions after operations remove exactly what they should: each
removed node is a fake-quantiser that follows one of the selected nodes, with
at most further fake-quantisers in between, and no fake-quantiser directly after
a selected node is left. -/
theorem C49_after_exact (m m' : GM) (hw : WF m) (pred : Node → Bool)
    (h : delAfter pred m = .ok m') :
    (∀ i, Missing m m' i → ∃ x ∈ m.nodes, x.id = i ∧ isFq m x = true ∧
      ∃ k t, x.args = [.node k] ∧ FqPath m k t ∧ ∃ n ∈ m.nodes, n.id = t ∧ pred n = true) ∧
    (∀ y ∈ m'.nodes, isFq m' y = true → ∀ j, y.args = [.node j] →
      ∀ n ∈ m.nodes, pred n = true → n.id ≠ j) := by
  have hT : ∀ j, j ∈ (m.nodes.filter pred).map (·.id) ↔ ∃ n ∈ m.nodes, n.id = j ∧ pred n = true := by
    intro j
    simp only [List.mem_map, List.mem_filter]
    constructor
    · rintro ⟨n, ⟨h1, h2⟩, h3⟩; exact ⟨n, h1, h3, h2⟩
    · rintro ⟨n, h1, h3, h2⟩; exact ⟨n, ⟨h1, h2⟩, h3⟩
  constructor
  · refine foldlM_missing m hw _ _ ?_ _ m m' .refl ?_ h
    · intro m₁ i m₂ hr hs
      have hw₁ := (rest_of_reach m m₁ hw hr).wf
      refine ⟨afterStep_reach _ m₁ i m₂ hw₁ hs, ?_⟩
      unfold afterStep at hs
      split at hs
      · obtain rfl := Except.ok.inj hs; exact fun k hk => .inl hk
      · rename_i n hn
        obtain ⟨hmem, hid⟩ := node?_some m₁ i n hn
        split at hs
        · rename_i hf
          obtain ⟨j, hj⟩ := hw₁.unary n hmem hf
          rw [hj] at hs
          simp only at hs
          split at hs
          · rename_i hjT
            intro k hk
            rcases missing_remove m m₁ m₂ n _ hs k hk with h | rfl
            · exact .inl h
            · obtain ⟨x, hx, hxid, hxf, t, hxa, hp⟩ :=
                args_singleton m m₁ (rest_of_reach m m₁ hw hr) n hmem j hj
              exact .inr ⟨x, hx, hxid, by rw [hxf, hf], t, j, hxa, hp, (hT j).mp hjT⟩
          · obtain rfl := Except.ok.inj hs; exact fun k hk => .inl hk
        · obtain rfl := Except.ok.inj hs; exact fun k hk => .inl hk
    · rintro k ⟨⟨x, hx, rfl⟩, hno⟩
      exact absurd rfl (hno x hx)
  · intro y hy hf j hj n hn hp hid
    refine after_complete _ _ ?_ m m' hw ?_ h y hy hf j hj ((hT j).mpr ⟨n, hn, hid, hp⟩)
    · rw [List.pairwise_map]; exact hw.sorted
    · intro y hy; exact .inl (List.mem_map.mpr ⟨y, hy, rfl⟩)

/-- C49, deletions before modules: each removed node is a fake-quantiser that
the first argument of one of the selected modules is, or leads to through
fake-quantisers. -/
theorem C49_module_exact (m m' : GM) (hw : WF m) (pats : List Nat)
    (h : delBeforeModule pats m = .ok m') :
    ∀ i, Missing m m' i → Alive m i ∧ ∃ x ∈ m.nodes, isTargetMod pats m x = true ∧
      ∃ k r, x.args = .node k :: r ∧ FqPath m k i := by
  refine foldlM_missing m hw _ _ ?_ _ m m' .refl ?_ h
  · intro m₁ i m₂ hr hs
    have hrest := rest_of_reach m m₁ hw hr
    refine ⟨moduleStep_reach _ m₁ i m₂ hrest.wf hs, ?_⟩
    unfold moduleStep at hs
    split at hs
    · obtain rfl := Except.ok.inj hs; exact fun k hk => .inl hk
    · rename_i n hn
      obtain ⟨hmem, hid⟩ := node?_some m₁ i n hn
      split at hs
      · rename_i htm
        split at hs
        · cases hs
        · rename_i j r hargs
          split at hs
          · cases hs
          · rename_i e he
            obtain ⟨hemem, heid⟩ := node?_some m₁ _ e he
            split at hs
            · rename_i hf
              obtain ⟨j', hj'⟩ := hrest.wf.unary e hemem hf
              rw [hj'] at hs
              simp only at hs
              intro k hk
              rcases missing_remove m m₁ m₂ e _ hs k hk with h | rfl
              · exact .inl h
              · obtain ⟨x, hx, hxid, hop, htg, t, r', hxa, hp⟩ :=
                  args_head m m₁ hrest n hmem j r hargs
                refine .inr ⟨?_, x, hx, ?_, t, r', hxa, by rw [heid]; exact hp⟩
                · obtain ⟨z, hz, hzid, _, _, _, _, hzf⟩ := hrest.from' e hemem
                  exact ⟨z, hz, hzid, by rw [← hzf]; exact hf⟩
                · unfold isTargetMod at htm ⊢
                  rw [hop, htg]
                  cases hg : getMod m₁ n.target with
                  | none => rw [hg] at htm; simp at htm
                  | some v =>
                      rw [getMod_mono m m₁ hr _ v hg]
                      rw [hg] at htm
                      exact htm
            · obtain rfl := Except.ok.inj hs; exact fun k hk => .inl hk
        · cases hs
      · obtain rfl := Except.ok.inj hs; exact fun k hk => .inl hk
  · rintro k ⟨⟨x, hx, rfl⟩, hno⟩
    exact absurd rfl (hno x hx)

/-- C49, deletions before modules succeed when every selected module is called
with a node as its first positional argument. Missing: modules that are called with keywords only, see `C49_module_violated`. -/
theorem C49_module_succeeds_partial (m : GM) (hw : WF m) (pats : List Nat)
    (ha : ∀ n ∈ m.nodes, isTargetMod pats m n = true → ∃ j r, n.args = .node j :: r) :
    ∃ m', delBeforeModule pats m = .ok m' := by
  refine foldlM_total _
    (fun m => ∀ n ∈ m.nodes, isTargetMod pats m n = true → ∃ j r, n.args = .node j :: r)
    ?_ _ m hw ha
  intro m i hw ha
  suffices h : ∃ m', moduleStep pats m i = .ok m' ∧
      ∀ n ∈ m'.nodes, isTargetMod pats m' n = true → ∃ j r, n.args = .node j :: r by
    obtain ⟨m', h, h'⟩ := h
    exact ⟨m', h, moduleStep_reach _ m i m' hw h, h'⟩
  unfold moduleStep
  split
  · exact ⟨m, rfl, ha⟩
  · rename_i n hn
    obtain ⟨hmem, hid⟩ := node?_some m i n hn
    split
    · rename_i htm
      obtain ⟨j, r, hargs⟩ := ha n hmem htm
      rw [hargs]
      simp only
      obtain ⟨e, hemem, heid⟩ := hw.closed n hmem j (by simp [hargs])
      rw [← heid, node?_of_mem m hw e hemem]
      simp only
      split
      · rename_i hf
        obtain ⟨j', hj'⟩ := hw.unary e hemem hf
        rw [hj']
        simp only
        obtain ⟨m', h⟩ := remove_total m hw e (.node j') hemem hf
        refine ⟨m', h, ?_⟩
        have hm := remove_ok m m' e _ h
        intro y hy hty
        rw [hm] at hy
        simp only [List.mem_map, List.mem_filter, bne_iff_ne] at hy
        obtain ⟨x, ⟨hx, hne⟩, rfl⟩ := hy
        have htx : isTargetMod pats m x = true := by
          unfold isTargetMod at hty ⊢
          cases hg : getMod m' x.target with
          | none =>
              rw [show (substNode e.id (.node j') x).target = x.target from rfl, hg] at hty
              simp at hty
          | some v =>
              rw [getMod_mono m m' (.single ⟨e, j', hemem, hf, hj', h⟩) _ v hg]
              rw [show (substNode e.id (.node j') x).target = x.target from rfl, hg] at hty
              exact hty
        obtain ⟨k, r', hk⟩ := ha x hx htx
        simp only [substNode, hk, List.map_cons, substArg]
        split
        · exact ⟨j', _, rfl⟩
        · exact ⟨k, _, rfl⟩
      · exact ⟨m, rfl, ha⟩
    · exact ⟨m, rfl, ha⟩

/-- C49, what a deletion before an operation looks for: all fake-quantisers that
are reached going back from the operation through other operations. -/
theorem C49_found (m : GM) (hw : WF m) (t i : Nat) :
    i ∈ find m (m.nodes.length + 1) t ↔ Up m t i :=
  mem_find m hw _ t i (countP_fuel m t)

/-- C49, deletion before one operation (for instance the output) succeeds
exactly when no fake-quantiser is found along two paths. Missing: several operations, and two paths, see `C49_twice_violated`. -/
theorem C49_before_succeeds_partial (m : GM) (hw : WF m) (p : Op → List Nat → Bool) (t : Node)
    (ht : t ∈ m.nodes) (hp : ∀ n ∈ m.nodes, p n.op n.target = true ↔ n = t) :
    (∃ m', delBefore (fun n => p n.op n.target) m = .ok m') ↔
      (find m (m.nodes.length + 1) t.id).Nodup := by
  rw [before_one m hw p t ht hp, eraseAll_ok _ m hw]
  constructor
  · exact fun h => h.1
  · intro h
    exact ⟨h, fun i hi => up_alive m t.id i ((mem_find m hw _ t.id i (countP_fuel m t.id)).mp hi)⟩

/-- C49 fails: an operation that gets the same fake-quantised value twice makes
the deletion before it raise. -/
theorem C49_twice_violated :
    ∃ m, WF m ∧ delBefore (fun n => n.op == .callFunction && n.target == [20]) m =
      .error .assertion :=
  ⟨addTwice, addTwice_wf, by decide⟩

/-- C49 fails: the fake-quantiser before the convolution is removed although it
is next to no selected operation.  Both users of the fake-quantiser after the
convolution are selected; the second search goes on past the convolution. -/
theorem C49_not_next_violated :
    ∃ m m', WF m ∧ delBefore (fun n => n.op == .callFunction && n.target == [20]) m = .ok m' ∧
      Missing m m' 1 ∧ (∀ n ∈ m.nodes, n.op = .callFunction → n.target = [20] →
        Arg.node 1 ∉ n.args) := by
  refine ⟨twoUsers, ⟨[⟨0, .placeholder, [0], [], []⟩, ⟨2, .callModule, [30], [.node 0], []⟩,
    ⟨4, .callFunction, [20], [.node 2], []⟩, ⟨5, .callFunction, [20], [.node 2], []⟩,
    ⟨6, .callFunction, [21], [.node 4, .node 5], []⟩, ⟨7, .output, [], [.node 6], []⟩],
    [([30], .other 1)]⟩, twoUsers_wf, by decide, ⟨by decide, by decide⟩, by decide⟩

/-- C49 fails: removing one call of a shared fake-quantiser deletes the module
the other call needs. -/
theorem C49_shared_violated :
    ∃ m m', delBefore (fun n => n.op == .output) m = .ok m' ∧
      ∃ n ∈ m'.nodes, n.op = .callModule ∧ getMod m n.target = some .fakeQuant ∧
        getMod m' n.target = none := by
  refine ⟨shared, ⟨[⟨0, .placeholder, [0], [], []⟩, ⟨1, .callModule, [10], [.node 0], []⟩,
    ⟨2, .callModule, [30], [.node 1], []⟩, ⟨4, .output, [], [.node 2], []⟩],
    [([30], .other 1)]⟩, by decide, ⟨1, .callModule, [10], [.node 0], []⟩, by decide, by decide,
    by decide, by decide⟩

/-- C49 fails: a selected module called with keyword arguments raises. -/
theorem C49_module_violated :
    ∃ m, WF m ∧ delBeforeModule [1] m = .error .index :=
  ⟨kwOnly, kwOnly_wf, by decide⟩

/-- The deletions on the graph with two users. -/
example : WF twoUsers ∧
    (∃ m', delAfter (fun n => n.op == .callModule && n.target == [30]) twoUsers = .ok m' ∧
      Missing twoUsers m' 3) ∧
    (∃ m', delBeforeModule [1] twoUsers = .ok m' ∧ Missing twoUsers m' 1) := by
  refine ⟨twoUsers_wf, ?_, ?_⟩
  · refine ⟨_, rfl, ⟨by decide, by decide⟩⟩
  · refine ⟨_, rfl, ⟨by decide, by decide⟩⟩

/-- Exactly one output, found once. -/
example : (∀ n ∈ twoUsers.nodes, (n.op == Op.placeholder) = true ↔
      n = ⟨0, .placeholder, [0], [], []⟩) ∧
    (find twoUsers 9 0).Nodup ∧ ¬ (find twoUsers 9 7).Nodup := by decide

/-- A fake quantiser that is not an attribute of the root cannot be removed: the removal before and
after an operation raises `AttributeError` (`delattr` with a dotted name). -/
theorem C49_nested_refused (m : GM) (i : Nat) (n : Node) (hn : node? m i = some n) (hq : isFq m n = true)
    (hp : n.target.length ≠ 1) :
    (∀ a, n.args = [a] → eraseOne m i = .error .attribute) ∧
    ∀ j targets, n.args = [.node j] → j ∈ targets → afterStep targets m i = .error .attribute := by
  constructor
  · intro a ha
    unfold eraseOne
    rw [hn]; dsimp only
    rw [if_pos hq, ha]
    exact if_neg hp
  · intro j targets ha hj
    unfold afterStep
    rw [hn]; dsimp only
    rw [if_pos hq, ha]
    dsimp only
    rw [if_pos hj]
    exact if_neg hp

/-- All deletions of a quantiser together: only fake-quantisers are gone, everything else is there and computes the same values when the
removed ones are switched off, and no fake-quantiser is left directly after a module, function, method or operation the quantiser or
the configuration lists under `next`. -/
theorem C49_redundant (q e : Redundant) (m m' : GM) (hw : WF m) (h : delRedundant q e m = .ok m') :
    Rest m m' ∧ ∀ y ∈ m'.nodes, isFq m' y = true → ∀ n ∈ m'.nodes, y.args = [.node n.id] →
      (∀ ty, n.op = .callModule → getMod m' n.target = some (.other ty) → ty ∉ q.moduleNext ++ e.moduleNext) ∧
      (n.op = .callFunction → n.target ∉ q.functionNext ++ e.functionNext) ∧
      (n.op = .callMethod → n.target ∉ q.methodNext ++ e.methodNext) ∧
      n.op ∉ q.opNext ++ e.opNext := by
  unfold delRedundant at h
  simp only [Bind.bind, Except.bind] at h
  generalize h1 : delBeforeModule (q.modulePrev ++ e.modulePrev) m = r1 at h
  cases r1 with
  | error _ => cases h
  | ok m1 =>
  dsimp only at h
  generalize h2 : delAfter (isTargetMod (q.moduleNext ++ e.moduleNext) m1) m1 = r2 at h
  cases r2 with
  | error _ => cases h
  | ok m2 =>
  dsimp only at h
  generalize h3 : delBefore (isTarget .callFunction (q.functionPrev ++ e.functionPrev)) m2 = r3 at h
  cases r3 with
  | error _ => cases h
  | ok m3 =>
  dsimp only at h
  generalize h4 : delAfter (isTarget .callFunction (q.functionNext ++ e.functionNext)) m3 = r4 at h
  cases r4 with
  | error _ => cases h
  | ok m4 =>
  dsimp only at h
  generalize h5 : delBefore (isTarget .callMethod (q.methodPrev ++ e.methodPrev)) m4 = r5 at h
  cases r5 with
  | error _ => cases h
  | ok m5 =>
  dsimp only at h
  generalize h6 : delAfter (isTarget .callMethod (q.methodNext ++ e.methodNext)) m5 = r6 at h
  cases r6 with
  | error _ => cases h
  | ok m6 =>
  dsimp only at h
  generalize h7 : delBefore (isOp (q.opPrev ++ e.opPrev)) m6 = r7 at h
  cases r7 with
  | error _ => cases h
  | ok m7 =>
  dsimp only at h
  have after : ∀ {p : Node → Bool} {a b : GM}, WF a → delAfter p a = .ok b → Reach a b := fun hw h =>
    foldlM_reach _ (afterStep_reach _) _ _ _ hw h
  have g1 : Reach m m1 := foldlM_reach _ (moduleStep_reach _) _ m m1 hw h1
  have w1 := reach_wf hw g1
  have g2 : Reach m1 m2 := after w1 h2
  have w2 := reach_wf w1 g2
  have g3 := before_reach _ m2 m3 w2 h3
  have w3 := reach_wf w2 g3
  have g4 : Reach m3 m4 := after w3 h4
  have w4 := reach_wf w3 g4
  have g5 := before_reach _ m4 m5 w4 h5
  have w5 := reach_wf w4 g5
  have g6 : Reach m5 m6 := after w5 h6
  have w6 := reach_wf w5 g6
  have g7 := before_reach _ m6 m7 w6 h7
  have w7 := reach_wf w6 g7
  have g8 : Reach m7 m' := after w7 h
  have r58 : Reach m5 m' := (g6.trans g7).trans g8
  have r38 : Reach m3 m' := (g4.trans g5).trans r58
  have r18 : Reach m1 m' := (g2.trans g3).trans r38
  -- a target of a deletion in `a` does not come directly before a fake-quantiser at the end
  have key : ∀ {p : Node → Bool} {a b : GM}, WF a → delAfter p a = .ok b → Reach b m' →
      ∀ y ∈ m'.nodes, isFq m' y = true → ∀ j, y.args = [.node j] → ∀ x ∈ a.nodes, p x = true → x.id ≠ j := by
    intro p a b hwa hab hbm y hy hf j hj x hx hp hxj
    have hex := (C49_after_exact a b hwa p hab).2
    have hd : ∀ z ∈ b.nodes, Done [x.id] b z := by
      intro z hz hfz k hk hkx
      rw [List.mem_singleton] at hkx
      exact hex z hz hfz k hk x hx hp hkx.symm
    exact reach_done (reach_wf hwa (after hwa hab)) hbm hd y hy hf j hj (by simp [hxj])
  refine ⟨rest_of_reach m m' hw (g1.trans r18), ?_⟩
  intro y hy hf n hn ha
  refine ⟨?_, ?_, ?_, ?_⟩
  · intro ty hop hmod hty
    obtain ⟨x, hx, e1, e2, e3, _⟩ := (rest_of_reach m1 m' w1 r18).from' n hn
    refine key w1 h2 ((g3.trans r38)) y hy hf n.id ha x hx ?_ e1
    unfold isTargetMod
    rw [e2, e3, hop, reach_getMod r18 hmod]
    simpa using hty
  · intro hop ht
    obtain ⟨x, hx, e1, e2, e3, _⟩ := (rest_of_reach m3 m' w3 r38).from' n hn
    refine key w3 h4 (g5.trans r58) y hy hf n.id ha x hx ?_ e1
    unfold isTarget
    rw [e2, e3, hop]
    simpa using ht
  · intro hop ht
    obtain ⟨x, hx, e1, e2, e3, _⟩ := (rest_of_reach m5 m' w5 r58).from' n hn
    refine key w5 h6 (g7.trans g8) y hy hf n.id ha x hx ?_ e1
    unfold isTarget
    rw [e2, e3, hop]
    simpa using ht
  · intro ht
    obtain ⟨x, hx, e1, e2, e3, _⟩ := (rest_of_reach m7 m' w7 g8).from' n hn
    refine key w7 h .refl y hy hf n.id ha x hx ?_ e1
    unfold isOp
    rw [e2]
    simpa using ht

/-- A quantiser that lists nothing, as the native one, leaves every graph as it is. -/
theorem C49_native (m : GM) (hw : WF m) : delRedundant {} {} m = .ok m := by
  have f1 : ∀ n ∈ m.nodes, isTargetMod [] m n = false := by
    intro n _
    unfold isTargetMod
    cases getMod m n.target with
    | none => simp
    | some v => cases v <;> simp
  have f2 : ∀ o, ∀ n ∈ m.nodes, isTarget o [] n = false := by
    intro o n _
    simp [isTarget]
  have f3 : ∀ n ∈ m.nodes, isOp [] n = false := by
    intro n _
    simp [isOp]
  unfold delRedundant
  simp only [List.append_nil, Bind.bind, Except.bind, delBeforeModule_none, delAfter_none _ m f1 hw, delBefore_none _ m (f2 _),
    delAfter_none _ m (f2 _) hw, delBefore_none _ m f3, delAfter_none _ m f3 hw]

/-- C49 fails: the backends remove a fake-quantiser that is neither before an activation nor after a pooling nor before the output.
The one after the pooling goes first, and from the output the search then arrives at the quantiser of the activation, node 5. -/
theorem C49_backend_violated : WF poolNet ∧
    (delRedundant backendRedundant {} poolNet).toOption.map (fun m => m.nodes.map (·.id)) = some [0, 1, 2, 4, 6, 8] ∧
    (poolNet.nodes.filter fun n => decide (Arg.node 5 ∈ n.args)).map (·.target) = [[32]] ∧
    getMod poolNet [32] = some (.other 3) :=
  ⟨poolNet_wf, by decide, by decide, by decide⟩

end Verif.FakeQuantDel
