import Verif.Lemmas.BackendCfg

namespace Verif.BackendCfg

/-! ## Property C103 -/

/-- The entry of a pattern is the last one set for it, whatever was there before. -/
theorem C103_last (t : Table) (cs : List Cfg) (p : Pat) :
    (t.puts cs).get p = (cs.reverse.find? fun e => e.pattern = p).or (t.get p) :=
  get_puts' t cs p

/-- Preparing a network for quantisation-aware training keeps the layers: the modules of the result
compute, one after the other, exactly the operations of the network.  This holds for every table
whose entries compute what they stand for, and all tables of the repository are of that kind. -/
theorem C103_same (t : Table) (hs : Sound t) (l r : List Op) (h : prepare t l = .ok r) :
    r.flatMap parts = l.flatMap parts := by
  unfold prepare at h
  cases hf : fuse t l with
  | error e => rw [hf] at h; cases h
  | ok s =>
    rw [hf] at h
    cases h
    have h1 : s.flatMap parts = l.flatMap parts := by
      unfold fuse at hf
      cases hr : fuseRev t l.reverse with
      | error e => rw [hr] at hf; cases hf
      | ok s' =>
        rw [hr] at hf
        cases hf
        have := fuseRev_parts hs l.reverse.length l.reverse (Nat.le_refl _) s' hr
        rwa [List.reverse_reverse] at this
    rw [← h1, List.flatMap_map]
    congr 1
    funext m
    unfold Table.swap
    cases hg : t.get (.one m) with
    | none => rfl
    | some c =>
      obtain ⟨hc, hp⟩ := get_mem hg
      cases hq : c.qat with
      | none => simp [hq]
      | some q =>
        simp only [Option.bind_some, hq, Option.getD_some]
        exact (hs c hc).2 m q hp hq

theorem C103_sound : ∀ t ∈ tables, Sound t := fun _ h => sound_of (tables_sound h)

/-- A residual stage with a transposed convolution. -/
example : prepare academic [.conv .d2, .bn .d2, .relu .module, .conv .d2, .named "torch.add", .linear, .relu .functional]
    = .ok [.qatConvBnRelu .d2, .qatConv .d2, .named "torch.add", .qatLinearRelu] := by decide +kernel

/-- With every backend a convolution, with or without a following batch norm of its dimension and a
following ReLU called as module or function, becomes the one module made for the combination,
whatever comes before. -/
theorem C103_conv (t : Table) (ht : t ∈ tables) (l : List Op) (d : Dim) (k : Relu) (hk : Fusable k) :
    prepare t (l ++ [.conv d, .bn d, .relu k]) = snoc (prepare t l) (.qatConvBnRelu d) ∧
    prepare t (l ++ [.conv d, .bn d]) = snoc (prepare t l) (.qatConvBn d) ∧
    prepare t (l ++ [.conv d, .relu k]) = snoc (prepare t l) (.qatConvRelu d) := by
  have e1 : ∀ t ∈ tables, ∀ d ∈ [Dim.d1, .d2, .d3], ∀ k ∈ [Relu.module, .functional],
      t.fuser (.three (.relu k) (.bn d) (.conv d)) = some (.ok (.fusedConvBnRelu d)) ∧
      t.fuser (.two (.bn d) (.conv d)) = some (.ok (.fusedConvBn d)) ∧
      t.fuser (.two (.relu k) (.conv d)) = some (.ok (.fusedConvRelu d)) ∧
      t.swap (.fusedConvBnRelu d) = .qatConvBnRelu d ∧ t.swap (.fusedConvBn d) = .qatConvBn d ∧
      t.swap (.fusedConvRelu d) = .qatConvRelu d := by
    intro t ht
    obtain ⟨cs, hc, rfl⟩ := tables_raw ht
    clear ht
    simp only [fuser_puts, swap_puts, get_puts]
    revert cs
    decide +kernel
  obtain ⟨a1, a2, a3, b1, b2, b3⟩ := e1 t ht d (by cases d <;> simp) k (by rcases hk with rfl | rfl <;> simp)
  have n1 : ∀ a c, t.fuser (.three a (.conv d) c) = none := fun a c =>
    three_none (tables_three ht) (by simp)
  refine ⟨?_, ?_, ?_⟩
  · rw [prepare_of_fuse (fuse_three l a1), b1]
  · rw [prepare_of_fuse (fuse_two l (n1 _) a2), b2]
  · rw [prepare_of_fuse (fuse_two l (n1 _) a3), b3]

/-- The same for linear layers, with batch norm or ReLU. -/
theorem C103_linear (t : Table) (ht : t ∈ tables) (l : List Op) (k : Relu) (hk : Fusable k) :
    prepare t (l ++ [.linear, .bn .d1]) = snoc (prepare t l) .qatLinearBn ∧
    prepare t (l ++ [.linear, .relu k]) = snoc (prepare t l) .qatLinearRelu := by
  have e1 : ∀ t ∈ tables, ∀ k ∈ [Relu.module, .functional],
      t.fuser (.two (.bn .d1) .linear) = some (.ok .fusedLinearBn) ∧
      t.fuser (.two (.relu k) .linear) = some (.ok .fusedLinearRelu) ∧
      t.swap .fusedLinearBn = .qatLinearBn ∧ t.swap .fusedLinearRelu = .qatLinearRelu := by
    intro t ht
    obtain ⟨cs, hc, rfl⟩ := tables_raw ht
    clear ht
    simp only [fuser_puts, swap_puts, get_puts]
    revert cs
    decide +kernel
  obtain ⟨a2, a3, b2, b3⟩ := e1 t ht k (by rcases hk with rfl | rfl <;> simp)
  have n1 : ∀ a c, t.fuser (.three a .linear c) = none := fun a c => three_none (tables_three ht) (by simp)
  refine ⟨?_, ?_⟩
  · rw [prepare_of_fuse (fuse_two l (n1 _) a2), b2]
  · rw [prepare_of_fuse (fuse_two l (n1 _) a3), b3]

/-- DISAGREEMENT: a linear layer with batch norm and ReLU becomes no single module: the batch norm
and the ReLU are left over or fused without the linear layer, and the linear layer alone is
prepared. -/
theorem C103_linear_bn_relu_violated (l : List Op) (k : Relu) (hk : Fusable k) :
    ∀ t ∈ tables, prepare t (l ++ [.linear, .bn .d1, .relu k])
      = snoc (snoc (prepare t l) .qatLinearBn) (.relu k) := by
  intro t ht
  have e1 : ∀ t ∈ tables, ∀ k ∈ [Relu.module, .functional],
      t.fuser (.two (.relu k) (.bn .d1)) = none ∧ t.swap (.relu k) = .relu k := by
    intro t ht
    obtain ⟨cs, hc, rfl⟩ := tables_raw ht
    clear ht
    simp only [fuser_puts, swap_puts, get_puts]
    revert cs
    decide +kernel
  obtain ⟨a1, a2⟩ := e1 t ht k (by rcases hk with rfl | rfl <;> simp)
  have n1 : ∀ c, c ≠ .conv .d1 → t.fuser (.three (.relu k) (.bn .d1) c) = none := fun c hc =>
    three_none (tables_three ht) (by rintro d ⟨hd, rfl⟩; cases hd; exact hc rfl)
  have hf : fuse t (l ++ [.linear, .bn .d1, .relu k]) = snoc (fuse t (l ++ [.linear, .bn .d1])) (.relu k) := by
    unfold fuse
    have e : (l ++ [Op.linear, .bn .d1, .relu k]).reverse = .relu k :: .bn .d1 :: .linear :: l.reverse := by simp
    have e' : (l ++ [Op.linear, .bn .d1]).reverse = .bn .d1 :: .linear :: l.reverse := by simp
    rw [e, e', fuseRev, n1 .linear (by simp)]
    dsimp only
    rw [a1]
    dsimp only
    cases fuseRev t (.bn .d1 :: .linear :: l.reverse) with
    | error e => rfl
    | ok s => simp [join, snoc]
  rw [prepare_of_fuse hf, a2, (C103_linear t ht l k hk).1]

/-- DISAGREEMENT: a ReLU called as `torch.relu` or as the method of a tensor is not fused with its
convolution. -/
theorem C103_relu_violated (t : Table) (ht : t ∈ tables) (l : List Op) (d : Dim) (k : Relu) (hk : ¬ Fusable k) :
    fuse t (l ++ [.conv d, .relu k]) = snoc (fuse t (l ++ [.conv d])) (.relu k) := by
  have e1 : ∀ t ∈ tables, ∀ d ∈ [Dim.d1, .d2, .d3], ∀ k ∈ [Relu.torch, .method],
      t.fuser (.two (.relu k) (.conv d)) = none := by
    intro t ht
    obtain ⟨cs, hc, rfl⟩ := tables_raw ht
    clear ht
    simp only [fuser_puts, swap_puts, get_puts]
    revert cs
    decide +kernel
  have hk' : k ∈ [Relu.torch, .method] := by
    cases k <;> simp [Fusable] at hk ⊢
  exact fuse_one l (fun c => three_none (tables_three ht) (by simp)) (e1 t ht d (by cases d <;> simp) k hk')

/-- DISAGREEMENT: with every backend a network with a transposed convolution followed by batch norm
cannot be prepared: all backends list the pair for fusion, and its fusion raises in
quantisation-aware training, which is what preparing asks for. -/
theorem C103_transposed_fails (t : Table) (ht : t ∈ tables) (l : List Op) (d : Dim) :
    prepare t (l ++ [.convT d, .bn d]) = .error .runtime := by
  have e1 : ∀ t ∈ tables, ∀ d ∈ [Dim.d1, .d2, .d3],
      t.fuser (.two (.bn d) (.convT d)) = some (.error .runtime) := by
    intro t ht
    obtain ⟨cs, hc, rfl⟩ := tables_raw ht
    clear ht
    simp only [fuser_puts, swap_puts, get_puts]
    revert cs
    decide +kernel
  have := fuse_two_error l (fun c => three_none (tables_three ht) (by simp)) (e1 t ht d (by cases d <;> simp))
  unfold prepare
  rw [this]

/-- With a ReLU after it the batch norm goes with the ReLU for the native backend in two and three
dimensions, and the network can be prepared; with the other backends it still fails. -/
theorem C103_transposed_relu (l : List Op) (d : Dim) (k : Relu) (hk : Fusable k) :
    (d ≠ .d1 → prepare native (l ++ [.convT d, .bn d, .relu k])
      = snoc (prepare native (l ++ [.convT d])) (.fusedBnRelu d)) ∧
    ∀ t ∈ [openvino, tensorrt, academic], prepare t (l ++ [.convT d, .bn d, .relu k]) = .error .runtime := by
  have n1 : ∀ t ∈ tables, t.fuser (.three (.relu k) (.bn d) (.convT d)) = none := fun t ht =>
    three_none (tables_three ht) (by simp)
  have e : (l ++ [Op.convT d, .bn d, .relu k]).reverse = .relu k :: .bn d :: .convT d :: l.reverse := by simp
  refine ⟨fun hd => ?_, ?_⟩
  · have e1 : ∀ d ∈ [Dim.d2, .d3], ∀ k ∈ [Relu.module, .functional],
        native.fuser (.two (.relu k) (.bn d)) = some (.ok (.fusedBnRelu d)) ∧
        native.swap (.fusedBnRelu d) = .fusedBnRelu d := by
      rw [native_eq]
      simp only [fuser_puts, swap_puts]
      decide +kernel
    obtain ⟨a1, a2⟩ := e1 d (by cases d <;> simp at hd ⊢) k (by rcases hk with rfl | rfl <;> simp)
    have hf : fuse native (l ++ [.convT d, .bn d, .relu k]) = snoc (fuse native (l ++ [.convT d])) (.fusedBnRelu d) := by
      unfold fuse
      have e' : (l ++ [Op.convT d]).reverse = .convT d :: l.reverse := by simp
      rw [e, e', fuseRev, n1 native (by simp [tables])]
      dsimp only
      rw [a1]
      dsimp only
      cases fuseRev native (.convT d :: l.reverse) with
      | error e => rfl
      | ok s => simp [join, snoc]
    rw [prepare_of_fuse hf, a2]
  · have e1 : ∀ t ∈ [openvino, tensorrt, academic], ∀ d ∈ [Dim.d1, .d2, .d3], ∀ k ∈ [Relu.module, .functional],
        t.fuser (.two (.relu k) (.bn d)) = none := by
      rw [openvino_eq, tensorrt_eq, academic_eq]
      simp only [List.forall_mem_cons, fuser_puts]
      decide +kernel
    intro t ht
    have ht' : t ∈ tables := List.mem_cons_of_mem _ ht
    have a1 := e1 t ht d (by cases d <;> simp) k (by rcases hk with rfl | rfl <;> simp)
    have h0 : fuse t (l ++ [.convT d, .bn d]) = .error .runtime := by
      have := C103_transposed_fails t ht' l d
      unfold prepare at this
      cases hf : fuse t (l ++ [.convT d, .bn d]) with
      | error e => rw [hf] at this; exact this
      | ok r => rw [hf] at this; cases this
    have hf : fuse t (l ++ [.convT d, .bn d, .relu k]) = snoc (fuse t (l ++ [.convT d, .bn d])) (.relu k) := by
      unfold fuse
      have e' : (l ++ [Op.convT d, .bn d]).reverse = .bn d :: .convT d :: l.reverse := by simp
      rw [e, e', fuseRev, n1 t ht']
      dsimp only
      rw [a1]
      dsimp only
      cases fuseRev t (.bn d :: .convT d :: l.reverse) with
      | error e => rfl
      | ok s => simp [join, snoc]
    unfold prepare
    rw [hf, h0]
    rfl

/-- DISAGREEMENT: the academic quantizer fuses with the patterns of the native backend, not its own:
batch norm with ReLU becomes a module for which its own configuration has no entry, while its own
configuration would leave them alone. -/
theorem C103_academic_violated (l : List Op) (d : Dim) (k : Relu) (hk : Fusable k) (hd : d ≠ .d1) (n : String) :
    academic.get (.one (.fusedBnRelu d)) = none ∧
    (∀ r, fuse native (l ++ [.named n]) = .ok r →
      prepareAcademic (l ++ [.named n, .bn d, .relu k]) = .ok (r.map academic.swap ++ [.fusedBnRelu d])) ∧
    (fuse academic (l ++ [.named n, .bn d, .relu k])
      = snoc (fuse academic (l ++ [.named n, .bn d])) (.relu k)) := by
  have e1 : ∀ d ∈ [Dim.d2, .d3], ∀ k ∈ [Relu.module, .functional],
      academic.get (.one (.fusedBnRelu d)) = none ∧
      native.fuser (.two (.relu k) (.bn d)) = some (.ok (.fusedBnRelu d)) ∧
      academic.fuser (.two (.relu k) (.bn d)) = none ∧ academic.swap (.fusedBnRelu d) = .fusedBnRelu d := by
    rw [academic_eq, native_eq]
    simp only [fuser_puts, swap_puts, get_puts]
    decide +kernel
  obtain ⟨a1, a2, a3, a4⟩ := e1 d (by cases d <;> simp at hd ⊢) k (by rcases hk with rfl | rfl <;> simp)
  have n1 : ∀ t ∈ tables, t.fuser (.three (.relu k) (.bn d) (.named n)) = none := fun t ht =>
    three_none (tables_three ht) (by simp)
  have e : (l ++ [Op.named n, .bn d, .relu k]).reverse = .relu k :: .bn d :: .named n :: l.reverse := by simp
  refine ⟨a1, fun r hr => ?_, ?_⟩
  · unfold prepareAcademic
    have hf : fuse native (l ++ [.named n, .bn d, .relu k]) = snoc (fuse native (l ++ [.named n])) (.fusedBnRelu d) := by
      unfold fuse
      have e' : (l ++ [Op.named n]).reverse = .named n :: l.reverse := by simp
      rw [e, e', fuseRev, n1 native (by simp [tables])]
      dsimp only
      rw [a2]
      dsimp only
      cases fuseRev native (.named n :: l.reverse) with
      | error e => rfl
      | ok s => simp [join, snoc]
    rw [hf, hr]
    simp [snoc, a4]
  · unfold fuse
    have e' : (l ++ [Op.named n, .bn d]).reverse = .bn d :: .named n :: l.reverse := by simp
    rw [e, e', fuseRev, n1 academic (by simp [tables])]
    dsimp only
    rw [a3]
    dsimp only
    cases fuseRev academic (.bn d :: .named n :: l.reverse) with
    | error e => rfl
    | ok s => simp [join, snoc]

/-- A batch norm with ReLU after an addition. -/
example : fuse native ([] ++ [.named "torch.add"]) = .ok [.named "torch.add"] := by
  unfold fuse
  rw [List.nil_append, List.reverse_singleton, fuseRev]
  rfl

/-- Every module for quantisation-aware training that a table puts in has an entry of its own in
that table, with the root and the reference module of the layer it is made of. -/
theorem C103_chain : ∀ t ∈ tables, ∀ c ∈ t, ∀ q, c.qat = some q →
    ∃ c' r, t.get (.one q) = some c' ∧ c'.root = some r ∧ (parts q).head? = some r ∧
      (c'.ref = some (.refLinear) ∧ r = .linear ∨ (∃ d, c'.ref = some (.refConv d) ∧ r = .conv d) ∨
        ∃ n, c'.ref = some (.refNamed n) ∧ r = .named n) := by
  have key : ∀ t ∈ tables, ∀ c ∈ t, (match c.qat with
      | none => true
      | some q =>
        match t.get (.one q) with
        | none => false
        | some c' =>
          match c'.root, c'.ref with
          | some .linear, some .refLinear => (parts q).head? == some .linear
          | some (.conv d), some (.refConv d') => d == d' && (parts q).head? == some (.conv d)
          | some (.named n), some (.refNamed n') => n == n' && (parts q).head? == some (.named n)
          | _, _ => false) = true := by
    intro t ht c hcc
    obtain ⟨cs, hc, rfl⟩ := tables_raw ht
    clear ht
    simp only [get_puts]
    have hm := mem_puts hcc
    clear hcc
    revert c
    revert cs
    decide +kernel
  intro t ht c hc q hq
  have := key t ht c hc
  rw [hq] at this
  dsimp only at this
  cases hg : t.get (.one q) with
  | none => rw [hg] at this; cases this
  | some c' =>
    rw [hg] at this
    dsimp only at this
    split at this
    · rename_i h1 h2
      exact ⟨c', _, rfl, h1, by simpa using this, Or.inl ⟨h2, rfl⟩⟩
    · rename_i d d' h1 h2
      rw [Bool.and_eq_true] at this
      have hd : d = d' := by simpa using this.1
      subst hd
      exact ⟨c', _, rfl, h1, by simpa using this.2, Or.inr (Or.inl ⟨d, h2, rfl⟩)⟩
    · rename_i n n' h1 h2
      rw [Bool.and_eq_true] at this
      have hn : n = n' := by simpa using this.1
      subst hn
      exact ⟨c', _, rfl, h1, by simpa using this.2, Or.inr (Or.inr ⟨n, h2, rfl⟩)⟩
    · cases this

/-- DISAGREEMENT: the fused convolution with ReLU is entered twice, and the second entry, without
root and reference module, replaces the first, which has them; the fused linear layer with ReLU
keeps its own. -/
theorem C103_twice_violated (t : Table) (ht : t ∈ tables) (d : Dim) (dt : List DT) :
    (∃ c ∈ convOps dt, c.pattern = .one (.fusedConvRelu d) ∧ c.root = some (.conv d) ∧ c.ref = some (.refConv d)) ∧
    (∃ c, t.get (.one (.fusedConvRelu d)) = some c ∧ c.root = none ∧ c.ref = none) ∧
    (∃ c, t.get (.one .fusedLinearRelu) = some c ∧ c.root = some .linear ∧ c.ref = some .refLinear) := by
  refine ⟨?_, ?_, ?_⟩
  · refine ⟨{ pattern := .one (.fusedConvRelu d), dtypes := dt, root := some (.conv d), ref := some (.refConv d), qat := some (.qatConvRelu d) }, ?_, rfl, rfl, rfl⟩
    unfold convOps
    rw [List.mem_flatMap]
    exact ⟨d, by cases d <;> simp, by simp [convOpsOf]⟩
  · have e1 : ∀ t ∈ tables, ∀ d ∈ [Dim.d1, .d2, .d3],
        ((t.get (.one (.fusedConvRelu d))).map fun c => (c.root, c.ref)) = some (none, none) := by
      intro t ht
      obtain ⟨cs, hc, rfl⟩ := tables_raw ht
      clear ht
      simp only [fuser_puts, swap_puts, get_puts]
      revert cs
      decide +kernel
    have := e1 t ht d (by cases d <;> simp)
    cases hg : t.get (.one (.fusedConvRelu d)) with
    | none => rw [hg] at this; cases this
    | some c =>
      rw [hg] at this
      simp at this
      exact ⟨c, rfl, this.1, this.2⟩
  · have e1 : ∀ t ∈ tables,
        ((t.get (.one .fusedLinearRelu)).map fun c => (c.root, c.ref)) = some (some .linear, some .refLinear) := by
      intro t ht
      obtain ⟨cs, hc, rfl⟩ := tables_raw ht
      clear ht
      simp only [fuser_puts, swap_puts, get_puts]
      revert cs
      decide +kernel
    have := e1 t ht
    cases hg : t.get (.one .fusedLinearRelu) with
    | none => rw [hg] at this; cases this
    | some c =>
      rw [hg] at this
      simp at this
      exact ⟨c, rfl, this.1, this.2⟩

/-- Deployment knows every module that the tables of the academic, OpenVINO and TensorRT backends put
in. Missing: the native backend, see `C103_embedding_violated`. -/
theorem C103_supported_partial : ∀ t ∈ [openvino, tensorrt, academic], ∀ c ∈ t, ∀ q, c.qat = some q → q ∈ supported := by
  have key : ∀ t ∈ [openvino, tensorrt, academic], ∀ c ∈ t, (match c.qat with
      | none => true
      | some q => supported.contains q) = true := by
    intro t ht c hcc
    have key : ∀ cs ∈ [rawOpenvino, rawTensorrt, rawAcademic], ∀ c ∈ cs, (match c.qat with
      | none => true
      | some q => supported.contains q) = true := by decide +kernel
    simp only [List.mem_cons, List.not_mem_nil, or_false] at ht
    rcases ht with h | h | h
    · rw [h, openvino_eq] at hcc; exact key _ (by simp) c (mem_puts hcc)
    · rw [h, tensorrt_eq] at hcc; exact key _ (by simp) c (mem_puts hcc)
    · rw [h, academic_eq] at hcc; exact key _ (by simp) c (mem_puts hcc)
  intro t ht c hc q hq
  have := key t ht c hc
  rw [hq] at this
  simpa using this

/-- DISAGREEMENT: for the native backend embeddings are exchanged as well, but deployment does not
know them and leaves them in the deployed network as they are. -/
theorem C103_embedding_violated (n : String) (hn : n = "Embedding" ∨ n = "EmbeddingBag") :
    native.swap (.named n) = .qatNamed n ∧ .qatNamed n ∉ supported ∧ deploy (.qatNamed n) = .qatNamed n := by
  rw [native_eq, swap_puts]
  rcases hn with rfl | rfl <;> decide +kernel

/-- Deployment of a supported module: the batch norm is folded into the layer and the rest stays; it
is again a supported module, and deploying it again changes nothing. -/
theorem C103_deploy : ∀ m ∈ supported, parts (deploy m) = (parts m).filter (fun o => o ∉ [Op.bn .d1, .bn .d2, .bn .d3]) ∧
    deploy m ∈ supported ∧ deploy (deploy m) = deploy m := by
  decide +kernel

/-- Everything else is left alone. -/
theorem C103_deploy_other (m : Op) (h : m ∉ supported) : deploy m = m := by
  unfold deploy
  rw [if_neg (by simpa using h)]

/-- DISAGREEMENT: for these layers the function has an entry in the native table, the module none:
whether a network is quantised there depends on how the layer is called. -/
theorem C103_forms_violated :
    ∀ p ∈ [("F.relu6", "nn.ReLU6"), ("F.group_norm", "nn.GroupNorm"), ("F.interpolate", "nn.Upsample"), ("torch.flatten", "nn.Flatten")],
      (native.get (.one (.named p.1))).isSome = true ∧ native.get (.one (.named p.2)) = none := by
  rw [native_eq]
  simp only [get_puts]
  decide +kernel

/-- For these layers both forms have entries, with the same numbers and observation. Missing: the other layers, see
`C103_forms_violated`. -/
theorem C103_forms_partial :
    ∀ p ∈ [("F.elu", "nn.ELU"), ("F.hardswish", "nn.Hardswish"), ("F.leaky_relu", "nn.LeakyReLU"), ("F.dropout", "nn.Dropout"),
        ("F.layer_norm", "nn.LayerNorm"), ("F.instance_norm", "nn.InstanceNorm2d"), ("F.hardsigmoid", "nn.Hardsigmoid"),
        ("torch.sigmoid", "nn.Sigmoid"), ("torch.tanh", "nn.Tanh"), ("F.hardtanh", "nn.Hardtanh"),
        ("torch.adaptive_avg_pool1d", "nn.AdaptiveAvgPool1d"), ("F.adaptive_avg_pool2d", "nn.AdaptiveAvgPool2d"),
        ("F.adaptive_avg_pool3d", "nn.AdaptiveAvgPool3d"), ("torch.avg_pool1d", "nn.AvgPool1d"), ("torch.avg_pool2d", "nn.AvgPool2d"),
        ("torch.avg_pool3d", "nn.AvgPool3d"), ("F.max_pool1d", "nn.MaxPool1d"), ("F.max_pool2d", "nn.MaxPool2d"),
        ("F.max_pool3d", "nn.MaxPool3d")],
      ∃ c c', native.get (.one (.named p.1)) = some c ∧ native.get (.one (.named p.2)) = some c' ∧
        c.dtypes = c'.dtypes ∧ c.obs = c'.obs ∧ c.fixed = c'.fixed := by
  intro p hp
  have key : ∀ p ∈ [("F.elu", "nn.ELU"), ("F.hardswish", "nn.Hardswish"), ("F.leaky_relu", "nn.LeakyReLU"), ("F.dropout", "nn.Dropout"),
        ("F.layer_norm", "nn.LayerNorm"), ("F.instance_norm", "nn.InstanceNorm2d"), ("F.hardsigmoid", "nn.Hardsigmoid"),
        ("torch.sigmoid", "nn.Sigmoid"), ("torch.tanh", "nn.Tanh"), ("F.hardtanh", "nn.Hardtanh"),
        ("torch.adaptive_avg_pool1d", "nn.AdaptiveAvgPool1d"), ("F.adaptive_avg_pool2d", "nn.AdaptiveAvgPool2d"),
        ("F.adaptive_avg_pool3d", "nn.AdaptiveAvgPool3d"), ("torch.avg_pool1d", "nn.AvgPool1d"), ("torch.avg_pool2d", "nn.AvgPool2d"),
        ("torch.avg_pool3d", "nn.AvgPool3d"), ("F.max_pool1d", "nn.MaxPool1d"), ("F.max_pool2d", "nn.MaxPool2d"),
        ("F.max_pool3d", "nn.MaxPool3d")],
      (match native.get (.one (.named p.1)), native.get (.one (.named p.2)) with
        | some c, some c' => c.dtypes == c'.dtypes && c.obs == c'.obs && c.fixed == c'.fixed
        | _, _ => false) = true := by
    rw [native_eq]
    simp only [get_puts]
    decide +kernel
  have := key p hp
  cases h1 : native.get (.one (.named p.1)) with
  | none => rw [h1] at this; cases this
  | some c =>
    cases h2 : native.get (.one (.named p.2)) with
    | none => rw [h1, h2] at this; cases this
    | some c' =>
      rw [h1, h2] at this
      simp at this
      exact ⟨c, c', rfl, rfl, this.1.1, this.1.2, this.2⟩

/-- Where the weight of a function stands among its arguments: the tables have the positions of the
signatures `conv(input, weight, bias)`, `linear(input, weight, bias)`,
`layer_norm(input, shape, weight, bias)`, `group_norm(input, groups, weight, bias)`,
`instance_norm(input, mean, var, weight, bias)` and `addmm(bias, input, weight)`. -/
theorem C103_positions :
    (∀ p ∈ [(Op.funConv .d1, ["input", "weight", "bias"]), (.funConv .d2, ["input", "weight", "bias"]), (.funConv .d3, ["input", "weight", "bias"]),
        (.funLinear, ["input", "weight", "bias"]), (.named "F.layer_norm", ["input", "shape", "weight", "bias"]),
        (.named "F.group_norm", ["input", "groups", "weight", "bias"]), (.named "F.instance_norm", ["input", "mean", "var", "weight", "bias"])],
      ((native.get (.one p.1)).map fun c => c.index.map fun i => (i.1, p.2[i.2]?)) = some [("weight", some "weight"), ("bias", some "bias")]) ∧
    ∀ t ∈ [openvino, tensorrt],
      ((t.get (.one (.named "torch.addmm"))).map fun c => c.index.map fun i => (i.1, ["bias", "input", "weight"][i.2]?))
        = some [("bias", some "bias"), ("input", some "input"), ("weight", some "weight")] := by
  rw [native_eq, openvino_eq, tensorrt_eq]
  simp only [get_puts]
  refine ⟨by decide +kernel, ?_⟩
  simp only [List.forall_mem_cons, get_puts]
  decide +kernel

/-- The numbers: for TensorRT signed throughout; for the other backends the activations of layers
with weights are unsigned and the weights signed. -/
theorem C103_numbers :
    (∀ c ∈ tensorrt, c.dtypes = [signed8]) ∧ (∀ c ∈ academic, c.dtypes = [weighted]) ∧
    (∀ t ∈ [native, openvino], ∀ d ∈ [Dim.d1, .d2, .d3], ∀ o ∈ [Op.conv d, .qatConv d, .qatConvBn d, .qatConvBnRelu d, .qatConvRelu d, .convT d],
      (t.get (.one o)).map Cfg.dtypes = some [weighted]) := by
  rw [native_eq, openvino_eq, tensorrt_eq, academic_eq]
  have h1 : ∀ c ∈ rawTensorrt, c.dtypes = [signed8] := by decide +kernel
  have h2 : ∀ c ∈ rawAcademic, c.dtypes = [weighted] := by decide +kernel
  refine ⟨fun c hc => h1 c (mem_puts hc), fun c hc => h2 c (mem_puts hc), ?_⟩
  have h3 : ∀ cs ∈ [rawNative, rawOpenvino], ∀ d ∈ [Dim.d1, .d2, .d3], ∀ o ∈ [Op.conv d, .qatConv d, .qatConvBn d, .qatConvBnRelu d, .qatConvRelu d, .convT d],
      (look cs (.one o)).map Cfg.dtypes = some [weighted] := by decide +kernel
  intro t ht
  simp only [List.mem_cons, List.not_mem_nil, or_false] at ht
  rcases ht with h | h
  · rw [h]; simp only [get_puts]; exact h3 rawNative (by simp)
  · rw [h]; simp only [get_puts]; exact h3 rawOpenvino (by simp)

/-- A binary operation with one tensor shares the observer of its input, with two it has its own. -/
theorem C103_binary : ∀ t ∈ [native, openvino], ∀ n ∈ ["operator.add", "torch.add", "operator.mul", "torch.mul"],
    (t.get (.one (.named n))).map Cfg.obs = some (.byArgs .different .share .different) := by
  have h3 : ∀ cs ∈ [rawNative, rawOpenvino], ∀ n ∈ ["operator.add", "torch.add", "operator.mul", "torch.mul"],
      (look cs (.one (.named n))).map Cfg.obs = some (.byArgs .different .share .different) := by decide +kernel
  rw [native_eq, openvino_eq]
  intro t ht
  simp only [List.mem_cons, List.not_mem_nil, or_false] at ht
  rcases ht with h | h
  · rw [h]; simp only [get_puts]; exact h3 rawNative (by simp)
  · rw [h]; simp only [get_puts]; exact h3 rawOpenvino (by simp)

/-- What moves values shares the observer of its input, so that both sides have the same
parameters; a layer with a fixed range has fixed parameters, and no other. -/
theorem C103_observers :
    (∀ n ∈ moving, (native.get (.one (.named n))).map Cfg.obs = some .share ∧
      (openvino.get (.one (.named n))).map Cfg.obs = some .share) ∧
    (∀ k, (native.get (.one (.relu k))).map Cfg.obs = if k = .torch then none else some .share) ∧
    (∀ n ∈ bounded, (native.get (.one (.named n))).map Cfg.fixed = some true) ∧
    (∀ c ∈ native, c.fixed = true → ∃ n, c.pattern = .one (.named n) ∧ (n ∈ bounded ∨ n ∈ bounded.map (· ++ "_") ∨ n = "hardsigmoid" ∨ n = "hardsigmoid_")) := by
  rw [native_eq, openvino_eq]
  simp only [get_puts]
  refine ⟨by decide +kernel, ?_, by decide +kernel, ?_⟩
  · have h : ∀ k ∈ [Relu.module, .functional, .torch, .method],
        (look rawNative (.one (.relu k))).map Cfg.obs = if k = .torch then none else some .share := by decide +kernel
    exact fun k => h k (by cases k <;> simp)
  · have h : ∀ c ∈ rawNative, c.fixed = true → (match c.pattern with
        | .one (.named n) => decide (n ∈ bounded ∨ n ∈ bounded.map (· ++ "_") ∨ n = "hardsigmoid" ∨ n = "hardsigmoid_")
        | _ => false) = true := by decide +kernel
    intro c hc hf
    have := h c (mem_puts hc) hf
    split at this
    · rename_i n hn
      exact ⟨n, hn, of_decide_eq_true this⟩
    · cases this

/-- Recurrent layers have their own reference layers and are quantised while running only. -/
theorem C103_recurrent : ∀ n ∈ ["LSTM", "LSTMCell", "GRUCell", "RNNCell"],
    (native.get (.one (.named n))).map (fun c => (c.root, c.ref, c.dtypes.all (·.dynamic)))
      = some (some (.named n), some (.refNamed n), true) := by
  rw [native_eq]
  simp only [get_puts]
  decide +kernel

/-- The functional calls of convolution and linear layer, followed by ReLU as module or function, are
quantised as one operation without being exchanged. -/
theorem C103_functional : ∀ t ∈ tables, ∀ k ∈ [Relu.module, .functional],
    ∀ o ∈ [Op.funConv .d1, .funConv .d2, .funConv .d3, .funLinear],
      ((t.get (.two (.relu k) o)).map fun c => (c.fuse.isNone, c.qat)) = some (true, none) ∧ (t.get (.one o)).isSome = true := by
  intro t ht
  obtain ⟨cs, hc, rfl⟩ := tables_raw ht
  clear ht
  simp only [get_puts]
  revert cs
  decide +kernel

/-- The tables by name; DISAGREEMENT with the check of the quantizers, which accept every torch from
1.13.0 on: for later versions than 1.13.1 no backend has a table. -/
theorem C103_versions_violated (n : String) (h : n ∈ ["academic", "native", "tensorrt", "openvino"]) :
    (∃ t ∈ tables, backendConfigs true n = .ok (some t)) ∧ backendConfigs false n = .ok none := by
  simp only [List.mem_cons, List.not_mem_nil, or_false] at h
  rcases h with rfl | rfl | rfl | rfl
  · exact ⟨⟨academic, by simp [tables], rfl⟩, rfl⟩
  · exact ⟨⟨native, by simp [tables], rfl⟩, rfl⟩
  · exact ⟨⟨tensorrt, by simp [tables], rfl⟩, rfl⟩
  · exact ⟨⟨openvino, by simp [tables], rfl⟩, rfl⟩

/-- The inputs and outputs of every layer are observed, except those of embeddings, plain or for
quantisation-aware training, and whenever an entry is not observed its weights alone are quantised. -/
theorem C103_unobserved : ∀ t ∈ tables, ∀ c ∈ t,
    (c.observed = false ↔ ∃ n ∈ ["Embedding", "EmbeddingBag"], c.pattern = .one (.named n) ∨ c.pattern = .one (.qatNamed n)) ∧
    (c.observed = false → ∀ d ∈ c.dtypes, d.input = .float ∧ d.output = .float ∧ d.weight ≠ some .float) := by
  intro t ht c hcc
  obtain ⟨cs, hc, rfl⟩ := tables_raw ht
  clear ht
  have hm := mem_puts hcc
  clear hcc
  revert c
  revert cs
  decide +kernel

/-- The native table has such entries, and others. -/
example : (native.get (.one (.named "EmbeddingBag"))).map (·.observed) = some false ∧
    (native.get (.one (.named "LSTM"))).map (·.observed) = some true := by decide +kernel

/-- Every other name than those of the four backends is a `KeyError`, and those never are. -/
theorem C103_names (is113 : Bool) (n : String) :
    backendConfigs is113 n = .error .key ↔ n ∉ ["academic", "native", "tensorrt", "openvino"] := by
  unfold backendConfigs
  split_ifs <;> simp_all

example : backendConfigs true "onnx" = .error .key := (C103_names _ _).2 (by decide)

end Verif.BackendCfg
