import Verif.Lemmas.OnnxExport

/-! C71: exporting quantised ONNX models. -/

namespace Verif.Onnx
open Verif GptqQuantizer

/-! ## Specification -/

/-! ## Rounding -/

/-- OpenVINO's operator, given the range `[(qmin - z)·s, (qmax - z)·s]`, does what the fake quantiser does,
away from the middles between two steps (and there, too, when zero point and smallest integer are both even or
both odd). Missing: the other middles, see `C71_tie_violated`. -/
theorem C71_scalar_partial {s : ℚ} (hs : 0 < s) {z qmin qmax : ℤ} (hq : qmin < qmax) {x : ℚ}
    (h : ¬ Tie s x ∨ Even (z - qmin)) :
    ovRef (((qmin - z : ℤ) : ℚ) * s) (((qmax - z : ℤ) : ℚ) * s) (qmax - qmin + 1) x = fakeRef s z qmin qmax x :=
  ov_scalar hs hq h

/-- It is never off by more than one step. -/
theorem C71_scalar_near {s : ℚ} (hs : 0 < s) {z qmin qmax : ℤ} (hq : qmin < qmax) (x : ℚ) :
    |ovRef (((qmin - z : ℤ) : ℚ) * s) (((qmax - z : ℤ) : ℚ) * s) (qmax - qmin + 1) x - fakeRef s z qmin qmax x| ≤ s := by
  by_cases h1 : x ≤ ((qmin - z : ℤ) : ℚ) * s
  · rw [ov_outside hs hq (Or.inl h1)]; simpa using hs.le
  by_cases h2 : ((qmax - z : ℤ) : ℚ) * s < x
  · rw [ov_outside hs hq (Or.inr h2)]; simpa using hs.le
  obtain ⟨e1, e2⟩ := ov_inside hs hq (not_le.1 h1) (not_lt.1 h2)
  rw [e1, e2, ← sub_mul, abs_mul, abs_of_pos hs]
  have h3 := rhe_shift_near (x / s) (z - qmin)
  have h4 : |((rhe (x / s + ((z - qmin : ℤ) : ℚ)) - (rhe (x / s) + (z - qmin)) : ℤ) : ℚ)| ≤ 1 := by exact_mod_cast h3
  have e : ((rhe (x / s + ((z - qmin : ℤ) : ℚ)) + (qmin - z) : ℤ) : ℚ) - (rhe (x / s) : ℚ) =
      ((rhe (x / s + ((z - qmin : ℤ) : ℚ)) - (rhe (x / s) + (z - qmin)) : ℤ) : ℚ) := by push_cast; ring
  rw [e]
  nlinarith

/-- DISAGREEMENT: at every middle between two steps inside the range, the exported operator is a whole step
off, if one of zero point and smallest integer is even and the other odd (symmetric weights from -127, say). -/
theorem C71_tie_violated {s : ℚ} (hs : 0 < s) {z qmin qmax : ℤ} (hq : qmin < qmax) (hodd : Odd (z - qmin)) {j : ℤ}
    (h1 : qmin - z ≤ j) (h2 : j < qmax - z) :
    |ovRef (((qmin - z : ℤ) : ℚ) * s) (((qmax - z : ℤ) : ℚ) * s) (qmax - qmin + 1) (((j : ℚ) + 1 / 2) * s) -
      fakeRef s z qmin qmax (((j : ℚ) + 1 / 2) * s)| = s := by
  have a : ((qmin - z : ℤ) : ℚ) * s < ((j : ℚ) + 1 / 2) * s := by
    refine mul_lt_mul_of_pos_right ?_ hs
    have : ((qmin - z : ℤ) : ℚ) ≤ j := by exact_mod_cast h1
    linarith
  have b : ((j : ℚ) + 1 / 2) * s ≤ ((qmax - z : ℤ) : ℚ) * s := by
    refine mul_le_mul_of_nonneg_right ?_ hs.le
    have : ((j + 1 : ℤ) : ℚ) ≤ ((qmax - z : ℤ) : ℚ) := by exact_mod_cast h2
    push_cast at this ⊢
    linarith
  obtain ⟨e1, e2⟩ := ov_inside hs hq a b
  rw [e1, e2, ← sub_mul, abs_mul, abs_of_pos hs, mul_div_cancel_right₀ _ hs.ne']
  have h3 := rhe_shift_tie (j := j) hodd
  have h4 : |((rhe ((j : ℚ) + 1 / 2 + ((z - qmin : ℤ) : ℚ)) - (rhe ((j : ℚ) + 1 / 2) + (z - qmin)) : ℤ) : ℚ)| = 1 := by
    exact_mod_cast h3
  have e : ((rhe ((j : ℚ) + 1 / 2 + ((z - qmin : ℤ) : ℚ)) + (qmin - z) : ℤ) : ℚ) - (rhe ((j : ℚ) + 1 / 2) : ℚ) =
      ((rhe ((j : ℚ) + 1 / 2 + ((z - qmin : ℤ) : ℚ)) - (rhe ((j : ℚ) + 1 / 2) + (z - qmin)) : ℤ) : ℚ) := by push_cast; ring
  rw [e, h4, one_mul]

/-- The two byte operators do what a fake quantiser of the full signed range with zero point 0 does. -/
theorem C71_bytes (s x : ℚ) : trtRef s x = fakeRef s 0 (-128) 127 x := by
  unfold trtRef fakeRef
  simp

/-- DISAGREEMENT: a fake quantiser from -127 is accepted for TensorRT, but the byte operators reach -128. -/
theorem C71_narrow_violated {s : ℚ} (hs : 0 < s) {x : ℚ} (hx : x < -(255 / 2) * s) :
    trtRef s x = -128 * s ∧ fakeRef s 0 (-127) 127 x = -127 * s := by
  have h : rhe (x / s) ≤ -128 := by
    have h1 := rhe_spec (x / s)
    rw [abs_le] at h1
    have h2 : x / s < -(255 / 2) := by rw [div_lt_iff₀ hs]; exact hx
    have : (rhe (x / s) : ℚ) < ((-127 : ℤ) : ℚ) := by push_cast; linarith
    have : rhe (x / s) < -127 := by exact_mod_cast this
    omega
  unfold trtRef fakeRef
  rw [max_eq_right h, max_eq_right (by omega)]
  constructor <;> norm_num

/-- DISAGREEMENT: a fake quantiser of unsigned bytes with zero point 0 is accepted for TensorRT, where signed
bytes cut everything above 127 steps and keep what is below zero. -/
theorem C71_unsigned_violated {s : ℚ} (hs : 0 < s) {x : ℚ} :
    (255 / 2 * s < x → x ≤ 255 * s → fakeRef s 0 0 255 x ≠ trtRef s x) ∧
    (x < -(1 / 2) * s → trtRef s x < 0 ∧ fakeRef s 0 0 255 x = 0) := by
  have h1 := rhe_spec (x / s)
  rw [abs_le] at h1
  constructor
  · intro ha hb
    have a : 255 / 2 < x / s := by rw [lt_div_iff₀ hs]; exact ha
    have h : 127 < rhe (x / s) := by
      have : ((127 : ℤ) : ℚ) < (rhe (x / s) : ℚ) := by push_cast; linarith
      exact_mod_cast this
    have h' : rhe (x / s) ≤ 255 := rhe_le (by rw [div_le_iff₀ hs]; exact_mod_cast hb)
    unfold fakeRef trtRef
    rw [max_eq_left (by omega), min_eq_left (by omega), max_eq_left (by omega), min_eq_right (by omega)]
    intro he
    have := mul_right_cancel₀ hs.ne' he
    have : rhe (x / s) + 0 - 0 = 127 := by exact_mod_cast this
    omega
  · intro ha
    have a : x / s < -(1 / 2) := by rw [div_lt_iff₀ hs]; exact ha
    have h : rhe (x / s) < 0 := by
      have : (rhe (x / s) : ℚ) < ((0 : ℤ) : ℚ) := by push_cast; linarith
      exact_mod_cast this
    unfold fakeRef trtRef
    constructor
    · refine mul_neg_of_neg_of_pos ?_ hs
      have : min (max (rhe (x / s)) (-128)) 127 < 0 := by omega
      exact_mod_cast this
    · rw [max_eq_right (by omega), min_eq_left (by omega)]
      simp

/-! ## Arrays -/

/-! ## The ranges -/

/-! ## Building the new nodes -/

/-! ## Replacing nodes -/

/-! ## TensorRT -/

/-! ## Failures -/

/-- DISAGREEMENT: a constant that only the last fake quantiser reads is to be removed twice: ValueError. -/
theorem C71_constants_violated {g : Graph} (hg : g.Valid) (hr : Runs (g.inputs ++ g.initNames) g.nodes)
    (hpads : ∀ n ∈ g.nodes, n.op ≠ .pad) (hcon : ∀ c ∈ g.nodes, c.Constant → c.inputs = [] ∧ ∃ y, c.outputs = [y])
    (hfakes : ∀ n ∈ g.nodes, n.Fake → ∃ axis x y scale zp qmin qmax, g.FakeOf n axis x y scale zp qmin qmax)
    {pre post : List Node} {f : Node} (hs : g.nodes = pre ++ f :: post) (hf : f.Fake) (hlast : ∀ m ∈ post, ¬ m.Fake)
    {c : Node} (hc : c ∈ g.nodes) (hcc : c.Constant) {y : String} (hy : y ∈ c.outputs) (hyf : y ∈ f.inputs)
    (hown : ∀ m ∈ g.nodes, m ≠ f → y ∉ m.inputs) : exportOpenVino g = .error .value := by
  obtain ⟨_, y', hy'⟩ := hcon c hc hcc
  obtain rfl : y = y' := by rw [hy'] at hy; simpa using hy
  have hnd := nodes_nodup hg
  have hfg : f ∈ g.nodes := by rw [hs]; simp
  have hfilter : g.nodes.filter isFake = pre.filter isFake ++ [f] := by
    have : post.filter isFake = [] := by
      rw [List.filter_eq_nil_iff]
      exact fun m hm => by rw [isFake_iff]; exact hlast m hm
    rw [hs, List.filter_append, List.filter_cons_of_pos (isFake_iff.2 hf), this]
  have hrm : (g.nodes.filter isFake).foldlM removeNode g.nodes = .ok (g.nodes.filter fun n => !isFake n) := by
    rw [removeNode_fold _ _ hnd (hnd.filter _) fun n hn => (List.mem_filter.1 hn).1]
    congr 1
    refine List.filter_congr fun n hn => ?_
    by_cases hf : isFake n = true <;> simp [List.mem_filter, hn, hf]
  obtain ⟨extra, h5, h6, h7⟩ := collect_last g.nodes (pre.filter isFake) f
  have hcf : c ∈ constantInputs g.nodes f := (mem_constantInputs hg).2 ⟨hc, hcc, y, hyf, hy⟩
  have hce : c ∈ extra := by
    obtain ⟨d, hd, hdn⟩ := h7 c hcf (by
      intro m hm d hd hdc
      obtain ⟨d1, d2, x, hx, hxd⟩ := (mem_constantInputs hg).1 hd
      obtain rfl := name_unique hg d1 hc hdc
      have hxy : x = y := by rw [hy'] at hxd; simpa using hxd
      have hmg : m ∈ g.nodes := by rw [hs]; exact List.mem_append_left _ (List.mem_filter.1 hm).1
      refine hown m hmg ?_ (hxy ▸ hx)
      rintro rfl
      rw [hs] at hnd
      exact (List.nodup_append.1 hnd).2.2 m (List.mem_filter.1 hm).1 m (by simp) rfl)
    have := (h6 d hd).1
    obtain rfl := name_unique hg ((mem_constantInputs hg).1 this).1 hc hdn
    exact hd
  have hu : unreadConstant (g.nodes.filter fun n => !isFake n) c = true := by
    unfold unreadConstant
    rw [List.all_eq_true]
    intro m hm
    rw [List.all_eq_true]
    intro x hx
    rw [hy', List.head?_cons]
    have hm' := List.mem_filter.1 hm
    have : x ≠ y := by
      rintro rfl
      refine hown m hm'.1 ?_ hx
      rintro rfl
      simp [isFake_iff.2 hf] at hm'
    simpa using this
  have hcs : ∀ k ∈ collectConstants g.nodes (g.nodes.filter isFake), k.inputs = [] := by
    intro k hk
    rw [hfilter, h5] at hk
    have : k ∈ constantInputs g.nodes f := (List.mem_append.1 hk).elim id fun h => (h6 k h).1
    obtain ⟨a, b, _⟩ := (mem_constantInputs hg).1 this
    exact (hcon k a b).1
  have hrs : removeSymbolic g.nodes (g.nodes.filter isFake) (collectConstants g.nodes (g.nodes.filter isFake)) = .error .value := by
    unfold removeSymbolic
    rw [hrm]
    show (collectConstants g.nodes (g.nodes.filter isFake)).foldlM
      (fun ns c => if unreadConstant ns c then removeNode ns c else .ok ns) (g.nodes.filter fun n => !isFake n) = _
    rw [constants_fold _ _ (fun c => rfl) hcs]
    refine (fold_value _ _).resolve_left ?_
    rintro ⟨l', hl'⟩
    have h8 := fold_count hl' c
    have h9 : (g.nodes.filter fun n => !isFake n).count c ≤ 1 := List.nodup_iff_count_le_one.1 (hnd.filter _) c
    rw [hfilter, h5, List.filter_append, List.count_append] at h8
    have h10 : 0 < ((constantInputs g.nodes f).filter (unreadConstant (g.nodes.filter fun n => !isFake n))).count c :=
      List.count_pos_iff.2 (List.mem_filter.2 ⟨hcf, hu⟩)
    have h11 : 0 < (extra.filter (unreadConstant (g.nodes.filter fun n => !isFake n))).count c :=
      List.count_pos_iff.2 (List.mem_filter.2 ⟨hce, hu⟩)
    omega
  unfold exportOpenVino
  rw [pads_none hpads]
  show (do
    let built ← (g.nodes.filter isFake).mapM (ovBuild g.nodes g.nameData)
    let nodes ← removeSymbolic g.nodes (g.nodes.filter isFake) (collectConstants g.nodes (g.nodes.filter isFake))
    optimize { g with
      nodes := nodes ++ built.map (fun p : Node × List (String × Data) => p.1),
      inits := g.inits ++ insertOnce (built.flatMap fun p : Node × List (String × Data) => p.2) }) = _
  obtain ⟨bs, hbs⟩ := mapM_all_ok (f := ovBuild g.nodes g.nameData) (l := g.nodes.filter isFake) (by
    intro n hn
    obtain ⟨axis, x, y, scale, zp, qmin, qmax, h1⟩ := hfakes n (List.mem_filter.1 hn).1 (isFake_iff.1 (List.mem_filter.1 hn).2)
    exact ⟨_, build_fake hg hr h1⟩)
  rw [hbs, hrs]
  rfl

/-- TensorRT takes neither other widths than eight bits nor zero points other than 0. -/
theorem C71_refused {g : Graph} (hg : g.Valid) (hr : Runs (g.inputs ++ g.initNames) g.nodes)
    (hpads : ∀ n ∈ g.nodes, n.op ≠ .pad)
    (hfakes : ∀ n ∈ g.nodes, n.Fake → ∃ axis x y scale zp qmin qmax, g.FakeOf n axis x y scale zp qmin qmax)
    {n : Node} (hn : n ∈ g.nodes) {axis : Option ℕ} {x y : String} {scale zp : Data} {qmin qmax : ℤ}
    (hf : g.FakeOf n axis x y scale zp qmin qmax)
    (hbad : (qmax - qmin ≠ 255 ∧ qmax - qmin ≠ 254) ∨ ∃ z ∈ zp.vals, z ≠ 0) : exportTensorRT g = .error .assertion := by
  have key : ∀ {m : Node} {axis : Option ℕ} {x y : String} {scale zp : Data} {qmin qmax : ℤ},
      g.FakeOf m axis x y scale zp qmin qmax → trtBuild g.nameData m =
      if ¬ ((qmax : ℚ) - qmin = 255 ∨ (qmax : ℚ) - qmin = 254) then .error .assertion
      else if zp.vals.any (· ≠ 0) then .error .assertion else .ok (trtNodes m) := by
    intro m axis x y scale zp qmin qmax h
    obtain ⟨sha, shb, hp⟩ := parse_fake hg hr h
    unfold trtBuild
    rw [hp]
    rfl
  unfold exportTensorRT
  rw [pads_none hpads]
  show (do
    let built ← (g.nodes.filter isFake).mapM (trtBuild g.nameData)
    let nodes ← (g.nodes.filter isFake).foldlM removeNode g.nodes
    optimize { g with nodes := nodes ++ built.flatten }) = _
  rw [mapM_error (err := .assertion) ?_ ⟨n, List.mem_filter.2 ⟨hn, (fake_head hf).2⟩, ?_⟩]
  · rfl
  · intro m hm
    obtain ⟨axis, x, y, scale, zp, qmin, qmax, h1⟩ := hfakes m (List.mem_filter.1 hm).1 (isFake_iff.1 (List.mem_filter.1 hm).2)
    rw [key h1]
    by_cases h2 : ¬ ((qmax : ℚ) - qmin = 255 ∨ (qmax : ℚ) - qmin = 254)
    · exact Or.inr (if_pos h2)
    · rw [if_neg h2]
      by_cases h3 : zp.vals.any (· ≠ 0) = true
      · exact Or.inr (if_pos h3)
      · exact Or.inl ⟨_, if_neg h3⟩
  · rw [key hf]
    rcases hbad with ⟨a, b⟩ | ⟨z, hz, hz0⟩
    · refine if_pos ?_
      rintro (h | h)
      · exact a (by exact_mod_cast h)
      · exact b (by exact_mod_cast h)
    · have : zp.vals.any (· ≠ 0) = true := by
        rw [List.any_eq_true]
        exact ⟨z, hz, by simpa using hz0⟩
      by_cases h2 : ¬ ((qmax : ℚ) - qmin = 255 ∨ (qmax : ℚ) - qmin = 254)
      · exact if_pos h2
      · rw [if_neg h2, if_pos this]

/-- A fake quantiser whose scale is computed in the graph is refused: KeyError. -/
theorem C71_unknown {g : Graph} (hg : g.Valid) (hr : Runs (g.inputs ++ g.initNames) g.nodes)
    (hpads : ∀ n ∈ g.nodes, n.op ≠ .pad) {n : Node} (hn : n ∈ g.nodes) (hf : n.Fake) {x s z : String} {rest : List String}
    (hi : n.inputs = x :: s :: z :: rest) (hs : ∀ d, ¬ g.Known s d)
    (hfakes : ∀ m ∈ g.nodes, m.Fake → m ≠ n → ∃ axis x y scale zp, g.FakeOf m axis x y scale zp (-128) 127 ∧ ∀ z ∈ zp.vals, z = 0) :
    exportOpenVino g = .error .key ∧ exportTensorRT g = .error .key := by
  have hp := build_unknown hi hs
  constructor
  · unfold exportOpenVino
    rw [pads_none hpads]
    show (do
      let built ← (g.nodes.filter isFake).mapM (ovBuild g.nodes g.nameData)
      let nodes ← removeSymbolic g.nodes (g.nodes.filter isFake) (collectConstants g.nodes (g.nodes.filter isFake))
      optimize { g with
        nodes := nodes ++ built.map (fun p : Node × List (String × Data) => p.1),
        inits := g.inits ++ insertOnce (built.flatMap fun p : Node × List (String × Data) => p.2) }) = _
    have hb : ovBuild g.nodes g.nameData n = .error .key := by
      unfold ovBuild
      rw [hp]; rfl
    rw [mapM_error (err := .key) ?_ ⟨n, List.mem_filter.2 ⟨hn, isFake_iff.2 hf⟩, hb⟩]
    · rfl
    · intro m hm
      by_cases hmn : m = n
      · exact Or.inr (hmn ▸ hb)
      · obtain ⟨axis, x, y, scale, zp, h1, -⟩ := hfakes m (List.mem_filter.1 hm).1 (isFake_iff.1 (List.mem_filter.1 hm).2) hmn
        exact Or.inl ⟨_, build_fake hg hr h1⟩
  · unfold exportTensorRT
    rw [pads_none hpads]
    show (do
      let built ← (g.nodes.filter isFake).mapM (trtBuild g.nameData)
      let nodes ← (g.nodes.filter isFake).foldlM removeNode g.nodes
      optimize { g with nodes := nodes ++ built.flatten }) = _
    have hb : trtBuild g.nameData n = .error .key := by
      unfold trtBuild
      rw [hp]; rfl
    rw [mapM_error (err := .key) ?_ ⟨n, List.mem_filter.2 ⟨hn, isFake_iff.2 hf⟩, hb⟩]
    · rfl
    · intro m hm
      by_cases hmn : m = n
      · exact Or.inr (hmn ▸ hb)
      · obtain ⟨axis, x, y, scale, zp, h1, h2⟩ := hfakes m (List.mem_filter.1 hm).1 (isFake_iff.1 (List.mem_filter.1 hm).2) hmn
        exact Or.inl ⟨_, trt_build hg hr h1 (Or.inl (by norm_num)) h2⟩

/-- Exporting to OpenVINO: the fake quantisers are gone, and the exported graph computes what the graph computed.
Missing: paddings (`C70_pads_partial`), values in the middle between two steps (`C71_tie_violated`), channels other
than the rows of a weight at the second input of its first reader (`C71_transposed_violated`), tensors that are
quantised twice (`C71_shared_violated`), constants of the last fake quantiser only (`C71_constants_violated`), and
outputs that come straight from isolated nodes (`C70_direct_violated`). -/
theorem C71_openvino_partial (other : Op → List Data → Option (List Data)) {g : Graph} (hg : g.Valid)
    (hr : Runs (g.inputs ++ g.initNames) g.nodes) {ins e : String → Option Data} {vals : List Data}
    (he : evalAll (tensors other) (g.start (tensors other) ins) g.nodes = some e)
    (hvals : g.eval (tensors other) ins = some vals) (h : g.OvReady e) :
    ∃ g', exportOpenVino g = .ok g' ∧ (∀ n ∈ g'.nodes, ¬ n.Fake) ∧ g'.inputs = g.inputs ∧ g'.outputs = g.outputs ∧
      g'.eval (tensors other) ins = some vals :=
  openvino_export other hg hr he hvals h

/-- Exporting to TensorRT: the same, for fake quantisers of tensors to all signed bytes. Missing: fake quantisers of
channels (`C71_axis_violated`) and other ranges (`C71_narrow_violated`, `C71_unsigned_violated`). -/
theorem C71_tensorrt_partial (other : Op → List Data → Option (List Data)) {g : Graph} (hg : g.Valid)
    (hr : Runs (g.inputs ++ g.initNames) g.nodes) {ins : String → Option Data} {vals : List Data}
    (hvals : g.eval (tensors other) ins = some vals) (h : g.TrtReady) :
    ∃ g', exportTensorRT g = .ok g' ∧ (∀ n ∈ g'.nodes, ¬ n.Fake) ∧ g'.inputs = g.inputs ∧ g'.outputs = g.outputs ∧
      g'.eval (tensors other) ins = some vals :=
  tensorrt_export other hg hr hvals h

/-- DISAGREEMENT: ONNX's operators quantise along the second axis when no axis is given, and none is: a weight with
scales for its rows is quantised by columns after the export to TensorRT. -/
theorem C71_axis_violated {w scale zp : Data} (h1 : scale.vals.length ≠ 1) (h2 : scale.vals.length = zp.vals.length)
    (hz : ∀ z ∈ zp.vals, z = 0) :
    (w.shape[1]? = some scale.vals.length → ∃ q, quantizeOp [w, scale, zp] = some [q] ∧
      dequantizeOp [q, scale, zp] = some [fakeArray (some 1) scale.vals zp.vals (-128) 127 w]) ∧
    (w.shape[1]? ≠ some scale.vals.length → quantizeOp [w, scale, zp] = none) ∧
    (gRows ⟨[2, 2], [1, 1, 2, 2]⟩ ⟨[2], [1, 2]⟩ ⟨[2], [0, 0]⟩ false).eval (tensors lastArg) (feed ⟨[], [1]⟩) =
      some [⟨[2, 2], [1, 1, 2, 2]⟩] ∧
    ran (exportTensorRT (gRows ⟨[2, 2], [1, 1, 2, 2]⟩ ⟨[2], [1, 2]⟩ ⟨[2], [0, 0]⟩ false)) ⟨[], [1]⟩ =
      some [⟨[2, 2], [1, 0, 2, 2]⟩] := by
  refine ⟨fun hw => ?_, fun hw => ?_, by decide +kernel, by decide +kernel⟩
  · have ha : linearAxis w.shape scale = some (some 1) := by
      unfold linearAxis
      rw [if_neg h1, if_pos hw]
    have h0 : ∀ c, zp.vals.getD c 0 = 0 := by
      intro c
      rw [List.getD_eq_getElem?_getD]
      rcases hc : zp.vals[c]? with _ | z
      · rfl
      · exact hz z (List.mem_of_getElem? hc)
    refine ⟨_, (show _ = some [_] by unfold quantizeOp; dsimp only; rw [ha]; rfl), ?_⟩
    unfold dequantizeOp fakeArray fakeRef
    dsimp only
    rw [ha]
    simp [List.mapIdx_mapIdx, Function.comp_def, h0]
  · unfold quantizeOp linearAxis
    dsimp only
    rw [if_neg h1, if_neg hw]
    rfl

/-- DISAGREEMENT: when the first reader of a weight with scales for its rows has no second input (a transposition),
the bounds have one axis only and are aligned with the columns: the graph exported to OpenVINO quantises by columns,
or does not run. -/
theorem C71_transposed_violated :
    (gRows ⟨[2, 2], [1, 1, 2, 2]⟩ ⟨[2], [1, 2]⟩ ⟨[2], [0, 0]⟩ true).eval (tensors lastArg) (feed ⟨[], [1]⟩) =
      some [⟨[2, 2], [1, 1, 2, 2]⟩] ∧
    ran (exportOpenVino (gRows ⟨[2, 2], [1, 1, 2, 2]⟩ ⟨[2], [1, 2]⟩ ⟨[2], [0, 0]⟩ true)) ⟨[], [1]⟩ =
      some [⟨[2, 2], [1, 0, 2, 2]⟩] ∧
    (∃ g', exportOpenVino (gRows ⟨[2, 1], [1, 2]⟩ ⟨[2], [1, 2]⟩ ⟨[2], [0, 0]⟩ true) = .ok g' ∧
      (gRows ⟨[2, 1], [1, 2]⟩ ⟨[2], [1, 2]⟩ ⟨[2], [0, 0]⟩ true).eval (tensors lastArg) (feed ⟨[], [1]⟩) = some [⟨[2, 1], [1, 2]⟩] ∧
      g'.eval (tensors lastArg) (feed ⟨[], [1]⟩) = none) :=
  ⟨by decide +kernel, by decide +kernel, ⟨_, rfl, by decide +kernel, by decide +kernel⟩⟩

/-- DISAGREEMENT: the names of the bounds are made of the name of the tensor only: of two fake quantisers of one
tensor, the second gets the bounds of the first. -/
theorem C71_shared_violated :
    gTwice.eval (tensors lastArg) (feed ⟨[1], [3]⟩) = some [⟨[1], [4]⟩] ∧
    ran (exportOpenVino gTwice) ⟨[1], [3]⟩ = some [⟨[1], [3]⟩] :=
  ⟨by decide +kernel, by decide +kernel⟩

/-! ## Concrete cases -/

example : ∃ g', exportOpenVino gGood = .ok g' ∧ (∀ n ∈ g'.nodes, ¬ n.Fake) ∧
    g'.eval (tensors lastArg) (feed ⟨[1], [3]⟩) = some [⟨[2, 1], [1, 2]⟩] := by
  obtain ⟨g', h1, h2, _, _, h3⟩ := C71_openvino_partial lastArg gGood_valid gGood_runs gGood_run
    (vals := [⟨[2, 1], [1, 2]⟩]) (by decide +kernel) gGood_ready
  exact ⟨g', h1, h2, h3⟩

example : exportOpenVino gOwn = .error .value := by
  refine C71_constants_violated (g := gOwn) (f := ⟨"f1", .fake false false none, ["x", "s", "z", "lo", "hi"], ["a"]⟩)
    (c := ⟨"lo", .constant (some ⟨[], [0]⟩), [], ["lo"]⟩) (y := "lo") (pre := gOwn.nodes.take 2) (post := gOwn.nodes.drop 3)
    ⟨by decide +kernel, by decide +kernel, by decide +kernel, by decide +kernel, by decide +kernel⟩ (by decide +kernel)
    (by decide +kernel) ?_ ?_ rfl ⟨_, _, _, rfl⟩ (by decide +kernel) (by decide +kernel) ⟨_, rfl⟩ (by decide +kernel)
    (by decide +kernel) (by decide +kernel)
  · intro c hc hcc
    have : ∀ c ∈ gOwn.nodes, c.Constant → c.inputs = [] ∧ ∃ y ∈ c.outputs, c.outputs = [y] := by decide +kernel
    obtain ⟨a, y, -, b⟩ := this c hc hcc
    exact ⟨a, y, b⟩
  · intro n hn hf
    have : n = ⟨"f1", .fake false false none, ["x", "s", "z", "lo", "hi"], ["a"]⟩ :=
      (show ∀ n ∈ gOwn.nodes, n.Fake → n = ⟨"f1", .fake false false none, ["x", "s", "z", "lo", "hi"], ["a"]⟩ by decide +kernel) n hn hf
    subst this
    exact ⟨_, _, _, _, _, _, _, gOwn_fake⟩

example : ∃ g', exportTensorRT (gBytes ⟨[], [1/2]⟩ ⟨[], [0]⟩ (-128) 127) = .ok g' ∧ (∀ n ∈ g'.nodes, ¬ n.Fake) ∧
    g'.eval (tensors lastArg) (feed ⟨[2], [3/4, 100]⟩) = some [⟨[2], [1, 127/2]⟩] := by
  have hr : (gBytes ⟨[], [1/2]⟩ ⟨[], [0]⟩ (-128) 127).TrtReady := by
    refine ⟨by decide +kernel, by decide +kernel, ?_, ?_, by decide +kernel, by decide +kernel⟩
    · intro y hy
      obtain rfl : y = "y" := by simpa [gBytes] using hy
      exact Or.inr (Or.inr ⟨⟨"conv", .other "Conv", ["a"], ["y"]⟩, by decide +kernel, by decide +kernel, "a",
        ⟨by decide +kernel, fun h => absurd h (by decide +kernel)⟩, ⟨"f1", .fake false false (some (-128, 127)), ["r", "s", "z"], ["a"]⟩,
        by decide +kernel, by decide +kernel⟩)
    · intro n hn hf
      have : n = ⟨"f1", .fake false false (some (-128, 127)), ["r", "s", "z"], ["a"]⟩ :=
        (show ∀ n ∈ (gBytes ⟨[], [1/2]⟩ ⟨[], [0]⟩ (-128) 127).nodes, n.Fake →
          n = ⟨"f1", .fake false false (some (-128, 127)), ["r", "s", "z"], ["a"]⟩ by decide +kernel) n hn hf
      subst this
      refine ⟨_, _, _, _, gBytes_fake (by norm_num) rfl ?_ ?_, rfl, by simp⟩
      · intro s hs
        obtain rfl : s = 1 / 2 := by simpa using hs
        norm_num
      · intro z hz
        obtain rfl : z = 0 := by simpa using hz
        exact ⟨0, by norm_num, by norm_num, by norm_num⟩
  obtain ⟨g', h1, h2, _, _, h3⟩ := C71_tensorrt_partial lastArg (g := gBytes ⟨[], [1/2]⟩ ⟨[], [0]⟩ (-128) 127)
    ⟨by decide +kernel, by decide +kernel, by decide +kernel, by decide +kernel, by decide +kernel⟩ (by decide +kernel)
    (ins := feed ⟨[2], [3/4, 100]⟩) (vals := [⟨[2], [1, 127/2]⟩]) (by decide +kernel) hr
  exact ⟨g', h1, h2, h3⟩

example : exportTensorRT (gBytes ⟨[], [1]⟩ ⟨[], [3]⟩ 0 255) = .error .assertion := by
  have hf := gBytes_fake (s := ⟨[], [1]⟩) (z := ⟨[], [3]⟩) (qmin := 0) (qmax := 255) (by norm_num) rfl (by simp)
    (by
      intro z hz
      obtain rfl : z = 3 := by simpa using hz
      exact ⟨3, by norm_num, by norm_num, by norm_num⟩)
  refine C71_refused ⟨by decide +kernel, by decide +kernel, by decide +kernel, by decide +kernel, by decide +kernel⟩
    (by decide +kernel) (by decide +kernel) ?_ (by decide +kernel) hf (Or.inr ⟨3, by simp, by norm_num⟩)
  intro n hn hfn
  have : n = ⟨"f1", .fake false false (some (0, 255)), ["r", "s", "z"], ["a"]⟩ :=
    (show ∀ n ∈ (gBytes ⟨[], [1]⟩ ⟨[], [3]⟩ 0 255).nodes, n.Fake →
      n = ⟨"f1", .fake false false (some (0, 255)), ["r", "s", "z"], ["a"]⟩ by decide +kernel) n hn hfn
  subst this
  exact ⟨_, _, _, _, _, _, _, hf⟩

example : exportOpenVino gAbs = .error .key ∧ exportTensorRT gAbs = .error .key := by
  refine C71_unknown (g := gAbs) (n := ⟨"f", .fake false false (some (-128, 127)), ["x", "s", "z"], ["y"]⟩) (x := "x") (s := "s") (z := "z") (rest := [])
    ⟨by decide +kernel, by decide +kernel, by decide +kernel, by decide +kernel, by decide +kernel⟩ (by decide +kernel)
    (by decide +kernel) (by decide +kernel) ⟨_, _, _, rfl⟩ rfl ?_ ?_
  · intro d hd
    cases hd with
    | array h => simp [gAbs] at h
    | constant h1 h2 h3 => simp only [gAbs, List.mem_cons, List.not_mem_nil, or_false] at h1; rcases h1 with rfl | rfl <;> cases h2
    | copy h1 h2 h3 h4 h5 => simp only [gAbs, List.mem_cons, List.not_mem_nil, or_false] at h1; rcases h1 with rfl | rfl <;> cases h2
  · intro m hm hf hne
    exfalso
    simp only [gAbs, List.mem_cons, List.not_mem_nil, or_false] at hm
    rcases hm with rfl | rfl
    · obtain ⟨_, _, _, h⟩ := hf
      cases h
    · exact hne rfl

example : ovRef (((-128 - 0 : ℤ) : ℚ) * (1/2)) (((127 - 0 : ℤ) : ℚ) * (1/2)) (127 - (-128) + 1) (1/4) = fakeRef (1/2) 0 (-128) 127 (1/4) :=
  C71_scalar_partial (by norm_num) (by norm_num) (Or.inr ⟨64, by norm_num⟩)

example : |ovRef (((-127 - 0 : ℤ) : ℚ) * (1/2)) (((127 - 0 : ℤ) : ℚ) * (1/2)) (127 - (-127) + 1) (((0 : ℤ) + 1 / 2) * (1/2)) -
    fakeRef (1/2) 0 (-127) 127 (((0 : ℤ) + 1 / 2) * (1/2))| = 1 / 2 :=
  C71_tie_violated (by norm_num) (by norm_num) ⟨63, by norm_num⟩ (by norm_num) (by norm_num)

example : trtRef 1 (-200) = -128 * 1 ∧ fakeRef 1 0 (-127) 127 (-200) = -127 * 1 := C71_narrow_violated one_pos (by norm_num)

example : fakeRef 1 0 0 255 200 ≠ trtRef 1 200 := (C71_unsigned_violated one_pos).1 (by norm_num) (by norm_num)

example : quantizeOp [⟨[3, 2], [1, 1, 1, 1, 1, 1]⟩, ⟨[3], [1, 1, 1]⟩, ⟨[3], [0, 0, 0]⟩] = none :=
  (C71_axis_violated (w := ⟨[3, 2], [1, 1, 1, 1, 1, 1]⟩) (scale := ⟨[3], [1, 1, 1]⟩) (zp := ⟨[3], [0, 0, 0]⟩)
    (by decide) rfl (by decide +kernel)).2.1 (by decide)

/-- A node without a range of quantised values (three inputs, no attribute) is exported for neither backend: a `TypeError`. -/
theorem C71_range_refused (nodes : List Node) (data : List (String × Data)) (n : Node) {x s z : String} {ds dz : Data}
    (hi : n.inputs = [x, s, z]) (hs : data.lookup s = some ds) (hz : data.lookup z = some dz)
    (ho : ∀ a b r, n.op ≠ .fake a b (some r)) :
    ovBuild nodes data n = .error .type ∧ trtBuild data n = .error .type := by
  have hr : parseRange data n = .ok none := by
    unfold parseRange
    rw [hi]
    simp only [List.drop_succ_cons, List.drop_zero]
    split
    · rename_i h; exact absurd h (ho _ _ _)
    · rfl
  have hq : parseQparams data n = .ok ⟨x, ds, dz, none⟩ := by
    simp [parseQparams, hi, dataOf, hs, hz, hr, bind, Except.bind]
  constructor
  · simp [ovBuild, hq, ovNode, bind, Except.bind]
  · simp [trtBuild, hq, bind, Except.bind]

end Verif.Onnx
