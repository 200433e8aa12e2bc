import Verif.Spec.Autoformer

/-! Helper lemmas for `Verif/Props/Autoformer.lean`. -/

namespace Verif.Autoformer
open Verif

/-- The embeddings of relative positions, zero without them. -/
noncomputable def relOr (r : Option (ℕ → ℕ → ℕ → ℝ)) : ℕ → ℕ → ℕ → ℝ := r.getD fun _ _ _ => 0

theorem clampTo_row (m : ℕ) (δ : ℤ) : clampTo (-(m : ℤ)) m δ + m + 1 = (rowOf m δ : ℤ) := by
  unfold clampTo rowOf
  split_ifs <;> omega

theorem rowOf_bounds (m : ℕ) (δ : ℤ) : 1 ≤ rowOf m δ ∧ rowOf m δ ≤ 2 * m + 1 := by
  unfold rowOf
  split_ifs <;> omega

theorem finalV_lt (m s i j : ℕ) : finalV m s i j < ((m * 2 + 2 : ℕ) : ℤ) := by
  unfold finalV
  split_ifs
  · omega
  · rw [clampTo_row]
    have := (rowOf_bounds m (((j - 1) / s : ℕ) - ((i - 1) / s : ℕ))).2
    omega

theorem finalH_lt (m s i j : ℕ) : finalH m s i j < ((m * 2 + 2 : ℕ) : ℤ) := by
  unfold finalH
  split_ifs
  · omega
  · rw [clampTo_row]
    have := (rowOf_bounds m (((j - 1) % s : ℕ) - ((i - 1) % s : ℕ))).2
    omega

theorem forward_ok (r : RelPos) (hr : r.rows = r.maxRel * 2 + 2) (n : ℕ) :
    r.forward n = .ok (r.headDims, fun i j d =>
      r.tableV (finalV r.maxRel (Nat.sqrt (n - 1)) i j).toNat d +
        r.tableH (finalH r.maxRel (Nat.sqrt (n - 1)) i j).toNat d) := by
  unfold RelPos.forward
  dsimp only
  rw [if_pos]
  intro i _ j _
  rw [hr]
  exact ⟨finalV_lt _ _ _ _, finalH_lt _ _ _ _⟩

theorem finalV_patch (m s a b a' b' : ℕ) (hb : b < s) (hb' : b' < s) :
    (finalV m s (1 + a * s + b) (1 + a' * s + b')).toNat = rowOf m (a' - a) := by
  have hs : 0 < s := by omega
  have e1 : (1 + a * s + b - 1) / s = a := by
    rw [show 1 + a * s + b - 1 = b + s * a by rw [Nat.mul_comm]; omega, Nat.add_mul_div_left _ _ hs,
      Nat.div_eq_of_lt hb, Nat.zero_add]
  have e2 : (1 + a' * s + b' - 1) / s = a' := by
    rw [show 1 + a' * s + b' - 1 = b' + s * a' by rw [Nat.mul_comm]; omega, Nat.add_mul_div_left _ _ hs,
      Nat.div_eq_of_lt hb', Nat.zero_add]
  unfold finalV
  rw [if_neg (by omega), e1, e2, clampTo_row, Int.toNat_natCast]

theorem finalH_patch (m s a b a' b' : ℕ) (hb : b < s) (hb' : b' < s) :
    (finalH m s (1 + a * s + b) (1 + a' * s + b')).toNat = rowOf m (b' - b) := by
  have e1 : (1 + a * s + b - 1) % s = b := by
    rw [show 1 + a * s + b - 1 = b + s * a by rw [Nat.mul_comm]; omega, Nat.add_mul_mod_self_left, Nat.mod_eq_of_lt hb]
  have e2 : (1 + a' * s + b' - 1) % s = b' := by
    rw [show 1 + a' * s + b' - 1 = b' + s * a' by rw [Nat.mul_comm]; omega, Nat.add_mul_mod_self_left, Nat.mod_eq_of_lt hb']
  unfold finalH
  rw [if_neg (by omega), e1, e2, clampTo_row, Int.toNat_natCast]

theorem static_relative {r : DynRelPos} {s : RelPos} (h : r.toStatic = .ok s) (hm : r.base.maxRel = 14) (n : ℕ) :
    s.forward n = r.forward n := by
  unfold DynRelPos.toStatic at h
  unfold DynRelPos.forward
  rcases hh : r.head with _ | c
  · simp [hh] at h
  · simp only [hh, Except.ok.injEq] at h
    subst h
    rcases r with ⟨⟨D, m, rows, tv, th⟩, head⟩
    obtain rfl : m = 14 := hm
    rfl

theorem apply_ok (w : Linear) (x : ℕ → ℕ → ℕ → ℝ) :
    w.apply w.inF x = .ok fun b n o => affine w w.inF (x b n) o := by
  unfold Linear.apply affine
  rw [if_pos rfl]
  rcases w.bias with _ | c <;> rfl

theorem div_mul_add {D h d : ℕ} (hd : d < D) : (h * D + d) / D = h ∧ (h * D + d) % D = d := by
  have hD : 0 < D := by omega
  constructor
  · rw [Nat.mul_comm, Nat.mul_add_div hD, Nat.div_eq_of_lt hd, Nat.add_zero]
  · rw [Nat.mul_comm, Nat.mul_add_mod, Nat.mod_eq_of_lt hd]

theorem sum_range_mul (H D : ℕ) (f : ℕ → ℝ) :
    ∑ e ∈ Finset.range (H * D), f e = ∑ h ∈ Finset.range H, ∑ d ∈ Finset.range D, f (h * D + d) := by
  induction H with
  | zero => simp
  | succ H ih => rw [Nat.succ_mul, Finset.sum_range_add, ih, Finset.sum_range_succ]

theorem attnWeights_eq {wq wk : Linear} {features heads n dim : ℕ} {scale : ℝ} {rk : Option (ℕ → ℕ → ℕ → ℝ)}
    (x : ℕ → ℕ → ℕ → ℝ) {b h : ℕ} (hh : h < heads) (i j : ℕ) :
    attnWeights heads n dim scale rk (fun b h n d => affine wq features (x b n) (h * dim + d))
      (fun b h n d => affine wk features (x b n) (h * dim + d)) b h i j =
      Real.exp (headScore wq wk features dim scale (relOr rk) (x b) h i j) /
        ∑ j ∈ Finset.range n, Real.exp (headScore wq wk features dim scale (relOr rk) (x b) h i j) := by
  rcases rk with _ | r
  · have e : ∀ j, (∑ d ∈ Finset.range dim, affine wq features (x b i) (h * dim + d) * affine wk features (x b j) (h * dim + d)) * scale =
        headScore wq wk features dim scale (relOr none) (x b) h i j := by
      intro j
      simp [headScore, relOr, mul_comm]
    unfold attnWeights softmax
    simp only [e]
  · have e : ∀ j, (∑ d ∈ Finset.range dim, affine wq features (x b i) (h * dim + d) * affine wk features (x b j) (h * dim + d)) * scale +
        (∑ d ∈ Finset.range dim, affine wq features (x ((b * heads + h) / heads) i) ((b * heads + h) % heads * dim + d) * r i j d) * scale =
        headScore wq wk features dim scale (relOr (some r)) (x b) h i j := by
      intro j
      rw [(div_mul_add hh).1, (div_mul_add hh).2]
      unfold headScore relOr
      rw [← add_mul, ← Finset.sum_add_distrib, mul_comm]
      simp only [Option.getD_some, mul_add]
    unfold attnWeights softmax
    simp only [e]

theorem attention_spec {heads n dim features : ℕ} {scale : ℝ} {wq wk wv proj : Linear}
    {relK relV : Option (Except Err (ℕ × (ℕ → ℕ → ℕ → ℝ)))} {rk rv : Option (ℕ → ℕ → ℕ → ℝ)}
    (x : ℕ → ℕ → ℕ → ℝ)
    (hq : wq.outF = heads * dim) (hk : wk.outF = heads * dim) (hv : wv.outF = heads * dim)
    (iq : wq.inF = features) (ik : wk.inF = features) (iv : wv.inF = features) (ip : proj.inF = heads * dim)
    (hrk : relK = rk.map fun r => .ok (dim, r)) (hrv : relV = rv.map fun r => .ok (dim, r)) :
    attention heads n dim features scale wq wk wv proj relK relV x = .ok fun b i o =>
      (∑ h ∈ Finset.range heads, ∑ d ∈ Finset.range dim, proj.weight o (h * dim + d) *
        headOut wq wk wv features dim n scale (relOr rk) (relOr rv) (x b) h i d) + (proj.bias.getD fun _ => 0) o := by
  have aq : wq.apply features x = .ok fun b n o => affine wq features (x b n) o := by rw [← iq]; exact apply_ok wq x
  have ak : wk.apply features x = .ok fun b n o => affine wk features (x b n) o := by rw [← ik]; exact apply_ok wk x
  have av : wv.apply features x = .ok fun b n o => affine wv features (x b n) o := by rw [← iv]; exact apply_ok wv x
  have sp : ∀ y, split (heads * dim) heads dim y = .ok fun b h n d => y b n (h * dim + d) := fun y => if_pos rfl
  have mk : ∀ r : Option (ℕ → ℕ → ℕ → ℝ), (r.map fun r => (Except.ok (dim, r) : Except Err _)).mapM (relFor dim) = .ok r := by
    intro r
    rcases r with _ | r
    · rfl
    · simp [relFor, Option.mapM, bind, Except.bind, pure, Except.pure, Functor.map, Except.map]
  have pj : ∀ y, proj.apply (heads * dim) y = .ok fun b n o => affine proj (heads * dim) (y b n) o := by
    intro y; rw [← ip]; exact apply_ok proj y
  unfold attention
  simp only [aq, ak, av, hq, hk, hv, sp, hrk, hrv, mk, pj, bind, Except.bind]
  refine congrArg Except.ok ?_
  funext b i o
  have pe : ∀ y o, affine proj (heads * dim) y o =
      (∑ i ∈ Finset.range (heads * dim), proj.weight o i * y i) + (proj.bias.getD fun _ => 0) o := fun _ _ => rfl
  rw [pe]
  refine congrArg (fun z : ℝ => z + _) ?_
  rw [sum_range_mul]
  refine Finset.sum_congr rfl fun h hh => Finset.sum_congr rfl fun d hd => ?_
  have hh' : h < heads := Finset.mem_range.1 hh
  have hd' : d < dim := Finset.mem_range.1 hd
  refine congrArg (fun z : ℝ => _ * z) ?_
  unfold headOut
  simp only [Finset.sum_div]
  unfold attended
  dsimp only
  rw [(div_mul_add hd').1, (div_mul_add hd').2]
  rcases rv with _ | r
  · dsimp only
    refine Finset.sum_congr rfl fun j _ => ?_
    rw [attnWeights_eq x hh']
    simp only [relOr, Option.getD_none, add_zero]
    rw [div_mul_eq_mul_div]
  · dsimp only
    rw [(div_mul_add hh').1, (div_mul_add hh').2, ← Finset.sum_add_distrib]
    refine Finset.sum_congr rfl fun j _ => ?_
    rw [attnWeights_eq x hh', ← mul_add, div_mul_eq_mul_div]
    rfl

theorem dyn_attention {m : DynMha} {h e : ℕ} (hm : m.Fits h e) {n : ℕ} {EK EV : ℕ → ℕ → ℕ → ℝ}
    (hE : m.Embeds n EK EV) (x : ℕ → ℕ → ℕ → ℝ) :
    m.forward n e x = .ok fun b i o =>
      (∑ t ∈ Finset.range h, ∑ d ∈ Finset.range 64, m.proj.weight o (t * 64 + d) *
        headOut m.wq m.wk m.wv e 64 n m.scale EK EV (x b) t i d) + (m.proj.bias.getD fun _ => 0) o := by
  have hd : h * 64 / h = 64 := by rw [Nat.mul_comm]; exact Nat.mul_div_cancel _ hm.pos
  have hle : h * 64 ≤ m.numHeads * 64 := Nat.mul_le_mul_right 64 hm.le
  have cut : ∀ w ∈ [m.wq, m.wk, m.wv], (w.cut (h * 64) e).outF = h * 64 ∧ (w.cut (h * 64) e).inF = e := by
    intro w hw
    obtain ⟨h1, h2⟩ := hm.inputs w hw
    constructor
    · show min (h * 64) w.outF = _
      rw [h1]; exact Nat.min_eq_left hle
    · show min e w.inF = _
      rw [h2]; exact Nat.min_eq_left hm.width
  have cutp : (m.proj.cut e (h * 64)).inF = h * 64 := by
    show min (h * 64) m.proj.inF = _
    rw [hm.output.1]; exact Nat.min_eq_left hle
  have hrel : ∃ rk rv : Option (ℕ → ℕ → ℕ → ℝ), (m.rel.map fun r => r.1.forward n) = rk.map (fun r => .ok (64, r)) ∧
      (m.rel.map fun r => r.2.forward n) = rv.map (fun r => .ok (64, r)) ∧ relOr rk = EK ∧ relOr rv = EV := by
    rcases hE with ⟨h1, h2, h3⟩ | ⟨k, v, h1, h2, h3⟩
    · exact ⟨none, none, by rw [h1]; rfl, by rw [h1]; rfl, h2.symm, h3.symm⟩
    · refine ⟨some EK, some EV, ?_, ?_, rfl, rfl⟩
      · simp [h1, h2]
      · simp [h1, h3]
  obtain ⟨rk, rv, e1, e2, e3, e4⟩ := hrel
  unfold DynMha.forward
  simp only [hm.heads, hm.embed, hm.query, registered, bind, Except.bind]
  rw [if_neg hm.pos.ne', hd]
  rw [attention_spec x (cut m.wq (by simp)).1 (cut m.wk (by simp)).1 (cut m.wv (by simp)).1 (cut m.wq (by simp)).2
    (cut m.wk (by simp)).2 (cut m.wv (by simp)).2 cutp e1 e2, e3, e4]
  rfl

theorem tiny_fits (w : ℕ) (scale : ℝ) (bias) (rel) : (tiny w scale bias rel).Fits 1 w :=
  ⟨rfl, rfl, rfl, by norm_num, le_refl _, le_refl _, by simp [tiny], by simp [tiny]⟩

theorem cloneBias_ok {w w' : Linear} (h : cloneBias w = .ok w') : w' = w ∧ w.bias ≠ none := by
  unfold cloneBias at h
  rcases hb : w.bias with _ | c
  · simp [hb] at h
  · simp only [hb, Except.ok.injEq] at h
    exact ⟨h.symm, by simp⟩

theorem toStatic_inv {m : DynMha} {s : Mha} (h : m.toStatic = .ok s) :
    ∃ e hh q rel, m.embed = some e ∧ m.heads = some hh ∧ m.qEmbed = some q ∧ staticRel m.rel = .ok rel ∧
      s = ⟨e, hh, m.wq.cut q e, m.wk.cut q e, m.wv.cut q e, m.proj.cut e q, 1 / 8, rel⟩ := by
  unfold DynMha.toStatic at h
  rcases he : m.embed with _ | e
  · simp [he, registered, bind, Except.bind] at h
  rcases hh : m.heads with _ | hd
  · simp [he, hh, registered, bind, Except.bind] at h
  rcases hq : m.qEmbed with _ | q
  · simp [he, hh, hq, registered, bind, Except.bind] at h
  simp only [he, hh, hq, registered, bind, Except.bind] at h
  rcases h1 : cloneBias (m.wq.cut q e) with _ | w1 <;> simp only [h1, reduceCtorEq] at h
  rcases h2 : cloneBias (m.wk.cut q e) with _ | w2 <;> simp only [h2, reduceCtorEq] at h
  rcases h3 : cloneBias (m.wv.cut q e) with _ | w3 <;> simp only [h3, reduceCtorEq] at h
  rcases h4 : cloneBias (m.proj.cut e q) with _ | w4 <;> simp only [h4, reduceCtorEq] at h
  rcases h5 : staticRel m.rel with _ | rel <;> simp only [h5, reduceCtorEq, Except.ok.injEq] at h
  refine ⟨e, hd, q, rel, rfl, rfl, rfl, rfl, ?_⟩
  rw [← h, (cloneBias_ok h1).1, (cloneBias_ok h2).1, (cloneBias_ok h3).1, (cloneBias_ok h4).1]

theorem staticRel_map {r : Option (DynRelPos × DynRelPos)} {rel} (h : staticRel r = .ok rel)
    (h14 : ∀ k v, r = some (k, v) → k.base.maxRel = 14 ∧ v.base.maxRel = 14) (n : ℕ) :
    (rel.map fun r => r.1.forward n) = (r.map fun r => r.1.forward n) ∧
      (rel.map fun r => r.2.forward n) = (r.map fun r => r.2.forward n) := by
  rcases r with _ | ⟨k, v⟩
  · simp only [staticRel, Except.ok.injEq] at h
    subst h; exact ⟨rfl, rfl⟩
  · unfold staticRel at h
    rcases hk : k.toStatic with _ | k' <;> simp only [hk, bind, Except.bind, reduceCtorEq] at h
    rcases hv : v.toStatic with _ | v' <;> simp only [hv, reduceCtorEq, Except.ok.injEq] at h
    subst h
    obtain ⟨g1, g2⟩ := h14 k v rfl
    simp only [Option.map_some]
    rw [static_relative hk g1, static_relative hv g2]
    exact ⟨rfl, rfl⟩

theorem runLayers_eq {α : Type} (d : ℕ) : ∀ (ls : List (α → α)) (p : ℕ) (x : α), p ≤ d →
    runLayers d p (ls.map Entry.layer ++ [.ignored]) x = (ls.take (d - p)).foldl (fun y f => f y) x
  | [], p, x, _ => by simp [runLayers]
  | f :: ls, p, x, hp => by
    rw [List.map_cons, List.cons_append]
    show (if d < p + 1 then x else runLayers d (p + 1) (ls.map Entry.layer ++ [.ignored]) (f x)) = _
    by_cases h : d < p + 1
    · rw [if_pos h, show d - p = 0 by omega]; rfl
    · rw [if_neg h, runLayers_eq d ls (p + 1) (f x) (by omega), show d - p = (d - (p + 1)) + 1 by omega]; rfl

theorem pickLayers_eq {α : Type} (d : ℕ) : ∀ (ls : List (α → α)) (p : ℕ), p ≤ d →
    pickLayers d p (ls.map Entry.layer ++ [.ignored]) = ls.take (d - p)
  | [], p, _ => by simp [pickLayers]
  | f :: ls, p, hp => by
    rw [List.map_cons, List.cons_append]
    show (if d < p + 1 then [] else f :: pickLayers d (p + 1) (ls.map Entry.layer ++ [.ignored])) = _
    by_cases h : d < p + 1
    · rw [if_pos h, show d - p = 0 by omega]; rfl
    · rw [if_neg h, pickLayers_eq d ls (p + 1) (by omega), show d - p = (d - (p + 1)) + 1 by omega]; rfl

theorem le_maxOf {l : List ℕ} {a : ℕ} (h : a ∈ l) : a ≤ maxOf l := by
  have gen : ∀ (l : List ℕ) (z : ℕ), z ≤ l.foldl max z ∧ ∀ a ∈ l, a ≤ l.foldl max z := by
    intro l
    induction l with
    | nil => intro z; simp
    | cons b l ih =>
      intro z
      obtain ⟨h1, h2⟩ := ih (max z b)
      refine ⟨le_trans (le_max_left _ _) h1, fun a ha => ?_⟩
      rcases List.mem_cons.1 ha with rfl | ha
      · exact le_trans (le_max_right _ _) h1
      · exact h2 a ha
  exact (gen l 0).2 a h

theorem mapM_replicate (last H : ℕ) : ∀ (l : List ℕ), (∀ i ∈ l, i < last) →
    (l.mapM fun i => match (List.replicate last H)[i]? with
      | some h => (Except.ok h : Except Err ℕ)
      | none => .error .index) = .ok (List.replicate l.length H)
  | [], _ => rfl
  | a :: l, h => by
    have ha : (List.replicate last H)[a]? = some H := by
      rw [List.getElem?_replicate, if_pos (h a (by simp))]
    rw [List.mapM_cons, mapM_replicate last H l fun i hi => h i (by simp [hi])]
    simp [ha, bind, Except.bind, pure, Except.pure, List.replicate_succ]

theorem mapM_error {f : ℕ → Except Err ℕ} {e : Err} : ∀ (l : List ℕ), (∃ i ∈ l, f i = .error e) →
    (∀ i e', f i = .error e' → e' = e) → l.mapM f = .error e
  | [], h, _ => by simp at h
  | a :: l, h, he => by
    rw [List.mapM_cons]
    rcases hf : f a with e' | v
    · rw [he a e' hf]; rfl
    · have : ∃ i ∈ l, f i = .error e := by
        obtain ⟨i, hi, hfi⟩ := h
        rcases List.mem_cons.1 hi with rfl | hi
        · rw [hf] at hfi; simp at hfi
        · exact ⟨i, hi, hfi⟩
      have ih := mapM_error l this he
      simp [bind, Except.bind, ih]

theorem attention_runtime {heads n dim features c : ℕ} {scale : ℝ} {wq wk wv proj : Linear}
    {r : Except Err (ℕ × (ℕ → ℕ → ℕ → ℝ))} {relV : Option (Except Err (ℕ × (ℕ → ℕ → ℕ → ℝ)))} {x : ℕ → ℕ → ℕ → ℝ}
    {E : ℕ → ℕ → ℕ → ℝ} (hr : r = .ok (c, E)) (hc : c ≠ dim) :
    attention heads n dim features scale wq wk wv proj (some r) relV x = .error .runtime := by
  have ap : ∀ (w : Linear) (f : ℕ) (y : ℕ → ℕ → ℕ → ℝ), w.apply f y = .error .runtime ∨ ∃ z, w.apply f y = .ok z := by
    intro w f y
    unfold Linear.apply
    by_cases h : f = w.inF
    · right; rw [if_pos h]; exact ⟨_, rfl⟩
    · left; rw [if_neg h]
  have sp : ∀ (s : ℕ) (y : ℕ → ℕ → ℕ → ℝ), split s heads dim y = .error .runtime ∨ ∃ z, split s heads dim y = .ok z := by
    intro s y
    unfold split
    by_cases h : s = heads * dim
    · right; rw [if_pos h]; exact ⟨_, rfl⟩
    · left; rw [if_neg h]
  have rf : relFor dim r = .error .runtime := by
    unfold relFor
    rw [hr]
    exact if_neg hc
  unfold attention
  rcases ap wq features x with h1 | ⟨q0, h1⟩
  · rw [h1]; rfl
  rcases sp wq.outF q0 with h2 | ⟨q, h2⟩
  · rw [h1]; simp only [bind, Except.bind, h2]
  rcases ap wk features x with h3 | ⟨k0, h3⟩
  · rw [h1, h3]; simp only [bind, Except.bind, h2]
  rcases sp wk.outF k0 with h4 | ⟨k, h4⟩
  · rw [h1, h3]; simp only [bind, Except.bind, h2, h4]
  rcases ap wv features x with h5 | ⟨v0, h5⟩
  · rw [h1, h3, h5]; simp only [bind, Except.bind, h2, h4]
  rcases sp wv.outF v0 with h6 | ⟨v, h6⟩
  · rw [h1, h3, h5]; simp only [bind, Except.bind, h2, h4, h6]
  rw [h1, h3, h5]
  simp only [bind, Except.bind, h2, h4, h6, Option.mapM_some, rf, Functor.map, Except.map]

end Verif.Autoformer
