import Verif.Lemmas.Autoformer

namespace Verif.Autoformer
open Verif

/-! ## Specification -/

/-! ## Relative positions -/

/-- On a square grid of `s × s` patches after a class token, the embedding of a pair of patches is that of
their displacement: a row of each table for the rows and for the columns between them. Pairs with the
class token get row 0 of both tables. -/
theorem C69_relative (D m s : ℕ) (tv th : ℕ → ℕ → ℝ) :
    ∃ E, (RelPos.init D m tv th).forward (s * s + 1) = .ok (D, E) ∧
      (∀ j d, E 0 j d = tv 0 d + th 0 d) ∧ (∀ i d, E i 0 d = tv 0 d + th 0 d) ∧
      ∀ a b a' b' d, b < s → b' < s →
        E (1 + a * s + b) (1 + a' * s + b') d = tv (rowOf m ((a' : ℤ) - a)) d + th (rowOf m ((b' : ℤ) - b)) d := by
  refine ⟨_, forward_ok (RelPos.init D m tv th) rfl _, ?_, ?_, ?_⟩
  · intro j d; simp [RelPos.init, finalV, finalH]
  · intro i d; simp [RelPos.init, finalV, finalH]
  · intro a b a' b' d hb hb'
    have hs : Nat.sqrt (s * s + 1 - 1) = s := by rw [Nat.add_sub_cancel, Nat.sqrt_eq]
    dsimp only [RelPos.init]
    rw [hs, finalV_patch m s a b a' b' hb hb', finalH_patch m s a b a' b' hb hb']

/-- Displacements up to the largest have rows of their own, none of them that of the class token, and all
rows are in the table. -/
theorem C69_rows (m : ℕ) :
    (∀ δ, 1 ≤ rowOf m δ ∧ rowOf m δ < (RelPos.init 64 m (fun _ _ => 0) fun _ _ => 0).rows) ∧
      ∀ δ δ' : ℤ, |δ| ≤ m → |δ'| ≤ m → rowOf m δ = rowOf m δ' → δ = δ' := by
  refine ⟨fun δ => ⟨(rowOf_bounds m δ).1, ?_⟩, ?_⟩
  · have := (rowOf_bounds m δ).2
    simp only [RelPos.init]; omega
  · intro δ δ' h1 h2 h
    rw [abs_le] at h1 h2
    unfold rowOf at h
    rw [if_neg (by omega), if_neg (by omega), if_neg (by omega), if_neg (by omega)] at h
    omega

/-- DISAGREEMENT: the side of the grid is taken to be the square root of the number of patches. On a grid
that is not square the displacement is wrong: on two rows of three patches, the first patches of both rows
count as one column apart. -/
theorem C69_rectangle_violated {m : ℕ} (hm : 1 ≤ m) :
    ∃ tv th E, (RelPos.init 64 m tv th).forward (2 * 3 + 1) = .ok (64, E) ∧
      E (1 + 0 * 3 + 0) (1 + 1 * 3 + 0) 0 ≠ tv (rowOf m 1) 0 + th (rowOf m 0) 0 := by
  refine ⟨fun _ _ => 0, fun r _ => r, _, forward_ok (RelPos.init 64 m _ _) rfl _, ?_⟩
  have e : (finalH m (Nat.sqrt (2 * 3 + 1 - 1)) (1 + 0 * 3 + 0) (1 + 1 * 3 + 0)).toNat = rowOf m 1 := by
    have hs : Nat.sqrt (2 * 3 + 1 - 1) = 2 := by norm_num
    rw [hs]
    unfold finalH
    rw [if_neg (by omega), clampTo_row, Int.toNat_natCast]
    norm_num
  dsimp only [RelPos.init]
  rw [e]
  have h1 : rowOf m 1 = m + 2 := by
    unfold rowOf; rw [if_neg (by omega), if_neg (by omega)]; omega
  have h0 : rowOf m 0 = m + 1 := by
    unfold rowOf; rw [if_neg (by omega), if_neg (by omega)]; omega
  rw [h1, h0]
  push_cast
  norm_num

/-- The exported relative positions are those of the searched module when the largest displacement is 14.
Missing: any other value, see `C69_static_relative_violated`. -/
theorem C69_static_relative_partial {r : DynRelPos} {s : RelPos} (h : r.toStatic = .ok s) (hm : r.base.maxRel = 14) (n : ℕ) :
    s.forward n = r.forward n := static_relative h hm n

example : ∃ s, (DynRelPos.mk (RelPos.init 64 14 (fun _ _ => 1) fun _ _ => 2) (some 64)).toStatic = .ok s := ⟨_, rfl⟩

/-- DISAGREEMENT: the exported module keeps the tables but not the largest displacement, which becomes 14
again. For every other value some tables give other embeddings, or an index outside the table. -/
theorem C69_static_relative_violated {D m c : ℕ} (hm : m ≠ 14) {n : ℕ} (hn : 2 ≤ n) :
    ∃ tv th s, (DynRelPos.mk (RelPos.init D m tv th) (some c)).toStatic = .ok s ∧
      s.forward n ≠ (DynRelPos.mk (RelPos.init D m tv th) (some c)).forward n := by
  refine ⟨fun r _ => r, fun _ _ => 0, _, rfl, ?_⟩
  have hd : (DynRelPos.mk (RelPos.init D m (fun r _ => (r : ℝ)) fun _ _ => 0) (some c)).forward n =
      RelPos.forward { RelPos.init D m (fun r _ => (r : ℝ)) (fun _ _ => 0) with headDims := min c D } n := rfl
  rw [hd, forward_ok { RelPos.init D m (fun r _ => (r : ℝ)) (fun _ _ => 0) with headDims := min c D } rfl]
  intro h
  unfold RelPos.forward at h
  dsimp only at h
  split_ifs at h with hc
  · simp only [Except.ok.injEq, Prod.mk.injEq] at h
    have h11 := congrFun (congrFun (congrFun h.2 1) 1) 0
    simp only [RelPos.init, add_zero, Nat.cast_inj] at h11
    have e : ∀ m s, (finalV m s 1 1).toNat = m + 1 := by
      intro m s
      unfold finalV
      rw [if_neg (by omega), clampTo_row, Int.toNat_natCast]
      unfold rowOf
      rw [if_neg (by omega), if_neg (by omega)]; omega
    rw [e, e] at h11
    omega

example : ∃ tv th s, (DynRelPos.mk (RelPos.init 64 10 tv th) (some 64)).toStatic = .ok s ∧
    s.forward 197 ≠ (DynRelPos.mk (RelPos.init 64 10 tv th) (some 64)).forward 197 :=
  C69_static_relative_violated (by norm_num) (by norm_num)

/-! ## Attention -/

/-- With `h` heads and width `e` chosen, the layer adds up the projected outputs of the first `h` heads of
the supernet, each attending with its own 64 features, on the first `e` features. The output of a head
does not depend on how many heads are chosen. -/
theorem C69_heads {m : DynMha} {h e : ℕ} (hm : m.Fits h e) {n : ℕ} {EK EV : ℕ → ℕ → ℕ → ℝ}
    (hE : m.Embeds n EK EV) (x : ℕ → ℕ → ℕ → ℝ) :
    m.forward n e x = .ok fun b i o =>
      (∑ t ∈ Finset.range h, ∑ d ∈ Finset.range 64, m.proj.weight o (t * 64 + d) *
        headOut m.wq m.wk m.wv e 64 n m.scale EK EV (x b) t i d) + (m.proj.bias.getD fun _ => 0) o := dyn_attention hm hE x

/-- The embeddings of a searched module are those of its tables, cut to the active features. -/
theorem C69_relative_active (D m s c : ℕ) (tv th : ℕ → ℕ → ℝ) :
    ∃ E, (DynRelPos.mk (RelPos.init D m tv th) (some c)).forward (s * s + 1) = .ok (min c D, E) ∧
      (RelPos.init D m tv th).forward (s * s + 1) = .ok (D, E) :=
  ⟨_, forward_ok { RelPos.init D m tv th with headDims := min c D } rfl _, forward_ok (RelPos.init D m tv th) rfl _⟩

example : ∃ EK EV, (tiny 3 1 none (some (⟨RelPos.init 64 14 (fun r _ => r) fun _ _ => 1, some 64⟩,
    ⟨RelPos.init 64 14 (fun _ _ => 0) fun r _ => r, some 64⟩))).Embeds (14 * 14 + 1) EK EV := by
  obtain ⟨E1, h1, _⟩ := C69_relative_active 64 14 14 64 (fun r _ => r) fun _ _ => 1
  obtain ⟨E2, h2, _⟩ := C69_relative_active 64 14 14 64 (fun _ _ => 0) fun r _ => r
  exact ⟨E1, E2, Or.inr ⟨_, _, rfl, h1, h2⟩⟩

/-- With relative positions, a query width that does not give every head as many features as the
positions have is refused, whatever the weights are. -/
theorem C69_width {m : DynMha} {h e q c : ℕ} (hh : m.heads = some h) (he : m.embed = some e) (hq : m.qEmbed = some q)
    (h0 : h ≠ 0) {k v : DynRelPos} (hr : m.rel = some (k, v)) {n : ℕ} {E : ℕ → ℕ → ℕ → ℝ} (hk : k.forward n = .ok (c, E))
    (hc : c ≠ q / h) (f : ℕ) (x : ℕ → ℕ → ℕ → ℝ) : m.forward n f x = .error .runtime := by
  unfold DynMha.forward
  simp only [hh, he, hq, registered, bind, Except.bind]
  rw [if_neg h0, hr]
  exact attention_runtime hk hc

example : ∃ m : DynMha, m.heads = some 2 ∧ m.embed = some 3 ∧ m.qEmbed = some 64 ∧ m.rel = some
    (⟨RelPos.init 64 14 (fun r _ => r) fun _ _ => 1, some 64⟩, ⟨RelPos.init 64 14 (fun _ _ => 0) fun r _ => r, some 64⟩) :=
  ⟨{ tiny 3 1 none (some (⟨RelPos.init 64 14 (fun r _ => r) fun _ _ => 1, some 64⟩,
    ⟨RelPos.init 64 14 (fun _ _ => 0) fun r _ => r, some 64⟩)) with heads := some 2 }, rfl, rfl, rfl, rfl⟩

/-- Without registered choices the layer cannot be used (its branches for that case are not reached). -/
theorem C69_unregistered (m : DynMha) (n f : ℕ) (x : ℕ → ℕ → ℕ → ℝ) (h : m.qEmbed = none ∨ m.embed = none) :
    m.forward n f x = .error .key := by
  unfold DynMha.forward
  rcases h with h | h
  · simp [h, registered, bind, Except.bind]
  · rcases hq : m.qEmbed with _ | q
    · simp [registered, bind, Except.bind]
    · simp [h, registered, bind, Except.bind]

/-! ## Export of the attention -/

/-- The exported attention computes what the searched one does, when the query width is 64 for each chosen
head, the scale is the default one and relative positions reach to 14. Missing: other scales and other
largest displacements, see `C69_scale_violated` and `C69_static_relative_violated`. -/
theorem C69_static_partial {m : DynMha} {s : Mha} (hs : m.toStatic = .ok s) {h : ℕ} (h0 : 0 < h)
    (hh : m.heads = some h) (hq : m.qEmbed = some (h * 64)) (hsc : m.scale = 1 / 8)
    (h14 : ∀ k v, m.rel = some (k, v) → k.base.maxRel = 14 ∧ v.base.maxRel = 14) (n f : ℕ) (x : ℕ → ℕ → ℕ → ℝ) :
    s.forward n f x = m.forward n f x := by
  obtain ⟨e, h', q, rel, g1, g2, g3, g4, rfl⟩ := toStatic_inv hs
  rw [hh, Option.some.injEq] at g2
  rw [hq, Option.some.injEq] at g3
  subst g2 g3
  have hd : h * 64 / h = 64 := by rw [Nat.mul_comm]; exact Nat.mul_div_cancel _ h0
  obtain ⟨r1, r2⟩ := staticRel_map g4 h14 n
  unfold DynMha.forward Mha.forward
  simp only [hh, g1, hq, registered, bind, Except.bind]
  rw [if_neg h0.ne', hd, hsc, r1, r2]

/-- The export succeeds when everything is registered and all four projections have a bias. -/
theorem C69_static_succeeds {m : DynMha} {h e q : ℕ} (hh : m.heads = some h) (he : m.embed = some e)
    (hq : m.qEmbed = some q) (hb : ∀ w ∈ [m.wq, m.wk, m.wv, m.proj], w.bias ≠ none)
    (hr : ∀ k v, m.rel = some (k, v) → k.head ≠ none ∧ v.head ≠ none) : ∃ s, m.toStatic = .ok s := by
  have cb : ∀ (w : Linear) (a b : ℕ), w.bias ≠ none → cloneBias (w.cut a b) = .ok (w.cut a b) := by
    intro w a b hw
    obtain ⟨c, hc⟩ := Option.ne_none_iff_exists'.1 hw
    have : (w.cut a b).bias = some c := hc
    unfold cloneBias
    rw [this]
  have sr : ∃ rel, staticRel m.rel = .ok rel := by
    rcases hm : m.rel with _ | ⟨k, v⟩
    · exact ⟨none, rfl⟩
    · obtain ⟨h1, h2⟩ := hr k v hm
      obtain ⟨c, hc⟩ := Option.ne_none_iff_exists'.1 h1
      obtain ⟨c', hc'⟩ := Option.ne_none_iff_exists'.1 h2
      simp [staticRel, DynRelPos.toStatic, hc, hc', bind, Except.bind]
  obtain ⟨rel, hrel⟩ := sr
  unfold DynMha.toStatic
  simp only [hh, he, hq, registered, bind, Except.bind, cb m.wq _ _ (hb _ (by simp)), cb m.wk _ _ (hb _ (by simp)),
    cb m.wv _ _ (hb _ (by simp)), cb m.proj _ _ (hb _ (by simp)), hrel]
  exact ⟨_, rfl⟩

example : ∃ s, (tiny 3 (1 / 8) (some fun _ => 0) none).toStatic = .ok s :=
  C69_static_succeeds (h := 1) (e := 3) (q := 64) rfl rfl rfl (by simp [tiny]) (by simp [tiny])

/-- DISAGREEMENT: attention without biases for queries, keys and values is allowed (`qkv_bias=False`) and
can be trained and searched, but cannot be exported. -/
theorem C69_bias_violated {w : ℕ} (scale : ℝ) (n : ℕ) (x : ℕ → ℕ → ℕ → ℝ) :
    (∃ y, (tiny w scale none none).forward n w x = .ok y) ∧
      (tiny w scale none none).toStatic = .error .attribute := by
  refine ⟨⟨_, dyn_attention (tiny_fits w scale none none) (Or.inl ⟨rfl, rfl, rfl⟩) x⟩, ?_⟩
  rfl

/-- DISAGREEMENT: the exported attention has the default scale, whatever `qk_scale` was given: for every
other scale there is an input on which the exported layer answers differently. -/
theorem C69_scale_violated {scale : ℝ} (hs : scale ≠ 1 / 8) :
    ∃ s x y z, (tiny 1 scale (some fun _ => 0) none).toStatic = .ok s ∧
      (tiny 1 scale (some fun _ => 0) none).forward 2 1 x = .ok y ∧ s.forward 2 1 x = .ok z ∧ y 0 0 0 ≠ z 0 0 0 := by
  set x : ℕ → ℕ → ℕ → ℝ := fun _ i _ => if i = 0 then 1 else 0 with hx
  have key : ∀ sc : ℝ, ∃ y, (tiny 1 sc (some fun _ => 0) none).forward 2 1 x = .ok y ∧
      y 0 0 0 = Real.exp sc / (Real.exp sc + 1) := by
    intro sc
    refine ⟨_, dyn_attention (tiny_fits 1 sc _ none) (Or.inl ⟨rfl, rfl, rfl⟩) x, ?_⟩
    have ha : ∀ j o, affine ⟨64, 1, fun o i => if o = 0 ∧ i = 0 then 1 else 0, some fun _ => 0⟩ 1 (x 0 j) o =
        if o = 0 ∧ j = 0 then 1 else 0 := by
      intro j o
      by_cases ho : o = 0 <;> by_cases hj : j = 0 <;> simp [affine, hx, ho, hj]
    have hsc : ∀ j, headScore (tiny 1 sc (some fun _ => 0) none).wq (tiny 1 sc (some fun _ => 0) none).wk 1 64 sc
        (fun _ _ _ => 0) (x 0) 0 0 j = if j = 0 then sc else 0 := by
      intro j
      unfold headScore tiny
      simp only [ha]
      by_cases hj : j = 0 <;> simp [hj]
    have ho : ∀ d, headOut (tiny 1 sc (some fun _ => 0) none).wq (tiny 1 sc (some fun _ => 0) none).wk
        (tiny 1 sc (some fun _ => 0) none).wv 1 64 2 sc (fun _ _ _ => 0) (fun _ _ _ => 0) (x 0) 0 0 d =
        if d = 0 then Real.exp sc / (Real.exp sc + 1) else 0 := by
      intro d
      unfold headOut
      simp only [hsc]
      simp only [tiny, ha]
      by_cases hd : d = 0 <;> simp [hd, Finset.sum_range_succ]
    show (∑ t ∈ Finset.range 1, ∑ d ∈ Finset.range 64, (if 0 = 0 ∧ t * 64 + d = 0 then (1 : ℝ) else 0) * _) + 0 = _
    rw [Finset.sum_range_one, Finset.sum_eq_single 0]
    · rw [show (tiny 1 sc (some fun _ => 0) none).scale = sc from rfl, ho]; simp
    · intro d _ hd; simp [hd]
    · simp
  obtain ⟨y, hy, hy0⟩ := key scale
  obtain ⟨z, hz, hz0⟩ := key (1 / 8)
  obtain ⟨s, hst⟩ : ∃ s, (tiny 1 scale (some fun _ => 0) none).toStatic = .ok s := ⟨_, rfl⟩
  obtain ⟨s', hst'⟩ : ∃ s, (tiny 1 (1 / 8) (some fun _ => 0) none).toStatic = .ok s := ⟨_, rfl⟩
  have hss : s = s' := by
    have : (tiny 1 scale (some fun _ => 0) none).toStatic = (tiny 1 (1 / 8) (some fun _ => 0) none).toStatic := rfl
    rw [this, hst'] at hst
    exact (Except.ok.inj hst).symm
  refine ⟨s, x, y, z, hst, hy, ?_, ?_⟩
  · rw [hss, ← hz]
    exact C69_static_partial hst' (h := 1) one_pos rfl rfl rfl (by simp [tiny]) 2 1 x
  · rw [hy0, hz0]
    intro he
    have p1 := Real.exp_pos scale
    have p2 := Real.exp_pos (1 / 8)
    rw [div_eq_div_iff (by linarith) (by linarith)] at he
    have : Real.exp scale = Real.exp (1 / 8) := by linarith
    exact hs (Real.exp_injective this)

/-! ## Depth -/

/-- With depth `d` exactly the first `d` layers run, one after the other, and the exported sequence consists
of them. -/
theorem C69_depth {α : Type} (layers : List (α → α)) {d : ℕ} (hd : d ≤ layers.length) (x : α) :
    ∃ s, (DynSeq.init layers).register d = .ok s ∧
      s.forward x = .ok ((layers.take d).foldl (fun y f => f y) x) ∧ s.toStatic = .ok (layers.take d) := by
  refine ⟨_, if_neg (by simp [DynSeq.init]; omega), ?_, ?_⟩
  · show Except.ok (runLayers d 0 (layers.map Entry.layer ++ [.ignored]) x) = _
    rw [runLayers_eq d layers 0 x (by omega)]; rfl
  · show Except.ok (pickLayers d 0 (layers.map Entry.layer ++ [.ignored])) = _
    rw [pickLayers_eq d layers 0 (by omega)]; rfl

example : ∃ s, (DynSeq.init [(· + 1), (· * 3), (· + 7)]).register 2 = .ok s ∧ s.forward 4 = .ok 15 := by
  obtain ⟨s, h1, h2, _⟩ := C69_depth [(· + 1), (· * 3), (· + 7)] (d := 2) (by simp) (4 : ℕ)
  exact ⟨s, h1, h2⟩

/-- DISAGREEMENT: a depth larger than the number of layers is to be refused, but the dictionary of mutables
counts as a layer: one more than there are is accepted. Two more are refused. -/
theorem C69_depth_violated {α : Type} (layers : List (α → α)) :
    (∃ s, (DynSeq.init layers).register (layers.length + 1) = .ok s) ∧
      ∀ d, layers.length + 1 < d → (DynSeq.init layers).register d = .error .value := by
  refine ⟨⟨_, if_neg (by simp [DynSeq.init])⟩, fun d hd => if_pos (by simp [DynSeq.init]; omega)⟩

/-- DISAGREEMENT: a sequence whose depth is not searched is to run all its layers; it raises instead. -/
theorem C69_depth_missing_violated {α : Type} (layers : List (α → α)) (x : α) :
    (DynSeq.init layers).forward x = .error .key ∧ (DynSeq.init layers).toStatic = .error .key := ⟨rfl, rfl⟩

/-! ## Backbone -/

/-- When the last depth listed is the largest, as many layers are built, each with the largest number of
heads. Missing: other orders, see `C69_build_violated`. -/
theorem C69_build_partial {depths heads : List ℕ} {d : ℕ} (hl : depths.getLast? = some d) (hm : ∀ a ∈ depths, a ≤ d)
    {H : ℕ} (hH : H ∈ heads) (hmax : ∀ a ∈ heads, a ≤ H) : buildLayers depths heads = .ok (List.replicate d H) := by
  have maxeq : ∀ (l : List ℕ) (a : ℕ), a ∈ l → (∀ b ∈ l, b ≤ a) → maxOf l = a := by
    intro l a ha hb
    refine le_antisymm ?_ (le_maxOf ha)
    have gen : ∀ (l : List ℕ) (z : ℕ), z ≤ a → (∀ b ∈ l, b ≤ a) → l.foldl max z ≤ a := by
      intro l
      induction l with
      | nil => intro z hz _; exact hz
      | cons b l ih => intro z hz hb; exact ih _ (max_le hz (hb b (by simp))) fun c hc => hb c (by simp [hc])
    exact gen l 0 (Nat.zero_le _) hb
  obtain ⟨b, l, rfl⟩ : ∃ b l, heads = b :: l := by
    cases heads with
    | nil => simp at hH
    | cons b l => exact ⟨b, l, rfl⟩
  unfold buildLayers
  rw [hl]
  dsimp only
  rw [maxeq depths d (List.mem_of_getLast? hl) hm, maxeq (b :: l) H hH hmax]
  have := mapM_replicate d H (List.range d) (by simp)
  rw [List.length_range] at this
  exact this

example : buildLayers [14, 15, 16] [8, 9, 10] = .ok (List.replicate 16 10) :=
  C69_build_partial rfl (by decide) (by decide) (by decide)

/-- DISAGREEMENT: the depths may be listed in any order, but when the last is not the largest the
construction of the backbone raises. -/
theorem C69_build_violated {depths heads : List ℕ} {d a : ℕ} (hl : depths.getLast? = some d) (ha : a ∈ depths)
    (hlt : d < a) : buildLayers depths heads = .error .index := by
  unfold buildLayers
  rw [hl]
  rcases heads with _ | ⟨b, l⟩
  · rfl
  · dsimp only
    refine mapM_error _ ⟨d, List.mem_range.2 (lt_of_lt_of_le hlt (le_maxOf ha)), ?_⟩ ?_
    · rw [List.getElem?_replicate, if_neg (lt_irrefl d)]
    · intro i e' h
      split at h
      · simp at h
      · exact (Except.error.inj h).symm

/-- With patches of 16 every image of at least 16 gives one token for each patch and the class token. Missing: other patches,
see `C69_patch_violated`. -/
theorem C69_tokens_partial {img : ℕ} (h : 16 ≤ img) : tokens img 16 = .ok ((img / 16) * (img / 16) + 1) := by
  unfold tokens
  simp only [show ¬ img < 16 by omega, if_false]
  norm_num

/-- DISAGREEMENT: `patch_size` changes the number of positions but not the patches, which stay 16 wide.
Other sizes fail in the forward pass, and one larger than the image gives all tokens the same position
without any error. -/
theorem C69_patch_violated {img patch : ℕ} (h : 16 ≤ img) (hp : 0 < patch) :
    (img / patch ≠ img / 16 → patch ≤ img → tokens img patch = .error .runtime) ∧
      (img < patch → tokens img patch = .ok ((img / 16) * (img / 16) + 1)) := by
  have h16 : 0 < img / 16 := Nat.div_pos h (by norm_num)
  constructor
  · intro hne hle
    have hpp : 0 < img / patch := Nat.div_pos hle hp
    unfold tokens
    simp only [hp.ne', if_false, show ¬ img < 16 by omega]
    rw [if_neg, if_neg, if_neg]
    · have := Nat.mul_pos hpp hpp; omega
    · have := Nat.mul_pos h16 h16; omega
    · intro he
      exact hne (Nat.mul_self_inj.1 (Nat.add_right_cancel he)).symm
  · intro hlt
    unfold tokens
    simp only [hp.ne', if_false, show ¬ img < 16 by omega, Nat.div_eq_of_lt hlt]
    have := Nat.mul_pos h16 h16
    rw [if_neg (by omega), if_neg (by omega), if_pos (by norm_num)]

example : tokens 224 32 = .error .runtime := (C69_patch_violated (by norm_num) (by norm_num)).1 (by norm_num) (by norm_num)

/-- Which image and patch sizes are refused, and with which error: patches of size 0 (ZeroDivisionError); images smaller
than 16 and positions that differ in number from the patches, unless one of them is a single one (RuntimeError). -/
theorem C69_tokens_refused (img patch : ℕ) (e : Err) :
    tokens img patch = .error e ↔ (patch = 0 ∧ e = .zeroDivision) ∨
      (patch ≠ 0 ∧ e = .runtime ∧ (img < 16 ∨ (img / 16 ≠ img / patch ∧ img / patch ≠ 0))) := by
  unfold tokens
  by_cases hp : patch = 0
  · simp [hp, eq_comm]
  · rw [if_neg hp]
    by_cases hi : img < 16
    · simp [hi, hp, eq_comm]
    · rw [if_neg hi]
      have h0 : img / 16 ≠ 0 := by omega
      generalize hb : img / patch = b
      generalize ha : img / 16 = a at h0
      dsimp only
      by_cases hab : a = b
      · subst hab
        simp [hp, hi]
      · have : a * a + 1 ≠ b * b + 1 := by
          intro h
          have : a * a = b * b := by omega
          exact hab (Nat.mul_self_inj.1 this)
        have h1 : a * a + 1 ≠ 1 := by
          intro h
          have : a * a = 0 := by omega
          exact h0 (by simpa using this)
        rw [if_neg this, if_neg h1]
        by_cases hb0 : b = 0
        · simp [hb0, hp, hi]
        · have h2 : b * b + 1 ≠ 1 := by
            intro h
            have : b * b = 0 := by omega
            exact hb0 (by simpa using this)
          rw [if_neg h2]
          simp [hp, hi, hab, hb0, eq_comm]

example : tokens 224 0 = .error .zeroDivision ∧ tokens 224 32 = .error .runtime ∧ tokens 16 32 = .ok 2 := by decide +kernel

/-- Relative positions are refused with an IndexError or not at all. -/
theorem C69_relative_refused (r : RelPos) (n : ℕ) (e : Err) (h : r.forward n = .error e) : e = .index := by
  unfold RelPos.forward at h
  dsimp only at h
  split at h
  · cases h
  · cases h
    rfl

/-- Without a registered number of features neither the forward pass nor the export of a relative position works. -/
theorem C69_relative_unregistered (r : DynRelPos) (n : ℕ) :
    (r.head = none → r.forward n = .error .key ∧ r.toStatic = .error .key) ∧
    (r.toStatic = .error .key → r.head = none) := by
  constructor
  · intro h
    simp [DynRelPos.forward, DynRelPos.toStatic, h]
  · intro h
    unfold DynRelPos.toStatic at h
    split at h <;> simp_all

example : (⟨RelPos.init 8 14 (fun _ _ => 0) (fun _ _ => 0), none⟩ : DynRelPos).forward 3 = .error .key :=
  ((C69_relative_unregistered _ 3).1 rfl).1

end Verif.Autoformer
