import Verif.Spec.Deploy
import Verif.Lemmas.OnnxExport

/-! Helper lemmas for `Verif/Props/Deploy.lean`. -/

namespace Verif.Deploy
open Verif GptqQuantizer

/-- The integer that a weight becomes. -/
def level (lo hi : ℤ) (s : ℚ) (w : ℚ) : ℤ := min (max (rhe (w / s)) lo) hi

/-- The largest size of a weight. -/
def top (ws : List ℚ) : ℚ := max (-(ws.foldr min 0)) (ws.foldr max 0)

theorem fq_ref (lo hi : ℤ) (q : ℚ × ℤ) : fq lo hi q = Onnx.fakeRef q.1 q.2 lo hi := rfl

/-- The weights in terms of the code's fake quantisation. -/
def Layer.weightsFq (c : Cfg) (l : Layer) (i : ℕ) (ch : Channel) : List ℚ := match l.quant with
  | none => l.folded ch
  | some qs => (l.folded ch).map (fq c.lo c.hi (param c qs i))

theorem weights_fq (c : Cfg) (l : Layer) (i : ℕ) (ch : Channel) : l.weights c i ch = l.weightsFq c i ch := rfl

theorem rhe_neg (x : ℚ) : rhe (-x) = -rhe x := by
  by_cases h : ∃ k : ℤ, x = k + 1 / 2
  · obtain ⟨k, rfl⟩ := h
    have e : -((k : ℚ) + 1 / 2) = ((-k - 1 : ℤ) : ℚ) + 1 / 2 := by push_cast; ring
    rw [e, Onnx.rhe_tie, Onnx.rhe_tie]
    by_cases h1 : k % 2 = 0
    · rw [if_pos h1, if_neg (by omega)]; ring
    · rw [if_neg h1, if_pos (by omega)]; ring
  · refine Onnx.rhe_unique ?_
    have h1 := Onnx.rhe_spec x
    have h2 : |(rhe x : ℚ) - x| ≠ 1 / 2 := by
      intro h2
      apply h
      rcases (abs_eq (by norm_num)).1 h2 with h3 | h3
      · exact ⟨rhe x - 1, by push_cast; linarith⟩
      · exact ⟨rhe x, by linarith⟩
    have e : ((-rhe x : ℤ) : ℚ) - -x = -((rhe x : ℚ) - x) := by push_cast; ring
    rw [e, abs_neg]
    exact lt_of_le_of_ne h1 h2

theorem rhe_zero : rhe 0 = 0 := Onnx.rhe_int 0

theorem fq_zero_point (lo hi : ℤ) (s w : ℚ) : fq lo hi (s, 0) w = level lo hi s w * s := by
  unfold fq level
  norm_num

theorem level_le {lo hi : ℤ} (h : lo ≤ hi) (s w : ℚ) : lo ≤ level lo hi s w ∧ level lo hi s w ≤ hi := by
  unfold level
  omega

theorem foldr_min (ws : List ℚ) : (∀ w ∈ ws, ws.foldr min 0 ≤ w) ∧ ws.foldr min 0 ≤ 0 ∧
    (ws.foldr min 0 = 0 ∨ ws.foldr min 0 ∈ ws) := by
  induction ws with
  | nil => simp
  | cons a l ih =>
    obtain ⟨h1, h2, h3⟩ := ih
    simp only [List.foldr_cons]
    refine ⟨?_, (min_le_right _ _).trans h2, ?_⟩
    · intro w hw
      rcases List.mem_cons.1 hw with rfl | hw
      · exact min_le_left _ _
      · exact (min_le_right _ _).trans (h1 w hw)
    · rcases min_choice a (l.foldr min 0) with h | h
      · rw [h]; exact Or.inr (by simp)
      · rw [h]
        rcases h3 with h3 | h3
        · exact Or.inl h3
        · exact Or.inr (List.mem_cons_of_mem _ h3)

theorem foldr_max (ws : List ℚ) : (∀ w ∈ ws, w ≤ ws.foldr max 0) ∧ 0 ≤ ws.foldr max 0 ∧
    (ws.foldr max 0 = 0 ∨ ws.foldr max 0 ∈ ws) := by
  induction ws with
  | nil => simp
  | cons a l ih =>
    obtain ⟨h1, h2, h3⟩ := ih
    simp only [List.foldr_cons]
    refine ⟨?_, h2.trans (le_max_right _ _), ?_⟩
    · intro w hw
      rcases List.mem_cons.1 hw with rfl | hw
      · exact le_max_left _ _
      · exact (h1 w hw).trans (le_max_right _ _)
    · rcases max_choice a (l.foldr max 0) with h | h
      · rw [h]; exact Or.inr (by simp)
      · rw [h]
        rcases h3 with h3 | h3
        · exact Or.inl h3
        · exact Or.inr (List.mem_cons_of_mem _ h3)

theorem top_spec (ws : List ℚ) : (∀ w ∈ ws, |w| ≤ top ws) ∧ 0 ≤ top ws ∧ (top ws = 0 ∨ ∃ w ∈ ws, |w| = top ws) := by
  obtain ⟨a1, a2, a3⟩ := foldr_min ws
  obtain ⟨b1, b2, b3⟩ := foldr_max ws
  unfold top
  refine ⟨?_, b2.trans (le_max_right _ _), ?_⟩
  · intro w hw
    rw [abs_le]
    have := a1 w hw
    have := b1 w hw
    have := le_max_left (-(ws.foldr min 0)) (ws.foldr max 0)
    have := le_max_right (-(ws.foldr min 0)) (ws.foldr max 0)
    constructor <;> linarith
  · rcases max_choice (-(ws.foldr min 0)) (ws.foldr max 0) with h | h
    · rw [h]
      rcases a3 with h3 | h3
      · left; rw [h3]; norm_num
      · right
        exact ⟨_, h3, abs_of_nonpos a2⟩
    · rw [h]
      rcases b3 with h3 | h3
      · exact Or.inl h3
      · exact Or.inr ⟨_, h3, abs_of_nonneg b2⟩

theorem top_eq {ws : List ℚ} {m : ℚ} (h : ∀ w ∈ ws, |w| ≤ m) (hm : m = 0 ∨ ∃ w ∈ ws, |w| = m) (h0 : 0 ≤ m) : top ws = m := by
  obtain ⟨h1, h2, h3⟩ := top_spec ws
  apply le_antisymm
  · rcases h3 with h3 | ⟨w, hw, h3⟩
    · rw [h3]; exact h0
    · rw [← h3]; exact h w hw
  · rcases hm with rfl | ⟨w, hw, rfl⟩
    · exact h2
    · exact h1 w hw

theorem range_narrow {c : Cfg} (hc : c.Narrow) : c.lo = -c.hi ∧ 1 ≤ c.hi ∧ c.hi = 2 ^ (c.scheme.bit - 1) - 1 := by
  have hb := hc.bits
  have h2 : (2 : ℤ) ≤ 2 ^ (c.scheme.bit - 1) := by
    calc (2 : ℤ) = 2 ^ 1 := by norm_num
      _ ≤ 2 ^ (c.scheme.bit - 1) := pow_le_pow_right₀ (by norm_num) (by omega)
  unfold Cfg.lo Cfg.hi QParams.Scheme.range
  rw [hc.signed, hc.narrow]
  simp only [if_true]
  refine ⟨by ring, by omega, trivial⟩

theorem qparams_narrow {c : Cfg} (hc : c.Narrow) (ws : List ℚ) : c.qparams ws = (max (top ws / c.hi) c.eps, 0) := by
  obtain ⟨hlo, _, _⟩ := range_narrow hc
  unfold Cfg.qparams
  dsimp only
  rw [if_pos hc.symmetric, if_pos hc.signed, hlo]
  have : (((c.hi - -c.hi : ℤ) : ℚ) / 2) = c.hi := by push_cast; ring
  rw [this]
  rfl

/-- The largest size of an integer. -/
theorem top_levels {ws : List ℚ} {s : ℚ} (hs : 0 < s) (hi : ℤ) (h1 : 1 ≤ hi) :
    ∃ k : ℤ, 0 ≤ k ∧ k ≤ hi ∧ (∀ w ∈ ws, |level (-hi) hi s w| ≤ k) ∧ (k = 0 ∨ ∃ w ∈ ws, |level (-hi) hi s w| = k) ∧
      top (ws.map (fq (-hi) hi (s, 0))) = k * s := by
  have key : ∃ k : ℤ, 0 ≤ k ∧ k ≤ hi ∧ (∀ w ∈ ws, |level (-hi) hi s w| ≤ k) ∧ (k = 0 ∨ ∃ w ∈ ws, |level (-hi) hi s w| = k) := by
    induction ws with
    | nil => exact ⟨0, le_rfl, by omega, by simp, Or.inl rfl⟩
    | cons a l ih =>
      obtain ⟨k, k0, k1, k2, k3⟩ := ih
      have hl := level_le (show -hi ≤ hi by omega) s a
      have hab : |level (-hi) hi s a| ≤ hi := abs_le.2 ⟨by omega, hl.2⟩
      by_cases h : |level (-hi) hi s a| ≤ k
      · refine ⟨k, k0, k1, ?_, ?_⟩
        · intro w hw
          rcases List.mem_cons.1 hw with rfl | hw
          · exact h
          · exact k2 w hw
        · rcases k3 with h3 | ⟨w, hw, h3⟩
          · exact Or.inl h3
          · exact Or.inr ⟨w, List.mem_cons_of_mem _ hw, h3⟩
      · refine ⟨|level (-hi) hi s a|, abs_nonneg _, hab, ?_, Or.inr ⟨a, by simp, rfl⟩⟩
        intro w hw
        rcases List.mem_cons.1 hw with rfl | hw
        · exact le_rfl
        · exact (k2 w hw).trans (by omega)
  obtain ⟨k, k0, k1, k2, k3⟩ := key
  refine ⟨k, k0, k1, k2, k3, top_eq ?_ ?_ ?_⟩
  · intro v hv
    obtain ⟨w, hw, rfl⟩ := List.mem_map.1 hv
    rw [fq_zero_point, abs_mul, abs_of_pos hs]
    have : ((|level (-hi) hi s w| : ℤ) : ℚ) ≤ k := by exact_mod_cast k2 w hw
    rw [Int.cast_abs] at this
    exact mul_le_mul_of_nonneg_right this hs.le
  · rcases k3 with rfl | ⟨w, hw, h3⟩
    · left; simp
    · right
      refine ⟨_, List.mem_map_of_mem hw, ?_⟩
      rw [fq_zero_point, abs_mul, abs_of_pos hs, ← h3, Int.cast_abs]
  · have : (0 : ℚ) ≤ k := by exact_mod_cast k0
    positivity

/-- Quantising once more, with a scale for which nothing is cut off. -/
theorem again {hi n : ℤ} {s s' : ℚ} (hs' : 0 < s') (h : |(n : ℚ) * s| ≤ hi * s') :
    fq (-hi) hi (s', 0) (n * s) = rhe (n * s / s') * s' := by
  rw [fq_zero_point]
  unfold level
  have h1 : n * s / s' ≤ hi := by
    rw [div_le_iff₀ hs']
    exact (le_abs_self _).trans h
  have h2 : ((-hi : ℤ) : ℚ) ≤ n * s / s' := by
    rw [le_div_iff₀ hs']
    push_cast
    have := neg_le_of_abs_le h
    linarith
  have h3 := Onnx.rhe_le h1
  have h4 := Onnx.le_rhe h2
  rw [max_eq_left h4, min_eq_left h3]

/-- Twice the same scale. -/
theorem twice {hi n : ℤ} {s : ℚ} (hs : 0 < s) (h : |n| ≤ hi) : fq (-hi) hi (s, 0) (n * s) = n * s := by
  rw [again hs]
  · rw [mul_div_cancel_right₀ _ hs.ne', Onnx.rhe_int]
  · rw [abs_mul, abs_of_pos hs]
    have : ((|n| : ℤ) : ℚ) ≤ hi := by exact_mod_cast h
    rw [Int.cast_abs] at this
    exact mul_le_mul_of_nonneg_right this hs.le

theorem level_big {hi : ℤ} (h1 : 1 ≤ hi) {s w : ℚ} (hs : 0 < s) (h : ((hi : ℚ) - 1 / 2) * s < |w|) : |level (-hi) hi s w| = hi := by
  have hb : (hi : ℚ) - 1 / 2 < |w / s| := by
    rw [abs_div, abs_of_pos hs, lt_div_iff₀ hs]
    exact h
  have hsp := Onnx.rhe_spec (w / s)
  rw [abs_le] at hsp
  unfold level
  rcases abs_cases (w / s) with ⟨e, _⟩ | ⟨e, _⟩
  · rw [e] at hb
    have : ((hi - 1 : ℤ) : ℚ) < rhe (w / s) := by push_cast; linarith
    have : hi - 1 < rhe (w / s) := by exact_mod_cast this
    have e2 : min (max (rhe (w / s)) (-hi)) hi = hi := by omega
    rw [e2]
    exact abs_of_pos (by omega)
  · rw [e] at hb
    have : (rhe (w / s) : ℚ) < ((-hi + 1 : ℤ) : ℚ) := by push_cast; linarith
    have : rhe (w / s) < -hi + 1 := by exact_mod_cast this
    have e2 : min (max (rhe (w / s)) (-hi)) hi = -hi := by omega
    rw [e2, abs_neg]
    exact abs_of_pos (by omega)

theorem level_small {hi : ℤ} (h1 : 1 ≤ hi) {s w : ℚ} (hs : 0 < s) (h : |w| ≤ s / 2) : level (-hi) hi s w = 0 := by
  have hb : |w / s| ≤ 1 / 2 := by
    rw [abs_div, abs_of_pos hs, div_le_iff₀ hs]
    linarith
  rw [abs_le] at hb
  have h2 : rhe (w / s) = 0 := by
    rcases lt_or_eq_of_le hb.2 with h2 | h2
    · rcases lt_or_eq_of_le hb.1 with h3 | h3
      · exact Onnx.rhe_unique (by rw [abs_lt]; constructor <;> push_cast <;> linarith)
      · rw [← h3, show (-(1 / 2) : ℚ) = ((-1 : ℤ) : ℚ) + 1 / 2 by norm_num, Onnx.rhe_tie]
        norm_num
    · rw [h2, show (1 / 2 : ℚ) = ((0 : ℤ) : ℚ) + 1 / 2 by norm_num, Onnx.rhe_tie]
      norm_num
  unfold level
  rw [h2]
  omega

/-- Observing quantised weights and quantising them once more changes nothing. -/
theorem group_same {c : Cfg} (hc : c.Narrow) {ws : List ℚ} {s : ℚ} (hf : c.Fits ws s) {w : ℚ} (hw : w ∈ ws) :
    fq c.lo c.hi (c.qparams (ws.map (fq c.lo c.hi (s, 0)))) (fq c.lo c.hi (s, 0) w) = fq c.lo c.hi (s, 0) w := by
  obtain ⟨hlo, h1, _⟩ := range_narrow hc
  obtain ⟨he, hf⟩ := hf
  have hs : 0 < s := lt_of_lt_of_le hc.eps he
  have hh : (0 : ℚ) < c.hi := by exact_mod_cast (by omega : 0 < c.hi)
  rw [qparams_narrow hc, hlo]
  obtain ⟨k, k0, k1, k2, k3, k4⟩ := top_levels (ws := ws) hs c.hi h1
  rw [k4]
  have hl := level_le (show -c.hi ≤ c.hi by omega) s w
  have hab : |level (-c.hi) c.hi s w| ≤ c.hi := abs_le.2 ⟨by omega, hl.2⟩
  have hks : (k : ℚ) * s / c.hi ≤ s := by
    rw [div_le_iff₀ hh]
    have : (k : ℚ) ≤ c.hi := by exact_mod_cast k1
    nlinarith
  rcases hf with rfl | ⟨v, hv, hb⟩ | hz
  · rw [max_eq_right hks, fq_zero_point (s := c.eps) (w := w)]
    exact twice hs hab
  · have e1 := level_big h1 hs hb
    have e2 : k = c.hi := le_antisymm k1 (by rw [← e1]; exact k2 v hv)
    rw [e2, mul_div_cancel_left₀ _ hh.ne', max_eq_left he, fq_zero_point (s := s) (w := w)]
    exact twice hs hab
  · rw [fq_zero_point (s := s) (w := w), level_small h1 hs (hz w hw)]
    have : 0 < max ((k : ℚ) * s / c.hi) c.eps := lt_of_lt_of_le hc.eps (le_max_right _ _)
    rw [again this (by simp; positivity)]
    simp [rhe_zero]

/-- The weights of a layer are folded by `toFloat`, and the bias with them. -/
theorem toFloat_channels (l : Layer) : (toFloat l).channels = l.channels.map fun ch =>
    { ch with w := l.folded ch, bias := if l.bn then (ch.bias - ch.mean) * ch.rstd * ch.gamma + ch.beta else ch.bias } := by
  unfold toFloat
  by_cases h : l.bn = true
  · rw [if_pos h]
    refine List.map_congr_left fun ch _ => ?_
    unfold Layer.folded Layer.factor
    rw [if_pos h, if_pos h]
  · rw [if_neg h]
    refine (List.map_id' _).symm.trans (List.map_congr_left fun ch _ => ?_)
    unfold Layer.folded Layer.factor
    rw [if_neg h, if_neg h]
    simp

theorem toFloat_bn (l : Layer) : (toFloat l).bn = false := by
  unfold toFloat
  split_ifs with h
  · rfl
  · simpa using h

theorem toFloat_relu (l : Layer) : (toFloat l).relu = l.relu := by
  unfold toFloat
  split_ifs <;> rfl

theorem toFloat_quant (l : Layer) : (toFloat l).quant = none := by
  unfold toFloat
  split_ifs <;> rfl

/-- A layer without batch normalisation computes as one with it, when the weights and biases are folded. -/
theorem eval_eq {c : Cfg} {l d : Layer} (hb : d.bn = false) (hr : d.relu = l.relu)
    (hl : d.channels.length = l.channels.length)
    (hch : ∀ i (ch ch' : Channel), l.channels[i]? = some ch → d.channels[i]? = some ch' →
      d.weights c i ch' = l.weights c i ch ∧
      ch'.bias = if l.bn then (ch.bias - ch.mean) * ch.rstd * ch.gamma + ch.beta else ch.bias)
    (h0 : l.bn = true → ∀ ch ∈ l.channels, ch.gamma * ch.rstd ≠ 0) (x : List ℚ) : d.eval c x = l.eval c x := by
  unfold Layer.eval
  refine List.ext_getElem (by simp [hl]) fun i h1 h2 => ?_
  have i1 : i < d.channels.length := by simpa using h1
  have i2 : i < l.channels.length := by simpa using h2
  simp only [List.getElem_map, List.getElem_zipIdx, Nat.zero_add]
  obtain ⟨e1, e2⟩ := hch i _ _ (List.getElem?_eq_getElem i2) (List.getElem?_eq_getElem i1)
  have hm := List.getElem_mem i2
  generalize d.channels[i] = ch' at e1 e2 ⊢
  generalize l.channels[i] = ch at e1 e2 hm ⊢
  clear h1 h2
  unfold Layer.channel
  rw [e1, e2, if_neg (show ¬ d.bn = true by simp [hb])]
  have ha : ∀ y, d.act y = l.act y := fun y => by unfold Layer.act; rw [hr]
  by_cases hbn : l.bn = true
  · have hz := h0 hbn _ hm
    have hf : l.factor ch = ch.gamma * ch.rstd := by unfold Layer.factor; rw [if_pos hbn]
    rw [if_pos hbn, if_pos hbn, hf, if_neg hz, ha]
    have hg := left_ne_zero_of_mul hz
    have hrs := right_ne_zero_of_mul hz
    congr 2
    field_simp
    ring
  · rw [if_neg hbn, if_neg hbn, ha]

theorem folded_float {d : Layer} (hb : d.bn = false) (ch : Channel) : d.folded ch = ch.w := by
  unfold Layer.folded Layer.factor
  simp [hb]

theorem quantise_length (c : Cfg) (qs : List (ℚ × ℤ)) (cs : List Channel) : (quantise c qs cs).length = cs.length := by
  simp [quantise]

theorem quantise_get {c : Cfg} {qs : List (ℚ × ℤ)} {cs : List Channel} {i : ℕ} {ch' : Channel}
    (h : (quantise c qs cs)[i]? = some ch') : ∃ ch, cs[i]? = some ch ∧
      ch' = { ch with w := ch.w.map (fq c.lo c.hi (param c qs i)) } := by
  unfold quantise at h
  simp only [List.getElem?_map, List.getElem?_zipIdx, Nat.zero_add, Option.map_map, Option.map_eq_some_iff] at h
  obtain ⟨ch, h1, h2⟩ := h
  exact ⟨ch, h1, h2.symm⟩

theorem float_get {l : Layer} {i : ℕ} {ch ch' : Channel} (h : l.channels[i]? = some ch) (h' : (toFloat l).channels[i]? = some ch') :
    ch' = { ch with
      w := l.folded ch, bias := if l.bn then (ch.bias - ch.mean) * ch.rstd * ch.gamma + ch.beta else ch.bias } := by
  rw [toFloat_channels, List.getElem?_map, h] at h'
  exact (Option.some.inj h').symm

/-- Writing the fake-quantised weights into the layer. -/
theorem update_eval {c : Cfg} {l : Layer} {qs : List (ℚ × ℤ)} (hq : l.quant = some qs)
    (h0 : l.bn = true → ∀ ch ∈ l.channels, ch.gamma * ch.rstd ≠ 0) (x : List ℚ) :
    (deployLayer c true false l).eval c x = l.eval c x := by
  unfold deployLayer
  rw [hq]
  simp only [if_true, Bool.false_eq_true, if_false]
  refine eval_eq (d := { toFloat l with channels := quantise c qs (toFloat l).channels }) (toFloat_bn l) (toFloat_relu l) ?_ ?_ h0 x
  · simp [quantise_length, toFloat_channels]
  · intro i ch ch' hch hch'
    obtain ⟨f, hf, rfl⟩ := quantise_get hch'
    have := float_get hch hf
    subst this
    refine ⟨?_, rfl⟩
    rw [weights_fq, weights_fq]
    unfold Layer.weightsFq
    rw [hq, toFloat_quant]
    dsimp only
    exact folded_float (toFloat_bn l) _

/-- The groups of the folded layer after quantisation. -/
theorem quantise_flat {c : Cfg} (hp : c.perChannel = false) {qs : List (ℚ × ℤ)} (l : Layer) :
    (quantise c qs (toFloat l).channels).flatMap (·.w) =
      (l.channels.flatMap l.folded).map (fq c.lo c.hi (param c qs 0)) := by
  rw [toFloat_channels]
  unfold quantise
  rw [List.flatMap_map, List.map_flatMap]
  have hq : ∀ p : Channel × ℕ, qs.getD (if c.perChannel then p.2 else 0) (1, 0) = param c qs 0 := by
    intro p
    unfold param
    simp [hp]
  simp only [hq]
  have : ∀ (cs : List Channel) (n : ℕ) (f : Channel → Channel), ((cs.map f).zipIdx n).flatMap (fun p => p.1.w.map (fq c.lo c.hi (param c qs 0))) =
      cs.flatMap fun ch => (f ch).w.map (fq c.lo c.hi (param c qs 0)) := by
    intro cs
    induction cs with
    | nil => intros; rfl
    | cons a t ih => intro n f; simp [ih]
  exact this _ _ _

/-- Keeping the fake quantisers of the weights with new observers. -/
theorem keep_eval {c : Cfg} {l : Layer} {qs : List (ℚ × ℤ)} (hq : l.quant = some qs)
    (h0 : l.bn = true → ∀ ch ∈ l.channels, ch.gamma * ch.rstd ≠ 0)
    (hg : ∀ i ch, l.channels[i]? = some ch → ∀ w ∈ l.folded ch,
      fq c.lo c.hi (c.qparams ((l.group c ch).map (fq c.lo c.hi (param c qs i)))) (fq c.lo c.hi (param c qs i) w) =
        fq c.lo c.hi (param c qs i) w) (x : List ℚ) :
    (deployLayer c true true l).eval c x = l.eval c x := by
  unfold deployLayer
  rw [hq]
  simp only [if_true]
  refine eval_eq (d := { toFloat l with
    channels := quantise c qs (toFloat l).channels, quant := some (observe c (quantise c qs (toFloat l).channels)) })
    (toFloat_bn l) (toFloat_relu l) ?_ ?_ h0 x
  · simp [quantise_length, toFloat_channels]
  · intro i ch ch' hch hch'
    have hch2 := hch'
    obtain ⟨f, hf, rfl⟩ := quantise_get hch'
    have := float_get hch hf
    subst this
    refine ⟨?_, rfl⟩
    rw [weights_fq, weights_fq]
    unfold Layer.weightsFq
    rw [hq]
    dsimp only
    rw [folded_float (show Layer.bn { toFloat l with
      channels := quantise c qs (toFloat l).channels, quant := some (observe c (quantise c qs (toFloat l).channels)) } = false
      from toFloat_bn l)]
    dsimp only
    rw [List.map_map]
    refine List.map_congr_left fun w hw => ?_
    have hparam : param c (observe c (quantise c qs (toFloat l).channels)) i =
        c.qparams ((l.group c ch).map (fq c.lo c.hi (param c qs i))) := by
      unfold observe Layer.group
      by_cases hp : c.perChannel = true
      · rw [if_pos hp, if_pos hp]
        unfold param
        rw [if_pos hp, List.getD_eq_getElem?_getD, List.getElem?_map, hch2]
        simp [param, hp]
      · rw [if_neg hp, if_neg hp]
        have hp' : c.perChannel = false := by simpa using hp
        have e : param c qs i = param c qs 0 := by unfold param; simp [hp']
        rw [quantise_flat hp', e]
        unfold param
        simp [hp']
    rw [Function.comp, hparam]
    exact hg i ch hch w hw

theorem mem_group {c : Cfg} {l : Layer} {i : ℕ} {ch : Channel} (h : l.channels[i]? = some ch) {w : ℚ} (hw : w ∈ l.folded ch) :
    w ∈ l.group c ch := by
  unfold Layer.group
  split_ifs
  · exact hw
  · exact List.mem_flatMap.2 ⟨ch, List.mem_of_getElem? h, hw⟩

/-- Scales of a min-max observer use the range. -/
theorem fits_observed {c : Cfg} (hc : c.Narrow) (ws : List ℚ) : c.Fits ws (c.qparams ws).1 := by
  obtain ⟨_, h1, _⟩ := range_narrow hc
  have hh : (0 : ℚ) < c.hi := by exact_mod_cast (by omega : 0 < c.hi)
  rw [qparams_narrow hc]
  refine ⟨le_max_right _ _, ?_⟩
  rcases le_total (top ws / c.hi) c.eps with h | h
  · exact Or.inl (max_eq_right h)
  · right; left
    dsimp only
    rw [max_eq_left h]
    obtain ⟨_, _, h3⟩ := top_spec ws
    have hpos : 0 < top ws / c.hi := lt_of_lt_of_le hc.eps h
    rcases h3 with h3 | ⟨w, hw, h3⟩
    · rw [h3] at hpos
      simp at hpos
    · refine ⟨w, hw, ?_⟩
      rw [h3]
      have : (c.hi : ℚ) * (top ws / c.hi) = top ws := by field_simp
      nlinarith

theorem observed_param {c : Cfg} {l : Layer} {i : ℕ} {ch : Channel} (h : l.channels[i]? = some ch) :
    param c (observe c (toFloat l).channels) i = c.qparams (l.group c ch) := by
  have hf : (toFloat l).channels[i]? = some { ch with
      w := l.folded ch, bias := if l.bn then (ch.bias - ch.mean) * ch.rstd * ch.gamma + ch.beta else ch.bias } := by
    rw [toFloat_channels, List.getElem?_map, h]
    rfl
  unfold observe Layer.group param
  by_cases hp : c.perChannel = true
  · rw [if_pos hp, if_pos hp, if_pos hp, List.getD_eq_getElem?_getD, List.getElem?_map, hf]
    rfl
  · rw [if_neg hp, if_neg hp, if_neg hp, toFloat_channels, List.flatMap_map]
    rfl

theorem range_full {c : Cfg} (h : c.scheme.signed = true) (hn : c.scheme.symRange = false) (hb : 2 ≤ c.scheme.bit) :
    c.lo = -c.hi - 1 ∧ 1 ≤ c.hi ∧ c.hi % 2 = 1 := by
  have h2 : (2 : ℤ) ^ (c.scheme.bit - 1) = 2 * 2 ^ (c.scheme.bit - 2) := by
    rw [← pow_succ', show c.scheme.bit - 2 + 1 = c.scheme.bit - 1 by omega]
  have h3 : (1 : ℤ) ≤ 2 ^ (c.scheme.bit - 2) := one_le_pow₀ (by norm_num)
  unfold Cfg.lo Cfg.hi QParams.Scheme.range
  rw [h, hn]
  simp only [if_true, Bool.false_eq_true, if_false]
  refine ⟨by ring, by omega, by omega⟩

theorem qparams_full {c : Cfg} (h : c.scheme.signed = true) (hn : c.scheme.symRange = false) (hb : 2 ≤ c.scheme.bit)
    (hsym : c.symmetric = true) (ws : List ℚ) : c.qparams ws = (max (top ws / (c.hi + 1 / 2)) c.eps, 0) := by
  obtain ⟨hlo, _, _⟩ := range_full h hn hb
  unfold Cfg.qparams
  dsimp only
  rw [if_pos hsym, if_pos h, hlo]
  have : (((c.hi - (-c.hi - 1) : ℤ) : ℚ) / 2) = c.hi + 1 / 2 := by push_cast; ring
  rw [this]
  rfl

mutual
theorem visit_layers (c : Cfg) (u k : Bool) : ∀ m : Mod,
    (visit c u k m).layers = m.layers.map (fun p => (p.1, deployLayer c u k p.2)) ∧ (visit c u k m).shape = m.shape
  | .layer l => by simp [visit, Mod.layers, Mod.shape]
  | .parent _ cs => by
    obtain ⟨h1, h2⟩ := traverse_layers c u k cs
    simp [visit, Mod.layers, Mod.shape, h1, h2]
theorem traverse_layers (c : Cfg) (u k : Bool) : ∀ cs : List (String × Mod),
    layersIn (traverse c u k cs) = (layersIn cs).map (fun p => (p.1, deployLayer c u k p.2)) ∧
      shapeIn (traverse c u k cs) = shapeIn cs
  | [] => by simp [traverse, layersIn, shapeIn]
  | (n, m) :: cs => by
    obtain ⟨h1, h2⟩ := visit_layers c u k m
    obtain ⟨h3, h4⟩ := traverse_layers c u k cs
    simp [traverse, layersIn, shapeIn, h1, h2, h3, h4, Function.comp_def]
end

theorem run_large (a : ActQuant) (hs : 0 < a.scale) (h : a.lo ≤ a.hi) : ∃ b : ℚ, ∀ x, b ≤ x → a.run x = (a.hi - a.zp : ℤ) * a.scale := by
  refine ⟨((a.hi - a.zp : ℤ) : ℚ) * a.scale, fun x hx => ?_⟩
  unfold ActQuant.run fq
  have : a.hi - a.zp ≤ rhe (x / a.scale) := Onnx.le_rhe (by rw [le_div_iff₀ hs]; exact hx)
  dsimp only
  rw [show min (max (rhe (x / a.scale) + a.zp) a.lo) a.hi = a.hi by omega]

theorem run_small (a : ActQuant) (hs : 0 < a.scale) (h : a.lo ≤ a.hi) : ∃ b : ℚ, ∀ x, x ≤ b → a.run x = (a.lo - a.zp : ℤ) * a.scale := by
  refine ⟨((a.lo - a.zp : ℤ) : ℚ) * a.scale, fun x hx => ?_⟩
  unfold ActQuant.run fq
  have : rhe (x / a.scale) ≤ a.lo - a.zp := Onnx.rhe_le (by rw [div_le_iff₀ hs]; exact hx)
  dsimp only
  rw [show min (max (rhe (x / a.scale) + a.zp) a.lo) a.hi = a.lo by omega]

theorem narrow8_ok (p : Bool) : (narrow8 p).Narrow := ⟨rfl, rfl, rfl, by norm_num [narrow8], by norm_num [narrow8]⟩

end Verif.Deploy
