import Verif.Lemmas.FisherInfo

namespace Verif.FisherInfo
open Verif

/-! ### C67: recording -/

/-- A layer that is called any number of times between two resets has every input paired with its own
gradient. -/
theorem C67_pairing {I G : Type} (r : Rec I G) (calls : List (I × G)) (hc : calls ≠ []) :
    (round r.reset (calls.map Prod.fst) (calls.map Prod.snd)).pairs = .ok calls := by
  unfold round
  rw [forward_all, backward_all]
  unfold Rec.pairs Rec.reset
  have : 0 < calls.length := List.length_pos_of_ne_nil hc
  simp [this, List.zip_map', List.zip_map]

/-- DISAGREEMENT: a layer that sees two batches without a reset in between has the inputs of the
first batch paired with the gradients of the second. -/
theorem C67_pairing_violated {I G : Type} (r : Rec I G) (a b : List (I × G)) (hl : a.length = b.length) (hc : a ≠ []) :
    (round (round r.reset (a.map Prod.fst) (a.map Prod.snd)) (b.map Prod.fst) (b.map Prod.snd)).pairs
      = .ok ((a.map Prod.fst).zip (b.map Prod.snd) ++ (b.map Prod.fst).zip (a.map Prod.snd)) := by
  unfold round
  rw [forward_all, backward_all, forward_all, backward_all]
  unfold Rec.pairs Rec.reset
  have : 0 < a.length := List.length_pos_of_ne_nil hc
  simp only [List.nil_append, List.append_nil, List.reverse_reverse, List.length_append, List.length_map]
  rw [if_pos ⟨by omega, by omega⟩, List.zip_append (by simp [hl])]

/-- A call whose gradient never comes back makes the update fail. -/
theorem C67_unmatched {I G : Type} (r : Rec I G) (h : r.inputs.length ≠ r.grads.length ∨ r.inputs = []) : r.pairs = .error .assertion := by
  unfold Rec.pairs
  rw [if_neg]
  rintro ⟨h1, h2⟩
  rcases h with h | h
  · exact h h2
  · rw [h] at h1; simp at h1

/-! ### Expansion -/

/-- The expansion to all channels is the inverse of selecting the unpruned ones, provided the layer
reads exactly the channels of the unit: an unpruned channel has its own value in its own sample, a
pruned one has zero. Missing: layers behind a concatenation, see `C67_concat_violated`. -/
theorem C67_expand_partial {B w : ℕ} (mask : List Bool) (s : Fin B → Fin w → ℝ) (hw : active mask = w) :
    ∃ flat, expand mask s = .ok flat ∧ ∀ (b : Fin B), ∀ c < mask.length,
      (mask.getD c false = false → entry mask flat b c = 0) ∧
      ∀ (hc : mask.getD c false = true), entry mask flat b c = s b ⟨rank mask c, hw ▸ rank_lt hc⟩ :=
  expand_exact mask s hw

/-- DISAGREEMENT: a layer behind a concatenation reads more channels than the unit has. Then the values
are assigned to wrong samples: the first channel of the second sample gets the value of another unit's
channel in the first sample. -/
theorem C67_concat_violated {B w : ℕ} (hB : 2 ≤ B) (mask : List Bool) (s : Fin B → Fin w → ℝ) (hw : active mask < w)
    (c : ℕ) (hc : mask.getD c false = true) (hl : c < mask.length) (hr : rank mask c = 0) :
    ∃ flat, expand mask s = .ok flat ∧ entry mask flat 1 c = s ⟨0, by omega⟩ ⟨active mask, hw⟩ := by
  obtain ⟨flat, e1, e2⟩ := expand_general mask s hw.le
  refine ⟨flat, e1, ?_⟩
  rw [e2 1 (by omega) c hl, if_pos hc, hr]
  have := (flat_rows B s).2 ⟨0, by omega⟩ ⟨active mask, hw⟩
  simpa using this

example : ∃ mask : List Bool, active mask < 3 ∧ mask.getD 1 false = true ∧ rank mask 1 = 0 := ⟨[false, true, true], by decide⟩

/-- A layer that reads fewer channels than are unpruned makes the update fail. -/
theorem C67_narrow {B w : ℕ} (hB : 0 < B) (mask : List Bool) (s : Fin B → Fin w → ℝ) (hw : w < active mask) :
    expand mask s = .error .runtime := by
  refine scatter_short _ _ ?_
  rw [count_flat, (flat_rows B s).1]
  exact Nat.mul_lt_mul_of_pos_left hw hB

/-! ### Importance -/

/-- The Fisher information of an unpruned channel in a batch is the sum over the samples of the square
of the derivative of the sample's loss with respect to a gate on that channel, in all calls of all
layers that read it. Missing: layers that read other channels, see `C67_concat_violated`, and batches without a reset in
between, see `C67_pairing_violated`. -/
theorem C67_importance_partial {B w : ℕ} (mask : List Bool) (hw : active mask = w) (layers : List (List (Call B w))) (hl : layers ≠ [])
    (L : (b : Fin B) → (Idx layers.flatten → ℝ) → ℝ) (hL : ∀ b, IsLoss layers.flatten b (L b)) :
    ∃ f, batchFisher mask layers = .ok f ∧ ∀ c < mask.length, ∀ (hc : mask.getD c false = true),
      ∃ d : Fin B → ℝ, (∀ b, HasDerivAt (fun m => L b (gated layers.flatten b ⟨rank mask c, hw ▸ rank_lt hc⟩ m)) (d b) 1) ∧ f c = ∑ b, d b ^ 2 := by
  obtain ⟨flats, e1, e2, e3⟩ := mapM_ok mask hw layers
  have hne : flats ≠ [] := by
    intro e; rw [e] at e2; exact hl (List.length_eq_zero_iff.1 e2.symm)
  refine ⟨fun c => ∑ b : Fin B, ((flats.map fun f => entry mask f b c).sum) ^ 2, ?_, fun c hlt hc => ?_⟩
  · unfold batchFisher
    rw [e1]
    show (if flats = [] then _ else _) = _
    rw [if_neg hne]
  · refine ⟨fun b => fisherSum layers.flatten b ⟨rank mask c, hw ▸ rank_lt hc⟩, fun b => gate_derivative _ b _ _ (hL b), ?_⟩
    refine Finset.sum_congr rfl fun b _ => ?_
    rw [e3 b c hlt hc, fisher_flatten]

example : active [false, true] = 1 := by decide

/-- Whatever was recorded, there is a loss with these gradients. -/
example {B w : ℕ} (calls : List (Call B w)) (b : Fin B) : IsLoss calls b fun x => ∑ i, gradAt calls b i * x i := by
  have h := (∑ i, gradAt calls b i • (ContinuousLinearMap.proj i : (Idx calls → ℝ) →L[ℝ] ℝ)).hasFDerivAt (x := inputAt calls b)
  refine h.congr_of_eventuallyEq (Filter.Eventually.of_forall fun x => ?_)
  simp

/-- A unit that no layer reads has no importance: the update fails. -/
theorem C67_unread {B w : ℕ} (mask : List Bool) : batchFisher (B := B) (w := w) mask [] = .error .attribute := by
  unfold batchFisher
  simp [List.mapM_nil, pure, Except.pure, bind, Except.bind]

/-! ### Normalisation -/

/-- What a pruned output channel of an ordinary layer saves is the difference of its multiplications. -/
theorem C67_out (op : Op) (h : op.Plain) (n : ℕ) :
    ∃ d, op.deltaOut = .ok d ∧ op.flops op.inAct (n + 1) = op.flops op.inAct n + d :=
  out_exact op h n

/-- What a pruned input channel of an ordinary layer saves, if the recorded outputs have the channels
that are unpruned. -/
theorem C67_in (op : Op) (h : op.Plain) (hs : ∀ s ∈ op.shapes, s.1 = op.outAct) (n : ℕ) :
    ∃ d, op.deltaIn = .ok d ∧ op.flops (n + 1) op.outAct = op.flops n op.outAct + d :=
  in_exact op h hs n

/-- If no layer both writes and reads the unit, the normaliser is the number of multiplications a
channel of the unit costs. Missing: layers that write and read the unit, see `C67_depthwise_violated` and
`C67_residual_violated`. -/
theorem C67_flops_partial (outs ins : List Op) (ho : ∀ o ∈ outs, o.Plain) (hi : ∀ o ∈ ins, o.Plain ∧ ∀ s ∈ o.shapes, s.1 = o.outAct) :
    ∃ d, deltaFlop outs ins = .ok d ∧ ∀ n, unitFlops outs ins (n + 1) = unitFlops outs ins n + d := by
  refine ⟨(outs.map fun o => o.flops o.inAct 1).sum + (ins.map fun o => o.flops 1 o.outAct).sum, ?_, fun n => ?_⟩
  · unfold deltaFlop
    rw [fold_ok Op.deltaOut (fun o => o.flops o.inAct 1) outs (fun o h => plain_out (ho o h)) 0]
    have := fold_ok Op.deltaIn (fun o => o.flops 1 o.outAct) ins (fun o h => plain_in (hi o h).1 (hi o h).2) (0 + (outs.map fun o => o.flops o.inAct 1).sum)
    rw [zero_add] at this ⊢
    exact this
  · unfold unitFlops
    have e1 : (outs.map fun o => o.flops o.inAct (n + 1)).sum = (outs.map fun o => o.flops o.inAct n).sum + (outs.map fun o => o.flops o.inAct 1).sum := by
      rw [← List.sum_map_add]
      exact congrArg List.sum (List.map_congr_left fun o h => flops_out_step (ho o h) n)
    have e2 : (ins.map fun o => o.flops (n + 1) o.outAct).sum = (ins.map fun o => o.flops n o.outAct).sum + (ins.map fun o => o.flops 1 o.outAct).sum := by
      rw [← List.sum_map_add]
      exact congrArg List.sum (List.map_congr_left fun o h => flops_in_step (hi o h).1 (hi o h).2 n)
    rw [e1, e2]; ring

example : deltaFlop [⟨.conv 9 1 3 8, 3, 8, [(8, 4, 4)]⟩] [⟨.conv 1 1 8 2, 8, 2, [(2, 4, 4)]⟩] = .ok (4 * 4 * 9 * 3 + 4 * 4 * 2) := by decide

/-- DISAGREEMENT: a depthwise convolution writes and reads its unit, and is counted twice: the
normaliser is twice what a channel costs. -/
theorem C67_depthwise_violated (op : Op) (h : op.Depthwise) :
    ∃ d, deltaFlop [op] [op] = .ok (2 * d) ∧ ∀ n, op.flops (n + 1) (n + 1) = op.flops n n + d := by
  obtain ⟨kk, m, hk, hm⟩ := h
  have e1 : op.deltaOut = .ok (op.shapes.map fun s => s.2.1 * s.2.2 * kk).sum := by
    unfold Op.deltaOut; rw [hk]
    simp only [if_neg hm, and_self, if_true]
    rw [fold_shapes, zero_add]
  have e2 : op.deltaIn = .ok (op.shapes.map fun s => s.2.1 * s.2.2 * kk).sum := by
    unfold Op.deltaIn; rw [hk]
    simp only [if_neg hm, and_self, if_true]
    rw [fold_shapes, zero_add]
  refine ⟨(op.shapes.map fun s => s.2.1 * s.2.2 * kk).sum, ?_, fun n => ?_⟩
  · unfold deltaFlop
    simp only [List.foldlM_cons, List.foldlM_nil, e1, e2]
    show Except.ok _ = _
    refine congrArg Except.ok ?_
    ring
  · unfold Op.flops
    rw [hk]
    simp only [if_neg hm]
    simp only [List.sum_map_mul_right]
    ring

/-- DISAGREEMENT: an ordinary layer that writes and reads the same unit (as in a residual stream) is
counted as if both sides could be pruned independently: the normaliser is too large by the cost of one
pair of channels. -/
theorem C67_residual_violated (op : Op) (h : op.Plain) (n : ℕ) (hi : op.inAct = n + 1) (ho : op.outAct = n + 1) (hs : ∀ s ∈ op.shapes, s.1 = n + 1) :
    ∃ d, deltaFlop [op] [op] = .ok (d + op.flops 1 1) ∧ op.flops (n + 1) (n + 1) = op.flops n n + d := by
  have a := plain_out h
  have b := plain_in h (by rw [ho]; exact hs)
  rw [hi] at a
  rw [ho] at b
  have key : ∀ i o, op.flops i o = op.flops 1 1 * (i * o) := by
    intro i o
    unfold Op.flops
    cases hk : op.kind with
    | linear => dsimp only; ring
    | conv kk g ic oc =>
      have := h _ _ _ _ hk
      subst this
      simp only [if_true]
      simp only [List.sum_map_mul_right]; ring
  refine ⟨op.flops 1 1 * (2 * n + 1), ?_, ?_⟩
  · unfold deltaFlop
    simp only [List.foldlM_cons, List.foldlM_nil, a, b]
    show Except.ok _ = _
    refine congrArg Except.ok ?_
    rw [key (n + 1) 1, key 1 (n + 1)]; ring
  · rw [key (n + 1) (n + 1), key n n]; ring

/-- DISAGREEMENT: a grouped convolution that is not depthwise makes the update fail once it was called. -/
theorem C67_grouped_violated (op : Op) (kk g i o : ℕ) (hk : op.kind = .conv kk g i o) (h1 : g ≠ 1) (h2 : ¬ (g = i ∧ i = o)) (hs : op.shapes ≠ []) :
    op.deltaOut = .error .notImplemented ∧ op.deltaIn = .error .notImplemented := by
  unfold Op.deltaOut Op.deltaIn
  rw [hk]
  dsimp only
  cases h : op.shapes with
  | nil => exact absurd h hs
  | cons s l => constructor <;> (rw [List.foldlM_cons, if_neg h1, if_neg h2]; rfl)

/-- A pruned channel saves the difference of the outputs of the layers that write it. -/
theorem C67_memory (outs : List Op) (n : ℕ) :
    (outs.map fun o => o.outputs (n + 1)).sum = (outs.map fun o => o.outputs n).sum + deltaMemory outs := by
  unfold deltaMemory
  rw [← List.sum_map_add]
  refine congrArg List.sum (List.map_congr_left fun o _ => ?_)
  unfold Op.outputs Op.deltaMemory
  cases o.kind with
  | linear => dsimp only; ring
  | conv kk g i o => simp only [List.sum_map_mul_left]; ring

/-- Normalising divides by the cost of a channel in units of 10⁹ multiplications, or of 10⁶ outputs, or
not at all, and keeps importances nonnegative. -/
theorem C67_normalise (outs ins : List Op) (f g : ℕ → ℝ) (t : Norm) (h : normalise outs ins f t = .ok g) :
    ∃ k : ℝ, 0 < k ∧ (∀ c, g c = f c / k) ∧
      (t = .flops → ∃ d, deltaFlop outs ins = .ok d ∧ k = d / 1000000000) ∧ (t = .act → k = deltaMemory outs / 1000000) ∧ (t = .none' → k = 1) := by
  cases t with
  | flops =>
    unfold normalise at h
    cases hd : deltaFlop outs ins with
    | error e => rw [hd] at h; exact absurd h (by simp)
    | ok d =>
      rw [hd] at h
      dsimp only at h
      by_cases hp : 0 < d
      · rw [if_pos hp, Except.ok.injEq] at h
        subst h
        have : (0 : ℝ) < d := by exact_mod_cast hp
        exact ⟨_, by positivity, fun _ => rfl, fun _ => ⟨d, rfl, rfl⟩, by simp, by simp⟩
      · rw [if_neg hp] at h; exact absurd h (by simp)
  | act =>
    unfold normalise at h
    by_cases hp : 0 < deltaMemory outs
    · rw [if_pos hp, Except.ok.injEq] at h
      subst h
      have : (0 : ℝ) < deltaMemory outs := by exact_mod_cast hp
      exact ⟨_, by positivity, fun _ => rfl, by simp, fun _ => rfl, by simp⟩
    · rw [if_neg hp] at h; exact absurd h (by simp)
  | none' =>
    unfold normalise at h
    rw [Except.ok.injEq] at h
    subst h
    exact ⟨1, one_pos, fun _ => (div_one _).symm, by simp, by simp, by simp⟩

/-- Inputs and gradients can be paired exactly if there are as many of each and at least one; else an assertion fails. -/
theorem C67_pairs_refused {I G : Type} (r : Rec I G) (e : Err) :
    r.pairs = .error e ↔ e = .assertion ∧ (r.inputs = [] ∨ r.inputs.length ≠ r.grads.length) := by
  unfold Rec.pairs
  by_cases h : 0 < r.inputs.length ∧ r.inputs.length = r.grads.length
  · rw [if_pos h]
    have : r.inputs ≠ [] := List.length_pos_iff.1 h.1
    simp [this, h.2]
  · rw [if_neg h]
    have : r.inputs = [] ∨ r.inputs.length ≠ r.grads.length := by
      by_contra hc
      push Not at hc
      exact h ⟨List.length_pos_iff.2 hc.1, hc.2⟩
    simp only [this, and_true, Except.error.injEq, eq_comm (a := e)]

/-- A unit without any output value cannot be normalised by memory. -/
theorem C67_memory_refused (outs ins : List Op) (f : ℕ → ℝ) (e : Err) :
    normalise outs ins f .act = .error e ↔ e = .assertion ∧ ¬ 0 < deltaMemory outs := by
  unfold normalise
  by_cases h : 0 < deltaMemory outs
  · simp [h]
  · simp [h, eq_comm (a := e)]

example : (⟨[1], []⟩ : Rec ℕ ℕ).pairs = .error .assertion := (C67_pairs_refused _ _).2 (by simp)

end Verif.FisherInfo
