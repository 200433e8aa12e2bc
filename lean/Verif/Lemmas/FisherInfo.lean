import Verif.Spec.FisherInfo

/-! Helper lemmas for `Verif/Props/FisherInfo.lean`. -/

namespace Verif.FisherInfo
open Verif

theorem forward_all {I G : Type} (r : Rec I G) (xs : List I) : xs.foldl Rec.forward r = ⟨r.inputs ++ xs, r.grads⟩ := by
  induction xs generalizing r with
  | nil => simp
  | cons x xs ih => rw [List.foldl_cons, ih]; simp [Rec.forward]

theorem backward_all {I G : Type} (r : Rec I G) (gs : List G) : gs.foldl Rec.backward r = ⟨r.inputs, gs.reverse ++ r.grads⟩ := by
  induction gs generalizing r with
  | nil => simp
  | cons x xs ih => rw [List.foldl_cons, ih]; simp [Rec.backward]

theorem scatter_ok (m : List Bool) : ∀ s : List ℝ, m.count true ≤ s.length →
    ∃ r, scatter m s = .ok r ∧ r.length = m.length ∧ ∀ i, r.getD i 0 = if m.getD i false then s.getD ((m.take i).count true) 0 else 0 := by
  induction m with
  | nil => exact fun s _ => ⟨[], rfl, rfl, fun i => by simp⟩
  | cons x m ih =>
    intro s hs
    cases x with
    | false =>
      obtain ⟨r, e1, e2, e3⟩ := ih s (by simpa using hs)
      refine ⟨0 :: r, by rw [scatter, e1]; rfl, by simp [e2], fun i => ?_⟩
      cases i with
      | zero => simp
      | succ i => simpa using e3 i
    | true =>
      cases s with
      | nil => simp at hs
      | cons y s =>
        obtain ⟨r, e1, e2, e3⟩ := ih s (by simpa using hs)
        refine ⟨y :: r, by rw [scatter, e1]; rfl, by simp [e2], fun i => ?_⟩
        cases i with
        | zero => simp
        | succ i => simpa using e3 i

theorem scatter_short (m : List Bool) : ∀ s : List ℝ, s.length < m.count true → scatter m s = .error .runtime := by
  induction m with
  | nil => intro s hs; simp at hs
  | cons x m ih =>
    intro s hs
    cases x with
    | false => rw [scatter, ih s (by simpa using hs)]; rfl
    | true =>
      cases s with
      | nil => rfl
      | cons y s => rw [scatter, ih s (by simpa using hs)]; rfl

theorem flat_mask (mask : List Bool) (B : ℕ) : ∀ b, b < B → ∀ c, c < mask.length →
    (List.replicate B mask).flatten.getD (b * mask.length + c) false = mask.getD c false ∧
    ((List.replicate B mask).flatten.take (b * mask.length + c)).count true = b * active mask + rank mask c := by
  induction B with
  | zero => intro b hb; omega
  | succ B ih =>
    intro b hb c hc
    rw [List.replicate_succ, List.flatten_cons]
    cases b with
    | zero =>
      rw [zero_mul, zero_mul, zero_add, zero_add]
      refine ⟨List.getD_append _ _ _ _ hc, ?_⟩
      rw [List.take_append_of_le_length hc.le]
      rfl
    | succ b =>
      have e : (b + 1) * mask.length + c = mask.length + (b * mask.length + c) := by ring
      obtain ⟨h1, h2⟩ := ih b (by omega) c hc
      refine ⟨?_, ?_⟩
      · rw [e, List.getD_append_right _ _ _ _ (by omega), Nat.add_sub_cancel_left, h1]
      · rw [e, List.take_length_add_append, List.count_append, h2]
        unfold active; ring

theorem flat_rows {w : ℕ} : ∀ (B : ℕ) (s : Fin B → Fin w → ℝ), ((List.finRange B).flatMap fun b => (List.finRange w).map (s b)).length = B * w ∧
    ∀ (b : Fin B) (j : Fin w), ((List.finRange B).flatMap fun b => (List.finRange w).map (s b)).getD (b * w + j) 0 = s b j := by
  intro B
  induction B with
  | zero => exact fun s => ⟨by simp, fun b => b.elim0⟩
  | succ B ih =>
    intro s
    obtain ⟨h1, h2⟩ := ih fun b => s b.succ
    rw [List.finRange_succ, List.flatMap_cons, List.flatMap_map]
    have hl : ((List.finRange w).map (s 0)).length = w := by simp
    refine ⟨?_, fun b j => ?_⟩
    · rw [List.length_append, hl, h1]; ring
    · refine Fin.cases ?_ (fun b => ?_) b
      · have e : ((0 : Fin (B + 1)) : ℕ) * w + j = j := by simp
        rw [e, List.getD_append _ _ _ _ (by rw [hl]; exact j.2), List.getD_eq_getElem _ _ (by rw [hl]; exact j.2)]
        simp
      · have e : (b.succ : ℕ) * w + j = w + (b * w + j) := by rw [Fin.val_succ]; ring
        rw [e, List.getD_append_right _ _ _ _ (by rw [hl]; omega), hl, Nat.add_sub_cancel_left]
        exact h2 b j

theorem count_flat (mask : List Bool) (B : ℕ) : (List.replicate B mask).flatten.count true = B * active mask := by
  induction B with
  | zero => simp
  | succ B ih => rw [List.replicate_succ, List.flatten_cons, List.count_append, ih]; unfold active; ring

theorem expand_general {B w : ℕ} (mask : List Bool) (s : Fin B → Fin w → ℝ) (h : active mask ≤ w) :
    ∃ flat, expand mask s = .ok flat ∧ ∀ b < B, ∀ c < mask.length, entry mask flat b c =
      if mask.getD c false then ((List.finRange B).flatMap fun b => (List.finRange w).map (s b)).getD (b * active mask + rank mask c) 0 else 0 := by
  obtain ⟨r, e1, _, e3⟩ := scatter_ok (List.replicate B mask).flatten ((List.finRange B).flatMap fun b => (List.finRange w).map (s b))
    (by rw [count_flat, (flat_rows B s).1]; exact Nat.mul_le_mul_left B h)
  refine ⟨r, e1, fun b hb c hc => ?_⟩
  obtain ⟨f1, f2⟩ := flat_mask mask B b hb c hc
  unfold entry
  rw [e3, f1, f2]

theorem rank_lt {mask : List Bool} {c : ℕ} (hc : mask.getD c false = true) : rank mask c < active mask := by
  unfold rank active
  induction mask generalizing c with
  | nil => simp at hc
  | cons x m ih =>
    cases c with
    | zero => simp at hc; simp [hc]
    | succ c =>
      simp only [List.getD_cons_succ] at hc
      have := ih hc
      rw [List.take_succ_cons, List.count_cons, List.count_cons]
      omega

theorem fisher_flatten {B w : ℕ} (layers : List (List (Call B w))) (b : Fin B) (c : Fin w) :
    (layers.map fun calls => fisherSum calls b c).sum = fisherSum layers.flatten b c := by
  unfold fisherSum
  induction layers with
  | nil => rfl
  | cons l layers ih => simp [ih]

theorem fisher_idx {B w : ℕ} (calls : List (Call B w)) (b : Fin B) (c : Fin w) :
    fisherSum calls b c = ∑ i : Idx calls, if i.2.1 = c then inputAt calls b i * gradAt calls b i else 0 := by
  unfold fisherSum
  rw [Fintype.sum_sigma]
  have e : (calls.map fun k => ∑ p, k.input b c p * k.grad b c p).sum = ∑ k : Fin calls.length, ∑ p, (calls.get k).input b c p * (calls.get k).grad b c p := by
    rw [← List.sum_ofFn]
    refine congrArg List.sum ?_
    conv_lhs => rw [← List.ofFn_get calls, List.map_ofFn]
    rfl
  rw [e]
  refine Finset.sum_congr rfl fun k _ => ?_
  rw [Fintype.sum_prod_type, Finset.sum_eq_single c]
  · simp [inputAt, gradAt]
  · intro c' _ hc; simp [hc]
  · simp

theorem gate_derivative {B w : ℕ} (calls : List (Call B w)) (b : Fin B) (c : Fin w) (L : (Idx calls → ℝ) → ℝ) (hL : IsLoss calls b L) :
    HasDerivAt (fun m => L (gated calls b c m)) (fisherSum calls b c) 1 := by
  have h1 : gated calls b c 1 = inputAt calls b := by
    funext i; unfold gated; split_ifs <;> simp
  have hg : HasDerivAt (gated calls b c) (fun i => if i.2.1 = c then inputAt calls b i else 0) 1 := by
    rw [hasDerivAt_pi]
    intro i
    unfold gated
    by_cases h : i.2.1 = c
    · simp only [if_pos h]
      simpa using (hasDerivAt_id (1 : ℝ)).mul_const (inputAt calls b i)
    · simp only [if_neg h]
      exact hasDerivAt_const _ _
  unfold IsLoss at hL
  rw [← h1] at hL
  have := hL.comp_hasDerivAt (1 : ℝ) hg
  refine this.congr_deriv ?_
  rw [fisher_idx]
  simp only [_root_.sum_apply, _root_.smul_apply, ContinuousLinearMap.proj_apply, smul_eq_mul]
  refine Finset.sum_congr rfl fun i _ => ?_
  split_ifs
  · ring
  · ring

theorem expand_exact {B w : ℕ} (mask : List Bool) (s : Fin B → Fin w → ℝ) (hw : active mask = w) :
    ∃ flat, expand mask s = .ok flat ∧ ∀ (b : Fin B), ∀ c < mask.length,
      (mask.getD c false = false → entry mask flat b c = 0) ∧
      ∀ (hc : mask.getD c false = true), entry mask flat b c = s b ⟨rank mask c, hw ▸ rank_lt hc⟩ := by
  obtain ⟨flat, e1, e2⟩ := expand_general mask s hw.le
  refine ⟨flat, e1, fun b c hc => ⟨fun h => ?_, fun h => ?_⟩⟩
  · rw [e2 b b.2 c hc, h]; rfl
  · rw [e2 b b.2 c hc, if_pos h, ← (flat_rows B s).2 b ⟨rank mask c, hw ▸ rank_lt h⟩]
    simp only [hw]

theorem mapM_ok {B w : ℕ} (mask : List Bool) (hw : active mask = w) (layers : List (List (Call B w))) :
    ∃ flats, layers.mapM (fun calls => expand mask (fisherSum calls)) = .ok flats ∧ flats.length = layers.length ∧
      ∀ (b : Fin B), ∀ c < mask.length, ∀ (hc : mask.getD c false = true),
        (flats.map fun f => entry mask f b c).sum = (layers.map fun calls => fisherSum calls b ⟨rank mask c, hw ▸ rank_lt hc⟩).sum := by
  induction layers with
  | nil => exact ⟨[], rfl, rfl, fun _ _ _ _ => rfl⟩
  | cons l layers ih =>
    obtain ⟨flats, e1, e2, e3⟩ := ih
    obtain ⟨flat, f1, f2⟩ := expand_exact mask (fisherSum l) hw
    refine ⟨flat :: flats, by rw [List.mapM_cons, f1, e1]; rfl, by simp [e2], fun b c hl hc => ?_⟩
    rw [List.map_cons, List.sum_cons, List.map_cons, List.sum_cons, e3 b c hl hc, (f2 b c hl).2 hc]

theorem fold_ok {α : Type} (f : α → Except Err ℕ) (g : α → ℕ) (l : List α) (h : ∀ x ∈ l, f x = .ok (g x)) (a : ℕ) :
    l.foldlM (fun (acc : ℕ) x => do .ok (acc + (← f x))) a = (.ok (a + (l.map g).sum) : Except Err ℕ) := by
  induction l generalizing a with
  | nil => rfl
  | cons x l ih =>
    rw [List.foldlM_cons, h x (by simp)]
    have := ih (fun y hy => h y (by simp [hy])) (a + g x)
    rw [List.map_cons, List.sum_cons, ← add_assoc, ← this]
    rfl

theorem fold_shapes (F : (ℕ × ℕ × ℕ) → ℕ) (l : List (ℕ × ℕ × ℕ)) (a : ℕ) :
    l.foldlM (fun (acc : ℕ) (s : ℕ × ℕ × ℕ) => (.ok (acc + F s) : Except Err ℕ)) a = .ok (a + (l.map F).sum) := by
  induction l generalizing a with
  | nil => rfl
  | cons s l ih =>
    rw [List.foldlM_cons, List.map_cons, List.sum_cons, ← add_assoc]
    exact ih _

theorem out_exact (op : Op) (h : op.Plain) (n : ℕ) :
    ∃ d, op.deltaOut = .ok d ∧ op.flops op.inAct (n + 1) = op.flops op.inAct n + d := by
  unfold Op.deltaOut Op.flops
  cases hk : op.kind with
  | linear => exact ⟨_, rfl, by dsimp only; ring⟩
  | conv kk groups inC outC =>
    have hg := h _ _ _ _ hk
    subst hg
    simp only [if_true]
    refine ⟨_, fold_shapes (fun s => s.2.1 * s.2.2 * kk * op.inAct) _ _, ?_⟩
    simp only [zero_add, List.sum_map_mul_right]
    ring

theorem in_exact (op : Op) (h : op.Plain) (hs : ∀ s ∈ op.shapes, s.1 = op.outAct) (n : ℕ) :
    ∃ d, op.deltaIn = .ok d ∧ op.flops (n + 1) op.outAct = op.flops n op.outAct + d := by
  unfold Op.deltaIn Op.flops
  cases hk : op.kind with
  | linear => exact ⟨_, rfl, by dsimp only; ring⟩
  | conv kk groups inC outC =>
    have hg := h _ _ _ _ hk
    subst hg
    simp only [if_true]
    refine ⟨_, fold_shapes (fun s => s.2.1 * s.2.2 * kk * s.1) _ _, ?_⟩
    have e : (op.shapes.map fun s => s.2.1 * s.2.2 * kk * s.1) = op.shapes.map fun s => s.2.1 * s.2.2 * kk * op.outAct :=
      List.map_congr_left fun s m => by rw [hs s m]
    rw [e]
    simp only [zero_add, List.sum_map_mul_right]
    ring

theorem plain_out {op : Op} (h : op.Plain) : op.deltaOut = .ok (op.flops op.inAct 1) := by
  obtain ⟨d, e1, e2⟩ := out_exact op h 0
  have : op.flops op.inAct 0 = 0 := by unfold Op.flops; cases op.kind <;> simp
  rw [this, zero_add, zero_add] at e2
  rw [e1, e2]

theorem plain_in {op : Op} (h : op.Plain) (hs : ∀ s ∈ op.shapes, s.1 = op.outAct) : op.deltaIn = .ok (op.flops 1 op.outAct) := by
  obtain ⟨d, e1, e2⟩ := in_exact op h hs 0
  have : op.flops 0 op.outAct = 0 := by
    unfold Op.flops
    cases hk : op.kind with
    | linear => simp
    | conv kk g i o => have := h _ _ _ _ hk; subst this; simp
  rw [this, zero_add, zero_add] at e2
  rw [e1, e2]

theorem flops_out_step {op : Op} (h : op.Plain) (n : ℕ) : op.flops op.inAct (n + 1) = op.flops op.inAct n + op.flops op.inAct 1 := by
  obtain ⟨d, e1, e2⟩ := out_exact op h n
  rw [plain_out h, Except.ok.injEq] at e1
  rw [e2, e1]

theorem flops_in_step {op : Op} (h : op.Plain) (hs : ∀ s ∈ op.shapes, s.1 = op.outAct) (n : ℕ) : op.flops (n + 1) op.outAct = op.flops n op.outAct + op.flops 1 op.outAct := by
  obtain ⟨d, e1, e2⟩ := in_exact op h hs n
  rw [plain_in h hs, Except.ok.injEq] at e1
  rw [e2, e1]

end Verif.FisherInfo
