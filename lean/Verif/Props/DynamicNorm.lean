import Verif.Lemmas.DynamicNorm

namespace Verif.DynamicNorm
open Verif DynamicOps

variable {X : Type}

/-- On every input, a dynamic layer gives what the ordinary layer of the active channels
gives (value or error); the statistics of the active channels afterwards are those of that
layer, and the statistics of the other channels are unchanged. -/
theorem C28_forward (o : Ops X) (b : BN) (h : b.WF) (x : List X) :
    (b.forward o x).2 = (b.sliced.forward o x).2 ∧
    (b.forward o x).1.sliced = (b.sliced.forward o x).1 ∧
    ∀ (i : Nat) d d', b.outMask[i]? = some false → b.stats = some d → (b.forward o x).1.stats = some d' → d'[i]? = d[i]? := by
  have hl := outMask_length h
  rw [forward_eq o b h x, forward_eq o b.sliced (sliced_wf h) x]
  have e1 : b.sliced.stats.map (select b.sliced.outMask) = b.stats.map (select b.outMask) :=
    map_select_sliced h b.stats h.stats
  have e2 : b.sliced.affine.map (select b.sliced.outMask) = b.affine.map (select b.outMask) :=
    map_select_sliced h b.affine h.affine
  have e3 : b.sliced.training = b.training := rfl
  have e4 : b.sliced.stats.isNone = b.stats.isNone := by simp [BN.sliced]
  have e5 : b.sliced.factor = b.factor := by
    simp [BN.factor, BN.sliced]
  rw [e1, e2, e3, e4, e5]
  generalize hb : batchNorm o x (b.stats.map (select b.outMask)) (b.affine.map (select b.outMask))
      (b.training || b.stats.isNone) b.factor.1 = r
  clear e1 e2 e4 e5
  have hst := h.stats
  generalize b.factor.2 = n
  obtain ⟨num, aff, stats, tr, mom, mask, training⟩ := b
  simp only [BN.sliced, BN.outMask] at *
  cases r with
  | error e =>
    refine ⟨rfl, rfl, ?_⟩
    intro i d d' _ hd hd'
    simp only [BN.finish] at hd'
    rw [hd] at hd'; simp at hd'; rw [hd']
  | ok r =>
    obtain ⟨y, st'⟩ := r
    cases training with
    | false =>
      refine ⟨by simp [BN.finish], by simp [BN.finish], ?_⟩
      intro i d d' _ hd hd'
      simp only [BN.finish] at hd'
      rw [hd] at hd'; simp at hd'; rw [hd']
    | true =>
      cases stats with
      | none =>
        refine ⟨by simp [BN.finish], by simp [BN.finish], ?_⟩
        intro i d d' _ hd hd'; simp at hd
      | some d =>
        cases st' with
        | none =>
          refine ⟨by simp [BN.finish], by simp [BN.finish], ?_⟩
          intro i d0 d' _ hd hd'
          simp [BN.finish] at hd hd'
          rw [← hd, hd']
        | some s =>
          obtain ⟨d0, hd0, hsl, _⟩ := batchNorm_stats_length hb
          simp at hd0; subst hd0
          have hdl : d.length = num := hst d rfl
          have hcl := select_length (mask.getD (List.replicate num true)) d (by omega)
          refine ⟨by simp [BN.finish], ?_, ?_⟩
          · simp only [BN.finish, Option.map_some, BN.outMask, Option.getD_none]
            rw [← select_eq_active, scatter_select _ _ _ (by omega) (by omega)]
            congr 2
            rw [← hcl, ← select_eq_active, scatter_true _ _ (by omega)]
          · intro i d0 d' hi hd hd'
            simp [BN.finish, BN.outMask] at hd hd'
            subst hd; subst hd'
            exact scatter_frame _ _ _ _ hi

/-- In evaluation mode nothing is changed. -/
theorem C28_eval (o : Ops X) (b : BN) (h : b.WF) (ht : b.training = false) (x : List X) :
    (b.forward o x).1 = b := by
  rw [forward_eq o b h x]
  have hf : b.factor.2 = b.tracked := by simp [BN.factor, ht]
  rw [hf]
  obtain ⟨num, aff, stats, tr, mom, mask, training⟩ := b
  simp only [] at ht
  subst ht
  simp only [BN.finish]
  split <;> rfl

/-- One training step: the statistics of the active channels move towards the data of
that channel, the others stay. -/
theorem C28_step (o : Ops X) (b : BN) (h : b.WF) (ht : b.training = true) (d : List Pair) (hd : b.stats = some d)
    (x : List X) (hx : x.length = b.num) :
    (b.forward o (active b.outMask x)).1 =
      { b with tracked := b.tracked + 1, stats := some (stepAll o b.factor.1 b.outMask d x) } ∧
    ∃ y, (b.forward o (active b.outMask x)).2 = .ok y := by
  have hl := outMask_length h
  have hdl := h.stats d hd
  have hsx : (select b.outMask x).length = count b.outMask := select_length _ _ (by omega)
  have hsd : (select b.outMask d).length = count b.outMask := select_length _ _ (by omega)
  rw [forward_eq o b h, ← select_eq_active, hd, ht]
  have hf : b.factor.2 = b.tracked + 1 := by
    simp only [BN.factor, ht, hd]
    cases b.momentum <;> simp
  have hwb : (perChannel (select b.outMask x).length (b.affine.map (select b.outMask))).length = (select b.outMask x).length := by
    apply perChannel_length
    intro q hq
    cases ha : b.affine with
    | none => rw [ha] at hq; simp at hq
    | some a =>
      rw [ha] at hq; simp at hq; subst hq
      rw [hsx]; exact select_length _ _ (by rw [hl, h.affine a ha])
  have hbn : ∃ y, batchNorm o (select b.outMask x) ((some d).map (select b.outMask)) (b.affine.map (select b.outMask))
      (true || (some d).isNone) b.factor.1 =
        .ok (y, some (List.zipWith (update o b.factor.1) (select b.outMask d) (select b.outMask x))) := by
    unfold batchNorm
    rw [hsx] at hwb
    simp only [ne_eq, not_true_eq_false, if_false, Bool.true_or, if_true, Option.map_some, hsd, hsx, hwb]
    exact ⟨_, rfl⟩
  obtain ⟨y, hy⟩ := hbn
  rw [hy, hf]
  have hst := scatter_step o b.factor.1 b.outMask d x (by omega) (by omega)
  rw [← hst]
  refine ⟨?_, y, ?_⟩
  · simp only [BN.finish, hd, ht]; rfl
  · simp only [BN.finish, hd, ht]

/-- Over every history of masks and batches, with a fixed momentum, the statistics of a
channel are those of the batches in which it was active, in order. Missing: cumulative averages, see `C28_cumulative_violated`. -/
theorem C28_history_partial (o : Ops X) (f : ℚ) (steps : List (List Bool × List X)) (b : BN) (h : b.WF)
    (ht : b.training = true) (hm : b.momentum = some f) (d : List Pair) (hd : b.stats = some d)
    (hsz : ∀ p ∈ steps, p.1.length = b.num ∧ p.2.length = b.num) (i : Nat) (s : Pair) (hs : d[i]? = some s) :
    ∃ d', (train o b steps).stats = some d' ∧ d'[i]? = some (channelHistory o f i steps s) := by
  induction steps generalizing b d s with
  | nil => exact ⟨d, hd, hs⟩
  | cons p r ih =>
    obtain ⟨m, x⟩ := p
    obtain ⟨h1, h2⟩ := hsz (m, x) (by simp)
    simp only at h1 h2
    have hdl := h.stats d hd
    have hw : (b.setMask m).WF := ⟨h.affine, h.stats, fun m' hm' => by
      simp [BN.setMask] at hm'; subst hm'; exact h1⟩
    have hfac : (b.setMask m).factor.1 = f := by
      simp only [BN.factor, BN.setMask, hm]
      split <;> rfl
    have hom : (b.setMask m).outMask = m := rfl
    obtain ⟨hstep, _⟩ := C28_step o (b.setMask m) hw ht d hd x h2
    rw [hom, hfac] at hstep
    simp only [train, channelHistory]
    rw [hstep]
    have hsl : (stepAll o f m d x).length = b.num := by
      simp [stepAll, h1, h2, hdl]
    refine ih { b.setMask m with tracked := (b.setMask m).tracked + 1, stats := some (stepAll o f m d x) }
      ⟨h.affine, ?_, ?_⟩ ht hm _ rfl (fun p hp => hsz p (by simp [hp])) _ ?_
    · intro ps hps
      simp only [Option.some.injEq] at hps
      subst hps
      exact hsl
    · intro m' hm'
      simp [BN.setMask] at hm'; subst hm'; exact h1
    · exact stepAll_get o f m d x i s (by omega) (by omega) hs

/-- With cumulative averages (`momentum=None`), a channel that first becomes active in the
second step gets half the mean of its only batch: the counter is not kept for each
channel. An ordinary layer that saw only this batch would have its mean. -/
theorem C28_cumulative_violated :
    (train numOps (bn2 none) [([true, false], [4, 6]), ([false, true], [8, 10])]).stats = some [(4, 1), (5, 1)] ∧
    (train numOps (bn2 none) [([false, true], [8, 10])]).stats = some [(0, 1), (10, 1)] := by
  constructor <;> decide +kernel

/-- The exported layer (put in the same mode) behaves as the dynamic one, if the momentum
is a number or in evaluation mode: same outputs, same statistics. Missing: cumulative averages in training, see
`C28_export_violated`. -/
theorem C28_export_partial (o : Ops X) (b s : BN) (h : b.WF) (hs : b.toStatic = .ok s)
    (hm : b.momentum ≠ none ∨ b.training = false) (x : List X) :
    ({ s with training := b.training }.forward o x).2 = (b.forward o x).2 ∧
    ({ s with training := b.training }.forward o x).1.stats = (b.forward o x).1.sliced.stats := by
  have hl := outMask_length h
  obtain ⟨h1, h2, _⟩ := C28_forward o b h x
  rw [h1, h2]
  unfold BN.toStatic at hs
  rw [sliceOpt_ok _ _ (fun q hq => by rw [hl, h.stats q hq]), sliceOpt_ok _ _ (fun q hq => by rw [hl, h.affine q hq])] at hs
  simp only [bind, Except.bind, pure, Except.pure, Except.ok.injEq] at hs
  have hnum : (match b.mask with | some m => count m | none => b.num) = count b.outMask := by
    unfold BN.outMask
    cases b.mask with
    | none => simp [count_true]
    | some m => rfl
  have hsl : ({ s with training := b.training } : BN) = { b.sliced with tracked := 0 } := by
    rw [← hs]
    have e : (select b.outMask : List Pair → List Pair) = active b.outMask := funext (select_eq_active _)
    simp only [BN.sliced, e]
    congr 1
  rw [hsl]
  have hw := sliced_wf h
  have hw0 : ({ b.sliced with tracked := 0 } : BN).WF := ⟨hw.affine, hw.stats, hw.mask⟩
  rw [forward_eq o _ hw0, forward_eq o _ hw]
  have hfac : ({ b.sliced with tracked := 0 } : BN).factor.1 = b.sliced.factor.1 := by
    have em : b.sliced.momentum = b.momentum := rfl
    have et : b.sliced.training = b.training := rfl
    unfold BN.factor
    simp only [em, et]
    rcases hm with hm | hm
    · cases hmm : b.momentum with
      | none => exact absurd hmm hm
      | some f => split <;> rfl
    · simp [hm]
  rw [hfac]
  have e1 : ({ b.sliced with tracked := 0 } : BN).outMask = b.sliced.outMask := rfl
  rw [e1]
  generalize batchNorm o x _ _ _ _ = r
  generalize ({ b.sliced with tracked := 0 } : BN).factor.2 = n1
  generalize b.sliced.factor.2 = n2
  obtain ⟨num, aff, stats, tr, mom, mask, training⟩ := b.sliced
  cases r with
  | error e => exact ⟨rfl, rfl⟩
  | ok r =>
    obtain ⟨y, st⟩ := r
    cases training <;> cases stats <;> cases st <;> exact ⟨rfl, rfl⟩

/-- With cumulative averages the exported layer starts counting again: its next step
forgets the statistics it was given, while the dynamic layer averages. -/
theorem C28_export_violated :
    ∃ s, ({ bn2 none with tracked := 3, stats := some [(8, 1), (8, 1)], mask := some [true, false] } : BN).toStatic = .ok s ∧
      (s.forward numOps [4]).1.stats = some [(4, 1)] ∧
      (({ bn2 none with tracked := 3, stats := some [(8, 1), (8, 1)], mask := some [true, false] } : BN).forward numOps [4]).1.sliced.stats =
        some [(7, 1)] :=
  ⟨_, rfl, by decide +kernel, by decide +kernel⟩

/-- A switchable layer at a width below the full one runs the layer of that width, and
leaves those of all other widths and its own unchanged; an unknown width is refused. -/
theorem C28_switch (o : Ops X) (s : Switch) (x : List X) (hk : count s.own.outMask ≠ s.own.num) :
    (∀ c, s.cands.lookup (count s.own.outMask) = some c →
      (s.forward o x).2 = (c.forward o x).2 ∧ (s.forward o x).1.own = s.own ∧
      (s.forward o x).1.cands.lookup (count s.own.outMask) = some (c.forward o x).1 ∧
      (∀ j, j ≠ count s.own.outMask → (s.forward o x).1.cands.lookup j = s.cands.lookup j) ∧
      s.toStatic = .ok c) ∧
    (s.cands.lookup (count s.own.outMask) = none → s.forward o x = (s, .error .assertion) ∧ s.toStatic = .error .assertion) := by
  constructor
  · intro c hc
    unfold Switch.forward Switch.toStatic
    simp only [if_neg hk, hc]
    refine ⟨trivial, trivial, lookup_setCand_self _ _ c _ hc, fun j hj => lookup_setCand _ _ _ _ hj, trivial⟩
  · intro hc
    unfold Switch.forward Switch.toStatic
    simp [if_neg hk, hc]

/-- At the full width a switchable layer is the layer itself. -/
theorem C28_switch_full (o : Ops X) (s : Switch) (x : List X) (hk : count s.own.outMask = s.own.num) :
    s.forward o x = ({ s with own := (s.own.forward o x).1 }, (s.own.forward o x).2) ∧ s.toStatic = s.own.toStatic := by
  unfold Switch.forward Switch.toStatic
  simp [if_pos hk]

/-- Registering: a mask of another size, or a layer with nothing to slice, is refused. -/
theorem C28_register (b : BN) (m : List Bool) (h : b.WF) :
    (b.affine = none → b.stats = none → b.register m = .error .runtime) ∧
    (∀ b', b.register m = .ok b' → b'.WF ∧ b'.outMask = m) ∧
    (¬ (b.affine = none ∧ b.stats = none) → m.length ≠ b.num → b.register m = .error .value) := by
  unfold BN.register
  refine ⟨fun h1 h2 => by simp [h1, h2], ?_, fun h1 h2 => by rw [if_neg h1, if_pos h2]⟩
  intro b' hb
  split at hb
  · simp at hb
  · split at hb
    · simp at hb
    · rename_i hl
      push Not at hl
      simp only [Except.ok.injEq] at hb
      subst hb
      exact ⟨⟨h.affine, h.stats, fun m' hm' => by simp at hm'; subst hm'; exact hl⟩, rfl⟩

example : (bn2 (some (1/2))).WF ∧
    (train numOps (bn2 (some (1/2))) [([true, false], [4, 6]), ([false, true], [8, 10]), ([true, true], [2, 2])]).stats =
      some [(2, 1), (7/2, 1)] ∧
    channelHistory numOps (1/2) 1 [([true, false], [4, 6]), ([false, true], [8, 10]), ([true, true], [2, 2])] (0, 1) = (7/2, 1) :=
  ⟨bn2_wf _, by decide +kernel, by decide +kernel⟩

/-- Setting the widths of a switchable norm: refused when they were set before or when a
width is not between one and the number of features; otherwise there is one new layer for
each width asked for, and no other. -/
theorem C28_switch_init (s : Switch) (fresh : Nat → BN) (ws : List Nat) :
    (s.cands ≠ [] → s.init fresh ws = .error .assertion) ∧
    ((∃ w ∈ ws, ¬ (1 ≤ w ∧ w ≤ s.own.num)) → s.init fresh ws = .error .assertion) ∧
    (s.cands = [] → (∀ w ∈ ws, 1 ≤ w ∧ w ≤ s.own.num) → ∃ s', s.init fresh ws = .ok s' ∧ s'.own = s.own ∧
      (s'.cands.map (·.1)).Nodup ∧ ∀ w b, (w, b) ∈ s'.cands ↔ w ∈ ws ∧ b = fresh w) := by
  refine ⟨fun h => by rw [Switch.init, if_pos h], ?_, ?_⟩
  · rintro ⟨w, hw, hn⟩
    rw [Switch.init]
    split
    · rfl
    · rw [if_pos ⟨w, hw, by omega⟩]
  · intro h hw
    refine ⟨{ s with cands := (ws.dedup).map fun v => (v, fresh v) }, by rw [Switch.init, if_neg (by simp [h]), if_neg (by
      rintro ⟨w, hm, hb⟩; have := hw w hm; omega)], rfl, ?_, ?_⟩
    · simp [List.map_map, Function.comp_def, List.nodup_dedup]
    · intro w b
      simp only [List.mem_map, List.mem_dedup, Prod.mk.injEq]
      constructor
      · rintro ⟨v, hv, rfl, rfl⟩; exact ⟨hv, rfl⟩
      · rintro ⟨hv, rfl⟩; exact ⟨w, hv, rfl, rfl⟩

example : (Switch.mk { bn2 none with mask := some [true, false] } [(1, { bn2 none with num := 1, affine := some [(1, 0)], stats := some [(0, 1)] })]).cands.lookup
      (count [true, false]) ≠ none ∧ count [true, false] ≠ 2 := by decide +kernel

/-- C28, a batch norm refuses with a RuntimeError or not at all, and exactly when the number of channels of the input is not
that of the affine parameters or of the statistics, or when there are no statistics outside training. -/
theorem C28_refused (o : Ops X) (x : List X) (stats affine : Option (List Pair)) (training : Bool) (f : ℚ) (e : Err) :
    batchNorm o x stats affine training f = .error e ↔ e = .runtime ∧
      ((∃ a, affine = some a ∧ a.length ≠ x.length) ∨ (∃ s, stats = some s ∧ s.length ≠ x.length) ∨
        (stats = none ∧ training = false)) := by
  have hw : (perChannel x.length affine).length ≠ x.length ↔ ∃ a, affine = some a ∧ a.length ≠ x.length := by
    cases affine <;> simp [perChannel]
  unfold batchNorm
  dsimp only
  by_cases h : (perChannel x.length affine).length ≠ x.length
  · rw [if_pos h]
    constructor
    · intro h'
      cases h'
      exact ⟨rfl, Or.inl (hw.1 h)⟩
    · rintro ⟨rfl, -⟩
      rfl
  · rw [if_neg h]
    have hn := mt hw.2 h
    rw [iff_false_intro hn, false_or]
    cases training <;> cases stats with
    | none => simp [@eq_comm _ e]
    | some s =>
      by_cases hs : s.length = x.length
      · simp [hs]
      · simp [hs, @eq_comm _ e]

end Verif.DynamicNorm
