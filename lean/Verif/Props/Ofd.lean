import Verif.Lemmas.Ofd

/-! C65: margins of overhaul feature distillation. -/

namespace Verif.Ofd
open Verif MeasureTheory ProbabilityTheory Set Filter

/-! ### Lemmas -/

/-! ### C65 -/

/-- The margin of a channel with weight `w` other than zero and bias `b` is the mean of the responses
that are not positive, for responses distributed normally with mean `b` and deviation `|w|`; if such
responses have a chance of at most one in a thousand it is `-3·|w|`. -/
theorem C65_margin (w b : ℝ) (hw : w ≠ 0) :
    marginOf w b = .ok (if 0.001 < chanceNeg b |w| then meanNeg b |w| else -3 * |w|) := by
  by_cases h : 0.001 < chanceNeg b |w|
  · rw [if_pos h, margin_mean w b hw h]
  · rw [if_neg h]
    have hs : 0 < |w| := abs_pos.2 hw
    rw [chance_cdf b hs] at h
    unfold marginOf
    dsimp only
    rw [if_neg hs.ne', if_neg h]

/-- Every margin is negative. -/
theorem C65_margin_negative (w b x : ℝ) (h : marginOf w b = .ok x) : x < 0 := by
  by_cases hw : w = 0
  · subst hw; simp [marginOf] at h
  · rw [C65_margin w b hw] at h
    have hs : 0 < |w| := abs_pos.2 hw
    rw [Except.ok.injEq] at h
    rw [← h]
    split_ifs
    · exact meanNeg_neg b hs
    · linarith

example : ∃ x, marginOf (-2) 1 = .ok x := ⟨_, C65_margin (-2) 1 (by norm_num)⟩

/-- DISAGREEMENT: a batch normalisation with a weight of zero, as zero-initialised residual branches
have, makes the set-up raise `ZeroDivisionError`; and only such a layer does. -/
theorem C65_zero_weight_violated (bn : List (ℝ × ℝ)) :
    margins bn = .error .zeroDivision ↔ ∃ wb ∈ bn, wb.1 = 0 := by
  unfold margins
  induction bn with
  | nil => simp [List.mapM_nil, pure, Except.pure]
  | cons wb bn ih =>
    rw [List.mapM_cons]
    by_cases h : wb.1 = 0
    · have : marginOf wb.1 wb.2 = .error .zeroDivision := by simp [marginOf, h]
      rw [this]; simp [Bind.bind, Except.bind, h]
    · rw [C65_margin _ _ h]
      cases g : bn.mapM fun wb => marginOf wb.1 wb.2 with
      | error e => rw [g] at ih; simp [Bind.bind, Except.bind, h]; simpa using ih
      | ok l => rw [g] at ih; simp [Bind.bind, Except.bind, pure, Except.pure, h]; simpa using ih

/-- A layer without zero weights gets one margin per channel. -/
theorem C65_layer (bn : List (ℝ × ℝ)) (h : ∀ wb ∈ bn, wb.1 ≠ 0) :
    margins bn = .ok (bn.map fun wb => if 0.001 < chanceNeg wb.2 |wb.1| then meanNeg wb.2 |wb.1| else -3 * |wb.1|) := by
  unfold margins
  induction bn with
  | nil => rfl
  | cons wb bn ih =>
    rw [List.mapM_cons, C65_margin _ _ (h wb (by simp)), ih fun x hx => h x (by simp [hx])]
    rfl

example : ∀ wb ∈ [((1 : ℝ), (0 : ℝ)), (-2, 3)], wb.1 ≠ 0 := by simp

/-! ### Initialisation -/

/-- After a successful set-up, every connector through which an OFD loss takes a teacher feature holds
the margins of the batch normalisation recorded there (of one of them, if inputs share it), and all
other connectors are untouched. -/
theorem C65_init (t : Teacher) (l : List Loss) (cs cs' : ℕ → Option Connector) (h : init t l cs = .ok cs') (c : ℕ) :
    ((∃ i, Wanted l i c) → ∃ i bn m, Wanted l i c ∧ layer t i = some bn ∧ margins bn = .ok m ∧ cs' c = some (.ofd (some m))) ∧
    ((¬ ∃ i, Wanted l i c) → cs' c = cs c) := by
  obtain ⟨p, q⟩ := init_fold (visited l) h
  constructor
  · rintro ⟨i, x, hx, ho, hi, hf, hc⟩
    obtain ⟨j, hj, e1, e2, bn, m, r⟩ := q c ⟨i, (mem_visited l i).2 ⟨x, hx, ho, hi⟩, hc, hf⟩
    obtain ⟨y, hy, hyo, hyi⟩ := (mem_visited l j).1 hj
    exact ⟨j, bn, m, ⟨y, hy, hyo, hyi, e2, e1⟩, r⟩
  · intro hn
    refine p c fun i hi ⟨e1, e2⟩ => hn ⟨i, ?_⟩
    obtain ⟨y, hy, hyo, hyi⟩ := (mem_visited l i).1 hi
    exact ⟨y, hy, hyo, hyi, e2, e1⟩

/-- The set-up succeeds if every such input names a recorder of a batch normalisation without zero
weights and an OFD connector. -/
theorem C65_init_succeeds (t : Teacher) (l : List Loss) (cs : ℕ → Option Connector)
    (h : ∀ i c, Wanted l i c → (∃ bn, layer t i = some bn ∧ ∀ wb ∈ bn, wb.1 ≠ 0) ∧ ∃ m, cs c = some (.ofd m)) :
    ∃ cs', init t l cs = .ok cs' := by
  have main : ∀ (vs : List Info) (cs : ℕ → Option Connector),
      (∀ i ∈ vs, ∀ c, i.connector = some c → i.fromStudent = false → (∃ bn, layer t i = some bn ∧ ∀ wb ∈ bn, wb.1 ≠ 0) ∧ ∃ m, cs c = some (.ofd m)) →
      ∃ cs', vs.foldlM (initOne t) cs = .ok cs' := by
    intro vs
    induction vs with
    | nil => exact fun cs _ => ⟨cs, rfl⟩
    | cons a vs ih =>
      intro cs hv
      have step : ∃ cs1, initOne t cs a = .ok cs1 ∧ ∀ c, (∃ m, cs c = some (.ofd m)) → ∃ m, cs1 c = some (.ofd m) := by
        cases hc : a.connector with
        | none => exact ⟨cs, by unfold initOne; rw [hc], fun _ h => h⟩
        | some c =>
          by_cases hf : a.fromStudent = true
          · exact ⟨cs, by unfold initOne; rw [hc]; exact if_pos hf, fun _ h => h⟩
          · obtain ⟨⟨bn, e1, e2⟩, m, e3⟩ := hv a (by simp) c hc (by simpa using hf)
            unfold layer at e1
            rw [Option.bind_eq_some_iff] at e1
            obtain ⟨k, f1, f2⟩ := e1
            rw [Option.bind_eq_some_iff] at f2
            obtain ⟨x, g1, g2⟩ := f2
            simp only [id] at g2
            subst g2
            refine ⟨Function.update cs c (some (.ofd (some (bn.map fun wb => if 0.001 < chanceNeg wb.2 |wb.1| then meanNeg wb.2 |wb.1| else -3 * |wb.1|)))), ?_, ?_⟩
            · unfold initOne
              rw [hc]
              dsimp only
              rw [if_neg hf, f1]
              dsimp only
              rw [g1]
              dsimp only
              rw [e3]
              dsimp only
              rw [C65_layer bn e2]
            · intro c' ⟨m', h'⟩
              by_cases e : c' = c
              · subst e; exact ⟨_, Function.update_self _ _ _⟩
              · exact ⟨m', by rw [Function.update_of_ne e]; exact h'⟩
      obtain ⟨cs1, h1, h2⟩ := step
      obtain ⟨cs2, h3⟩ := ih cs1 fun i hi c a b => ⟨(hv i (by simp [hi]) c a b).1, h2 c (hv i (by simp [hi]) c a b).2⟩
      exact ⟨cs2, by rw [List.foldlM_cons, h1]; exact h3⟩
  refine main (visited l) cs fun i hi c a b => ?_
  obtain ⟨y, hy, hyo, hyi⟩ := (mem_visited l i).1 hi
  exact h i c ⟨y, hy, hyo, hyi, b, a⟩

example : Wanted [⟨true, [⟨0, false, some 7⟩]⟩] ⟨0, false, some 7⟩ 7 := ⟨_, List.mem_singleton.2 rfl, rfl, List.mem_singleton.2 rfl, rfl, rfl⟩

/-- A connector whose margin was never set refuses to work. -/
theorem C65_unset (channel : ℕ) (x : ℝ) : connect none channel x = .error .assertion := rfl

/-- What the connector and the loss ask of the student: a positive response of the teacher must be
matched; where the teacher is not positive, every response of the student up to the larger of the
teacher's response and the margin costs nothing, and every higher one costs. -/
theorem C65_target (ms : List ℝ) (channel : ℕ) (hc : channel < ms.length) (hm : ms[channel] < 0) (t s : ℝ) :
    ∃ y, connect (some ms) channel t = .ok y ∧
      (0 < t → (FeatureLoss.ofdForward 1 1 (fun (_ : Fin 1) (_ : Fin 1) => s) (fun _ _ => y) = 0 ↔ s = t)) ∧
      (t ≤ 0 → (FeatureLoss.ofdForward 1 1 (fun (_ : Fin 1) (_ : Fin 1) => s) (fun _ _ => y) = 0 ↔ s ≤ max t ms[channel])) := by
  refine ⟨max t (ms.getD channel 0), rfl, ?_, ?_⟩
  all_goals
    have e : ms.getD channel 0 = ms[channel] := by simp [hc]
    rw [e]
    intro ht
    unfold FeatureLoss.ofdForward
    simp only [Finset.univ_unique, Finset.sum_singleton, one_mul, Nat.cast_one, div_one]
  · rw [max_eq_left (by linarith), if_pos (Or.inr ht), mul_one, sq_eq_zero_iff, sub_eq_zero]
  · have hy : max t ms[channel] ≤ 0 := max_le ht hm.le
    by_cases h : s > max t ms[channel]
    · rw [if_pos (Or.inl h), mul_one, sq_eq_zero_iff, sub_eq_zero]
      exact ⟨fun e => e.le, fun e => absurd e (not_le.2 h)⟩
    · rw [if_neg (by rintro (g | g); exact h g; exact absurd g (not_lt.2 hy)), mul_zero]
      exact ⟨fun _ => not_lt.1 h, fun _ => rfl⟩

example : (0 : ℕ) < [(-1 : ℝ)].length ∧ [(-1 : ℝ)][0] < 0 := by simp

/-- What stops the initialisation at an input taken from the teacher through a connector: an unknown recorder, a module the teacher
does not have, one that is no batch normalisation, an unknown connector, one of another kind. -/
theorem C65_init_refused (t : Teacher) (r c : ℕ) (is : List Info) (ls : List Loss) (cs : ℕ → Option Connector) :
    let run := init t (⟨true, ⟨r, false, some c⟩ :: is⟩ :: ls) cs
    (t.source r = none → run = .error .key) ∧
    (∀ k, t.source r = some k → t.module' k = none → run = .error .attribute) ∧
    (∀ k, t.source r = some k → t.module' k = some none → run = .error .assertion) ∧
    (∀ k bn, t.source r = some k → t.module' k = some (some bn) → cs c = none → run = .error .key) ∧
    (∀ k bn, t.source r = some k → t.module' k = some (some bn) → cs c = some .other → run = .error .assertion) := by
  have hv : visited (⟨true, ⟨r, false, some c⟩ :: is⟩ :: ls) = ⟨r, false, some c⟩ :: (is ++ visited ls) := by
    simp [visited]
  have key : ∀ e, initOne t cs ⟨r, false, some c⟩ = .error e →
      init t (⟨true, ⟨r, false, some c⟩ :: is⟩ :: ls) cs = .error e := by
    intro e h
    rw [init, hv, List.foldlM_cons, h]
    rfl
  refine ⟨fun h => key _ ?_, fun k h h1 => key _ ?_, fun k h h1 => key _ ?_, fun k bn h h1 h2 => key _ ?_,
    fun k bn h h1 h2 => key _ ?_⟩
  · simp [initOne, h]
  · simp [initOne, h, h1]
  · simp [initOne, h, h1]
  · simp [initOne, h, h1, h2]
  · simp [initOne, h, h1, h2]

example : init ⟨fun _ => none, fun _ => none⟩ [⟨true, [⟨0, false, some 1⟩]⟩] (fun _ => none) = .error .key :=
  (C65_init_refused _ _ _ _ _ _).1 rfl

end Verif.Ofd
