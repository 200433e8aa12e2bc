import Verif.Lemmas.DmcpTrain

/-! C57: the training schedule of DMCP. -/

namespace Verif.DmcpTrain
open Verif

variable {R B W A Ow Oa : Type} [AddCommGroup W] [AddCommGroup A]

/-! ### Effects -/

/-- C57: the weights, the architecture parameters and their optimizers at the end of a run are
those given by the effects of the events in order. In particular an architecture step uses the
gradients of the architecture loss and of the FLOPs loss only, whatever gradients the weight
steps before have left in the parameters. -/
theorem C57_effects (t : Task R B W A Ow Oa) (xs : List (B × List (R × ℚ))) (it : Nat) (w : W) (a : A) (ow : Ow) (oa : Oa)
    (s : St R B W A Ow Oa) (h : (fresh w a ow oa).run t it xs = .ok s) :
    s.view = s.log.foldl (effect t) ⟨w, ow, a, oa, 0⟩ := by
  obtain ⟨l, h1, h2⟩ := run_effect t xs it _ s h
  rw [h2, h1]
  rfl

/-! ### Schedule -/

/-- C57: with a strategy that begins with the largest subnet, no run fails; in every iteration the
passes are those of the strategy, in order; the sampled subnets follow the architecture
parameters exactly in the iterations after `archStart` (for `scheduled_random` if the draw
exceeds `0.9999 ^ k`), also when the run is resumed at any iteration; the distillation loss is
used exactly after `distillAfter` iterations and its teacher is the largest subnet on the same
batch; the architecture parameters are updated after the weights, in every `archFreq`-th
iteration after `archStart`. -/
theorem C57_schedule (t : Task R B W A Ow Oa) (xs : List (B × List (R × ℚ))) (it : Nat) (w : W) (a : A) (ow : Ow) (oa : Oa)
    (hf : 0 < t.archFreq) (hmax : ∃ n l, t.strategy = n :: l ∧ kindOf n = .max)
    (hd : ∀ x ∈ xs, x.2.length = t.strategy.length) :
    ∃ s, (fresh w a ow oa).run t it xs = .ok s ∧ s.log.map (Ev.map (·.1)) = wanted t it 0 xs := by
  have key : ∀ (xs : List (B × List (R × ℚ))) (it k : Nat) (s : St R B W A Ow Oa),
      (∀ x ∈ xs, x.2.length = t.strategy.length) → (s.archTrain = true → t.archStart < it) → s.prob = (9999 / 10000) ^ k →
      ∃ s', s.run t it xs = .ok s' ∧ s'.log.map (Ev.map (·.1)) = s.log.map (Ev.map (·.1)) ++ wanted t it k xs := by
    intro xs
    induction xs with
    | nil => intro it k s _ _ _; exact ⟨s, rfl, by simp [wanted]⟩
    | cons x xs ih =>
      intro it k s hd ha hp
      obtain ⟨b, ds⟩ := x
      have hlen : ds.length = t.strategy.length := hd (b, ds) (by simp)
      obtain ⟨n, l, hst, hn⟩ := hmax
      have hz : ∃ e r, t.strategy.zip ds = e :: r ∧ kindOf e.1 = .max := by
        rw [hst] at hlen ⊢
        cases ds with
        | nil => simp at hlen
        | cons d ds => exact ⟨_, _, rfl, hn⟩
      have hmap : (t.strategy.zip ds).map (·.1) = t.strategy := by
        rw [List.map_fst_zip]; omega
      have hb : (begun t it s).archTrain = decide (t.archStart < it) := by
        unfold begun
        by_cases h1 : s.archTrain = true
        · simp [h1, ha h1]
        · simp only [Bool.not_eq_true] at h1
          by_cases h2 : t.archStart < it <;> simp [h1, h2]
      obtain ⟨b1, b2, b3, b4⟩ := begun_same t it s
      obtain ⟨s1, e1, e2, e3, e4⟩ := entries_ok t it b (t.strategy.zip ds) k (begun t it s) hb (by rw [b3]; exact hp) (Or.inl hz)
      rw [hmap] at e3
      rw [b2] at e4
      obtain ⟨s2, f1, f2, f3, f4⟩ : ∃ s2, s1.finish t it b = .ok s2 ∧ s2.archTrain = s1.archTrain ∧ s2.prob = s1.prob ∧
          s2.log.map (Ev.map (·.1)) = s1.log.map (Ev.map (·.1)) ++
            (if t.archStart < it ∧ it % t.archFreq = 0 then [.arch b] else []) := by
        unfold St.finish
        rw [e2, hb]
        by_cases h1 : t.archStart < it
        · simp only [h1, decide_true, if_true, hf.ne', if_false, true_and]
          by_cases h2 : it % t.archFreq = 0
          · simp only [h2, if_true]
            exact ⟨_, rfl, by simp [St.updateArch, St.archStep, e2, hb, h1], rfl, by simp [St.updateArch, St.archStep, Ev.map]⟩
          · simp only [h2, if_false]
            exact ⟨_, rfl, by simp [e2, hb, h1], rfl, by simp⟩
        · simp only [h1, decide_false, Bool.false_eq_true, if_false, false_and]
          exact ⟨_, rfl, by simp [e2, hb, h1], rfl, by simp⟩
      obtain ⟨s', g1, g2⟩ := ih (it + 1) (k + scheduled t.strategy) s2 (fun x hx => hd x (by simp [hx]))
        (by rw [f2, e2, hb]; simp only [decide_eq_true_eq]; omega) (by rw [f3, e3])
      refine ⟨s', ?_, ?_⟩
      · rw [St.run]
        have : s.step t it b ds = .ok s2 := by
          change ((t.strategy.zip ds).foldlM (St.entry t it b) (begun t it s) >>= fun s => s.finish t it b) = _
          rw [e1]; exact f1
        rw [this]; exact g1
      · rw [g2, f4, e4, wanted, passes_teacher t it b k _ none _ hz]
        simp [List.append_assoc]
  obtain ⟨s, h1, h2⟩ := key xs it 0 (fresh w a ow oa) hd (by simp [fresh]) (by simp [fresh])
  exact ⟨s, h1, by simpa [fresh] using h2⟩

/-! ### Concrete cases -/

example : (((fresh 0 0 () ()).run (toy standard 1 2 0) 1 [(5, [(0, 0), (1, 0), (2, 1), (3, 0)]), (6, [(4, 0), (5, 0), (6, 1), (7, 0)])]).toOption.map
    fun s => s.log.map (Ev.map (·.1))) =
    some [.weight ⟨.max, 0, false, 5⟩ none, .weight ⟨.min, 1, false, 5⟩ (some ⟨.max, 0, false, 5⟩),
      .weight ⟨.random, 2, false, 5⟩ (some ⟨.max, 0, false, 5⟩), .weight ⟨.random, 3, false, 5⟩ (some ⟨.max, 0, false, 5⟩),
      .weight ⟨.max, 4, true, 6⟩ none, .weight ⟨.min, 5, true, 6⟩ (some ⟨.max, 4, true, 6⟩),
      .weight ⟨.direct, 6, true, 6⟩ (some ⟨.max, 4, true, 6⟩), .weight ⟨.direct, 7, true, 6⟩ (some ⟨.max, 4, true, 6⟩), .arch 6] := by
  decide +kernel

example := C57_schedule (toy standard 1 2 0) [(5, [(0, 0), (1, 0), (2, 1), (3, 0)])] 7 0 0 () () (by decide)
  ⟨_, _, rfl, by decide +kernel⟩ (by decide +kernel)

/-! ### The entries of the strategy -/

/-- C57: the four documented names select the four kinds of subnets. -/
theorem C57_kinds : kindOf "max".toList = .max ∧ kindOf "min".toList = .min ∧
    kindOf "arch_random".toList = .archRandom ∧ kindOf "scheduled_random".toList = .scheduledRandom := by
  decide +kernel

/-- C57 is violated for other entries: they are compared by substring, so `random` is treated as
`arch_random` (and follows the architecture parameters later), the empty string as `max`, and an
unknown name such as `direct` is skipped without an error. -/
theorem C57_kind_violated : kindOf "random".toList = .archRandom ∧ kindOf [] = .max ∧ kindOf "a".toList = .max ∧
    kindOf "direct".toList = .ignored := by
  decide +kernel

/-! ### Gradients -/

/-- C57, under the guard that no architecture update came before: every weight step uses the
gradient of its own loss only. Missing: the step after an architecture update, see `C57_leak_violated`. -/
theorem C57_clean_partial (t : Task R B W A Ow Oa) (l : List (Ev R B (Pass R B × W × A))) (v : View W A Ow Oa) (hv : v.carry = 0)
    (hl : ∀ b, Ev.arch b ∉ l) (p : Pass R B) (te : Option (Pass R B × W × A)) :
    let u := l.foldl (effect t) v
    let g := (t.hard p u.w u.a).1 + (match te with
      | some r => (t.soft p r u.w u.a).1
      | none => 0)
    ((effect t u (.weight p te)).ow, (effect t u (.weight p te)).w) = t.optW u.ow u.w g ∧
      (effect t u (.weight p te)).a = v.a := by
  have hc : ∀ (l : List (Ev R B (Pass R B × W × A))) (v : View W A Ow Oa), v.carry = 0 → (∀ b, Ev.arch b ∉ l) →
      (l.foldl (effect t) v).carry = 0 ∧ (l.foldl (effect t) v).a = v.a := by
    intro l
    induction l with
    | nil => intro v h _; exact ⟨h, rfl⟩
    | cons e l ih =>
      intro v h hl
      cases e with
      | arch b => exact absurd List.mem_cons_self (hl b)
      | weight p te =>
        obtain ⟨a1, a2⟩ := ih (effect t v (.weight p te)) rfl fun b hb => hl b (List.mem_cons_of_mem _ hb)
        exact ⟨a1, a2⟩
  obtain ⟨h1, h2⟩ := hc l v hv hl
  intro u g
  have h3 : u.carry + g = g := by rw [show u.carry = 0 from h1, zero_add]
  refine ⟨?_, h2⟩
  change ((t.optW u.ow u.w (u.carry + g)).1, (t.optW u.ow u.w (u.carry + g)).2) = _
  rw [h3]

/-- C57 is violated after an update of the architecture parameters: the gradient of the
architecture loss is left in the weights, so the next weight step, that of the largest subnet in
the next iteration, uses it as well, for every task, weights and optimizers. -/
theorem C57_leak_violated (t : Task R B W A Ow Oa) (hs : t.strategy = ["max".toList]) (hf : t.archFreq = 1) (it : Nat)
    (hit : t.archStart < it) (b b' : B) (d d' : R × ℚ) (w : W) (a : A) (ow : Ow) (oa : Oa) :
    ∃ s s', (fresh w a ow oa).run t it [(b, [d])] = .ok s ∧ (fresh w a ow oa).run t it [(b, [d]), (b', [d'])] = .ok s' ∧
      (s.ow, s.w) = t.optW ow w (t.hard ⟨.max, d.1, true, b⟩ w a).1 ∧
      (s'.ow, s'.w) = t.optW s.ow s.w ((t.archLoss b s.w a).1 + (t.hard ⟨.max, d'.1, true, b'⟩ s.w s.a).1) := by
  have hk : kindOf "max".toList = .max := C57_kinds.1
  have h1 : ∀ (it : Nat) (s : St R B W A Ow Oa) (b : B) (d : R × ℚ), t.archStart < it →
      s.step t it b [d] = .ok (({ s with archTrain := true }.maxPass t d.1 b).updateArch t b) := by
    intro it s b d hit
    change ((t.strategy.zip [d]).foldlM (St.entry t it b) (begun t it s) >>= fun s => s.finish t it b) = _
    have hb : begun t it s = { s with archTrain := true } := by
      unfold begun
      by_cases h : s.archTrain = false
      · rw [if_pos ⟨h, hit⟩]
      · rw [if_neg (by tauto)]
        cases s; simp_all
    rw [hs, hb]
    change ((St.entry t it b { s with archTrain := true } ("max".toList, d)) >>= pure) >>= (fun s => s.finish t it b) = _
    have e1 : St.entry t it b { s with archTrain := true } ("max".toList, d) = .ok ({ s with archTrain := true }.maxPass t d.1 b) := by
      unfold St.entry; rw [hk]
    rw [e1]
    change St.finish t it b (St.maxPass t d.1 b { s with archTrain := true }) = _
    unfold St.finish
    rw [if_pos (by rfl), if_neg (by omega), if_pos (by rw [hf]; omega)]
  have r1 := h1 it (fresh w a ow oa) b d hit
  have r2 := h1 (it + 1) (({ fresh w a ow oa with archTrain := true }.maxPass t d.1 b).updateArch t b) b' d' (by omega)
  refine ⟨_, _, (show _ = Except.ok _ by rw [St.run, r1]; rfl), (show _ = Except.ok _ by
    rw [St.run, r1]
    change (St.step t (it + 1) b' [d'] _ >>= fun s => s.run t (it + 1 + 1) []) = _
    rw [r2]
    rfl), ?_, ?_⟩
  · simp [St.updateArch, St.archStep, St.maxPass, St.weightStep, fresh]
  · simp [St.updateArch, St.archStep, St.maxPass, St.weightStep, fresh]

example : (((fresh 0 0 () ()).run (toy ["max".toList] 0 1 0) 1 [(5, [(0, 0)]), (6, [(4, 0)])]).toOption.map fun s => (s.w, s.a)) =
    some (-5 - (50 + 6), -50 - 100 - 60 - 100) := by
  decide +kernel

/-! ### Teacher -/

/-- C57 is violated when the largest subnet does not come first: the smallest subnet is then
trained without distillation, or with the outputs the largest subnet had on the batch of the
previous iteration. -/
theorem C57_stale_violated (t : Task R B W A Ow Oa) (hs : t.strategy = ["min".toList, "max".toList]) (it : Nat)
    (hd : t.distillAfter = it) (ha : it + 1 ≤ t.archStart) (b b' : B) (d e d' e' : R × ℚ) (w : W) (a : A) (ow : Ow) (oa : Oa) :
    ∃ s, (fresh w a ow oa).run t it [(b, [d, e]), (b', [d', e'])] = .ok s ∧
      s.log.map (Ev.map (·.1)) = [.weight ⟨.min, d.1, false, b⟩ none, .weight ⟨.max, e.1, false, b⟩ none,
        .weight ⟨.min, d'.1, false, b'⟩ (some ⟨.max, e.1, false, b⟩), .weight ⟨.max, e'.1, false, b'⟩ none] := by
  have hk := C57_kinds
  have h1 : ∀ (it : Nat) (s s1 : St R B W A Ow Oa) (b : B) (d e : R × ℚ), it ≤ t.archStart → s.archTrain = false →
      s.distill t it .min d.1 b = .ok s1 → s1.archTrain = false → s.step t it b [d, e] = .ok (s1.maxPass t e.1 b) := by
    intro it s s1 b d e hit ha hs1 ha1
    change ((t.strategy.zip [d, e]).foldlM (St.entry t it b) (begun t it s) >>= fun s => s.finish t it b) = _
    have hb : begun t it s = s := by
      unfold begun
      rw [if_neg (by omega)]
    have e1 : St.entry t it b s ("min".toList, d) = .ok s1 := by
      unfold St.entry; rw [hk.2.1]; exact hs1
    have e2 : St.entry t it b s1 ("max".toList, e) = .ok (s1.maxPass t e.1 b) := by
      unfold St.entry; rw [hk.1]
    rw [hs, hb]
    change ((St.entry t it b s ("min".toList, d)) >>= fun s => (St.entry t it b s ("max".toList, e)) >>= pure) >>= (fun s => s.finish t it b) = _
    rw [e1]
    change ((St.entry t it b s1 ("max".toList, e)) >>= pure) >>= (fun s => s.finish t it b) = _
    rw [e2]
    change St.finish t it b _ = _
    unfold St.finish
    rw [if_neg]
    simp [St.maxPass, St.weightStep, ha1]
  have d1 : ∀ (s : St R B W A Ow Oa), s.archTrain = false → s.distill t it .min d.1 b = .ok
      { s.weightStep t (t.hard ⟨.min, d.1, false, b⟩ s.w s.a) with log := s.log ++ [.weight ⟨.min, d.1, false, b⟩ none] } := by
    intro s hs
    unfold St.distill
    dsimp only
    rw [if_neg (by omega), hs]
  have d2 : ∀ (s : St R B W A Ow Oa) te, s.archTrain = false → s.teacher = some te → s.distill t (it + 1) .min d'.1 b' = .ok
      { s.weightStep t (t.hard ⟨.min, d'.1, false, b'⟩ s.w s.a + t.soft ⟨.min, d'.1, false, b'⟩ te s.w s.a) with
        log := s.log ++ [.weight ⟨.min, d'.1, false, b'⟩ (some te)] } := by
    intro s te hs ht
    unfold St.distill
    dsimp only
    rw [if_pos (by omega), hs, ht]
  have r1 := h1 it (fresh w a ow oa) _ b d e (by omega) rfl (d1 _ rfl) rfl
  refine ⟨_, (show _ = Except.ok _ by
    rw [St.run, r1]
    change (St.step t (it + 1) b' [d', e'] _ >>= fun s => s.run t (it + 1 + 1) []) = _
    rw [h1 (it + 1) _ _ b' d' e' (by omega) rfl (d2 _ _ rfl rfl) rfl]
    rfl), ?_⟩
  · simp [St.maxPass, St.weightStep, fresh, Ev.map]

/-- C57 is violated without the largest subnet in the strategy: training goes on for
`distillAfter` iterations and then fails. -/
theorem C57_late_failure_violated (t : Task R B W A Ow Oa) (hs : t.strategy = ["min".toList]) (hf : 0 < t.archFreq)
    (xs : List (B × List (R × ℚ))) (hd : ∀ x ∈ xs, x.2.length = 1) (b : B) (d : R × ℚ) (w : W) (a : A) (ow : Ow) (oa : Oa)
    (hx : xs.length = t.distillAfter + 1) :
    (∃ s, (fresh w a ow oa).run t 0 xs = .ok s) ∧ (fresh w a ow oa).run t 0 (xs ++ [(b, [d])]) = .error .assertion := by
  have hk := C57_kinds.2.1
  have hrun : ∀ (xs : List (B × List (R × ℚ))) (it : Nat) (s : St R B W A Ow Oa), (∀ x ∈ xs, x.2.length = 1) →
      it + xs.length ≤ t.distillAfter + 1 → s.teacher = none →
      ∃ s', s.run t it xs = .ok s' ∧ s'.teacher = none := by
    intro xs
    induction xs with
    | nil => intro it s _ _ ht; exact ⟨s, rfl, ht⟩
    | cons x xs ih =>
      intro it s hd hit ht
      obtain ⟨b, ds⟩ := x
      obtain ⟨d, rfl⟩ := List.length_eq_one_iff.1 (hd (b, ds) (by simp))
      simp only [List.length_cons] at hit
      have hb := begun_same t it s
      obtain ⟨s1, e1, -, -, e4, -⟩ := distill_ok t it .min d.1 b (begun t it s) (by omega)
      have e2 : St.entry t it b (begun t it s) ("min".toList, d) = .ok s1 := by
        unfold St.entry; rw [hk]; exact e1
      have : ∃ s2, s1.finish t it b = .ok s2 ∧ s2.teacher = none := by
        unfold St.finish
        split_ifs with h1 h2 h3
        · omega
        · exact ⟨_, rfl, by simpa [St.updateArch, St.archStep, e4, hb.2.2.2] using ht⟩
        · exact ⟨_, rfl, by simpa [e4, hb.2.2.2] using ht⟩
        · exact ⟨_, rfl, by simpa [e4, hb.2.2.2] using ht⟩
      obtain ⟨s2, f1, f2⟩ := this
      obtain ⟨s', g1, g2⟩ := ih (it + 1) s2 (fun x hx => hd x (by simp [hx])) (by omega) f2
      refine ⟨s', ?_, g2⟩
      rw [St.run]
      have : s.step t it b [d] = .ok s2 := by
        change ((t.strategy.zip [d]).foldlM (St.entry t it b) (begun t it s) >>= fun s => s.finish t it b) = _
        rw [hs]
        change ((St.entry t it b (begun t it s) ("min".toList, d)) >>= pure) >>= (fun s => s.finish t it b) = _
        rw [e2]; exact f1
      rw [this]; exact g1
  have happ : ∀ (xs ys : List (B × List (R × ℚ))) (it : Nat) (s : St R B W A Ow Oa),
      s.run t it (xs ++ ys) = (s.run t it xs >>= fun s => s.run t (it + xs.length) ys) := by
    intro xs
    induction xs with
    | nil => intro ys it s; rfl
    | cons x xs ih =>
      intro ys it s
      obtain ⟨b, ds⟩ := x
      rw [List.cons_append, St.run, St.run]
      cases s.step t it b ds with
      | error e => rfl
      | ok s1 =>
        have := ih ys (it + 1) s1
        rw [List.length_cons, show it + (xs.length + 1) = it + 1 + xs.length by omega]
        exact this
  obtain ⟨s, h1, h2⟩ := hrun xs 0 (fresh w a ow oa) hd (by omega) rfl
  refine ⟨⟨s, h1⟩, ?_⟩
  rw [happ, h1]
  have h3 : s.step t (0 + xs.length) b [d] = .error .assertion := by
    change ((t.strategy.zip [d]).foldlM (St.entry t _ b) (begun t _ s) >>= fun s => s.finish t _ b) = _
    rw [hs]
    change ((St.entry t _ b (begun t _ s) ("min".toList, d)) >>= pure) >>= (fun s => s.finish t _ b) = _
    have : St.entry t (0 + xs.length) b (begun t (0 + xs.length) s) ("min".toList, d) = .error .assertion := by
      unfold St.entry; rw [hk]
      change St.distill _ _ _ _ _ _ = _
      unfold St.distill
      dsimp only
      rw [if_pos (by omega), (begun_same t _ s).2.2.2, h2]
    rw [this]; rfl
  change (s.run t (0 + xs.length) [(b, [d])]) = _
  rw [St.run, h3]
  rfl

example := C57_stale_violated (toy ["min".toList, "max".toList] 9 1 3) rfl 3 rfl (by decide) 5 6 (0, 0) (0, 0) (0, 0) (0, 0) 0 0 () ()

example := C57_late_failure_violated (toy ["min".toList] 9 1 1) rfl (by decide) [(5, [(0, 0)]), (6, [(0, 0)])] (by decide +kernel) 7 (0, 0) 0 0 () () rfl

/-! ### Resuming -/

/-- C57 is violated when training is resumed with `scheduled_random`: the probability of a random
subnet starts again at one, so the same iteration with the same draws trains another subnet. -/
theorem C57_resume_violated :
    let t := toy ["max".toList, "scheduled_random".toList] 0 100 10
    let x₁ : Nat × List (Nat × ℚ) := (5, [(0, 0), (1, 99995 / 100000)])
    let x₂ : Nat × List (Nat × ℚ) := (6, [(2, 0), (3, 99995 / 100000)])
    ∃ s₁ s₂ s₃, (fresh 0 0 () ()).run t 1 [x₁] = .ok s₁ ∧ (fresh 0 0 () ()).run t 1 [x₁, x₂] = .ok s₂ ∧
      (fresh s₁.w s₁.a s₁.ow s₁.oa).run t 2 [x₂] = .ok s₃ ∧
      s₂.log.drop 2 ≠ s₃.log ∧ (s₂.log.map (Ev.map (·.1))).getLast? = some (.weight ⟨.direct, 3, true, 6⟩ none) ∧
      (s₃.log.map (Ev.map (·.1))).getLast? = some (.weight ⟨.random, 3, true, 6⟩ none) := by
  refine ⟨_, _, _, rfl, rfl, rfl, ?_⟩
  decide +kernel

/-- C57 is violated for `arch_train_freq = 0`: training runs up to the first iteration in which
the architecture parameters take part and then fails. -/
theorem C57_freq_violated :
    (((fresh 0 0 () ()).run (toy ["max".toList] 1 0 10) 0 [(5, [(0, 0)]), (6, [(0, 0)])]).toOption.isSome = true) ∧
    ((fresh 0 0 () ()).run (toy ["max".toList] 1 0 10) 0 [(5, [(0, 0)]), (6, [(0, 0)]), (7, [(0, 0)])]).toOption.isNone = true := by
  decide +kernel

/-! ### Names of losses -/

/-- C57: the losses of different passes are reported under different prefixes, which are also
different from those of the architecture losses. -/
theorem C57_reported (ms : List Mode) : (prefixes (fun _ => 1) ms ++ ["arch".toList, "flops".toList]).Nodup ∧
    (prefixes (fun _ => 1) ms).length = ms.length := by
  have hn : ∀ (ms : List Mode) (c : Mode → Nat), (prefixes c ms).Nodup ∧ (prefixes c ms).length = ms.length := by
    intro ms
    induction ms with
    | nil => intro c; simp [prefixes]
    | cons m ms ih =>
      intro c
      rw [prefixes]
      refine ⟨List.nodup_cons.2 ⟨fun h => ?_, (ih _).1⟩, by simp [(ih _).2]⟩
      obtain ⟨m', k, h1, h2⟩ := prefixes_mem ms _ _ h
      obtain ⟨rfl, h3⟩ := base_inj m m' _ _ h2
      have := Sandwich.digits_inj h3
      rw [if_pos rfl] at h1
      omega
  refine ⟨List.nodup_append.2 ⟨(hn ms _).1, by decide +kernel, ?_⟩, (hn ms _).2⟩
  intro x hx y hy hxy
  subst hxy
  obtain ⟨m, k, -, h2⟩ := prefixes_mem ms _ x hx
  have h3 : x.take 2 = m.base.take 2 := by rw [h2, List.take_append_of_le_length (base_length m)]
  rw [base_take] at h3
  have h4 : x.take 2 = ['a', 'r'] ∨ x.take 2 = ['f', 'l'] := by
    simp only [List.mem_cons, List.not_mem_nil, or_false] at hy
    rcases hy with rfl | rfl
    · left; decide +kernel
    · right; decide +kernel
  rcases h4 with h4 | h4 <;> rw [h4] at h3 <;> cases m <;> simp at h3

example : prefixes (fun _ => 1) [.max, .random, .random] = ["max_subnet1".toList, "random_subnet1".toList, "random_subnet2".toList] := by
  decide +kernel

/-- A frequency of zero for the architecture steps is a `ZeroDivisionError` as soon as these steps have begun, and is not noticed
before. -/
theorem C57_frequency (t : Task R B W A Ow Oa) (it : Nat) (b : B) (s : St R B W A Ow Oa) :
    s.finish t it b = .error .zeroDivision ↔ s.archTrain = true ∧ t.archFreq = 0 := by
  unfold St.finish
  cases h : s.archTrain
  · simp
  · by_cases h1 : t.archFreq = 0
    · simp [h1]
    · by_cases h2 : it % t.archFreq = 0 <;> simp [h1, h2]

end Verif.DmcpTrain
