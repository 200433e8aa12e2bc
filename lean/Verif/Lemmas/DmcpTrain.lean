import Verif.Spec.DmcpTrain

/-! Helper lemmas for `Verif/Props/DmcpTrain.lean`. -/

namespace Verif.DmcpTrain
open Verif

variable {R B W A Ow Oa : Type} [AddCommGroup W] [AddCommGroup A]

/-- The state after the first lines of `train_step`. -/
def begun (t : Task R B W A Ow Oa) (it : Nat) (s : St R B W A Ow Oa) : St R B W A Ow Oa :=
  if s.archTrain = false ∧ t.archStart < it then { s with archTrain := true } else s

theorem distill_effect (t : Task R B W A Ow Oa) (it : Nat) (m : Mode) (r : R) (b : B) (s s' : St R B W A Ow Oa)
    (h : s.distill t it m r b = .ok s') : ∃ e, s'.log = s.log ++ [e] ∧ s'.view = effect t s.view e := by
  unfold St.distill at h
  dsimp only at h
  by_cases hd : t.distillAfter < it
  · rw [if_pos hd] at h
    cases ht : s.teacher with
    | none => rw [ht] at h; cases h
    | some te =>
      rw [ht] at h
      cases h
      exact ⟨_, rfl, rfl⟩
  · rw [if_neg hd] at h
    cases h
    exact ⟨_, rfl, by simp [effect, St.view, St.weightStep]⟩

theorem entry_effect (t : Task R B W A Ow Oa) (it : Nat) (b : B) (s s' : St R B W A Ow Oa) (e : Name × R × ℚ)
    (h : s.entry t it b e = .ok s') : ∃ l, s'.log = s.log ++ l ∧ s'.view = l.foldl (effect t) s.view := by
  unfold St.entry at h
  cases hk : kindOf e.1 with
  | max =>
    rw [hk] at h
    cases h
    exact ⟨_, rfl, by simp [effect, St.view, St.weightStep, St.maxPass]⟩
  | min =>
    rw [hk] at h
    obtain ⟨x, h1, h2⟩ := distill_effect t it _ _ b s s' h
    exact ⟨[x], h1, h2⟩
  | archRandom =>
    rw [hk] at h
    obtain ⟨x, h1, h2⟩ := distill_effect t it _ _ b s s' h
    exact ⟨[x], h1, h2⟩
  | scheduledRandom =>
    rw [hk] at h
    dsimp only at h
    cases hd : s.distill t it (if s.prob < e.2.2 ∧ s.archTrain = true then .direct else .random) e.2.1 b with
    | error x => rw [hd] at h; cases h
    | ok s1 =>
      rw [hd] at h
      cases h
      obtain ⟨x, h1, h2⟩ := distill_effect t it _ _ b s s1 hd
      exact ⟨[x], h1, h2⟩
  | ignored =>
    rw [hk] at h
    cases h
    exact ⟨[], by simp, rfl⟩

theorem entries_effect (t : Task R B W A Ow Oa) (it : Nat) (b : B) (es : List (Name × R × ℚ)) (s s' : St R B W A Ow Oa)
    (h : es.foldlM (St.entry t it b) s = .ok s') : ∃ l, s'.log = s.log ++ l ∧ s'.view = l.foldl (effect t) s.view := by
  induction es generalizing s with
  | nil => cases h; exact ⟨[], by simp, rfl⟩
  | cons e es ih =>
    rw [List.foldlM_cons] at h
    cases h1 : s.entry t it b e with
    | error x => rw [h1] at h; cases h
    | ok s1 =>
      rw [h1] at h
      obtain ⟨l1, a1, a2⟩ := entry_effect t it b s s1 e h1
      obtain ⟨l2, b1, b2⟩ := ih s1 h
      exact ⟨l1 ++ l2, by rw [b1, a1, List.append_assoc], by rw [b2, a2, List.foldl_append]⟩

theorem finish_effect (t : Task R B W A Ow Oa) (it : Nat) (b : B) (s s' : St R B W A Ow Oa)
    (h : s.finish t it b = .ok s') : ∃ l, s'.log = s.log ++ l ∧ s'.view = l.foldl (effect t) s.view := by
  unfold St.finish at h
  by_cases h1 : s.archTrain = true
  · rw [if_pos h1] at h
    by_cases h2 : t.archFreq = 0
    · rw [if_pos h2] at h; cases h
    · rw [if_neg h2] at h
      by_cases h3 : it % t.archFreq = 0
      · rw [if_pos h3] at h
        cases h
        exact ⟨[.arch b], rfl, by simp [effect, St.view, St.archStep, St.updateArch]⟩
      · rw [if_neg h3] at h
        cases h
        exact ⟨[], by simp, rfl⟩
  · rw [if_neg h1] at h
    cases h
    exact ⟨[], by simp, rfl⟩

theorem step_split (t : Task R B W A Ow Oa) (it : Nat) (b : B) (ds : List (R × ℚ)) (s s' : St R B W A Ow Oa)
    (h : s.step t it b ds = .ok s') :
    ∃ s1, (t.strategy.zip ds).foldlM (St.entry t it b) (begun t it s) = .ok s1 ∧ s1.finish t it b = .ok s' := by
  change ((t.strategy.zip ds).foldlM (St.entry t it b) (begun t it s) >>= fun s => s.finish t it b) = _ at h
  cases h1 : (t.strategy.zip ds).foldlM (St.entry t it b) (begun t it s) with
  | error x => rw [h1] at h; cases h
  | ok s1 => rw [h1] at h; exact ⟨s1, rfl, h⟩

theorem begun_same (t : Task R B W A Ow Oa) (it : Nat) (s : St R B W A Ow Oa) :
    (begun t it s).view = s.view ∧ (begun t it s).log = s.log ∧ (begun t it s).prob = s.prob ∧
      (begun t it s).teacher = s.teacher := by
  unfold begun
  split_ifs <;> exact ⟨rfl, rfl, rfl, rfl⟩

theorem step_effect (t : Task R B W A Ow Oa) (it : Nat) (b : B) (ds : List (R × ℚ)) (s s' : St R B W A Ow Oa)
    (h : s.step t it b ds = .ok s') : ∃ l, s'.log = s.log ++ l ∧ s'.view = l.foldl (effect t) s.view := by
  obtain ⟨s1, h1, h2⟩ := step_split t it b ds s s' h
  obtain ⟨l1, a1, a2⟩ := entries_effect t it b _ _ s1 h1
  obtain ⟨l2, b1, b2⟩ := finish_effect t it b s1 s' h2
  rw [(begun_same t it s).1] at a2
  rw [(begun_same t it s).2.1] at a1
  exact ⟨l1 ++ l2, by rw [b1, a1, List.append_assoc], by rw [b2, a2, List.foldl_append]⟩

theorem run_effect (t : Task R B W A Ow Oa) (xs : List (B × List (R × ℚ))) (it : Nat) (s s' : St R B W A Ow Oa)
    (h : s.run t it xs = .ok s') : ∃ l, s'.log = s.log ++ l ∧ s'.view = l.foldl (effect t) s.view := by
  induction xs generalizing it s with
  | nil => cases h; exact ⟨[], by simp, rfl⟩
  | cons x xs ih =>
    obtain ⟨b, ds⟩ := x
    rw [St.run] at h
    cases h1 : s.step t it b ds with
    | error x => rw [h1] at h; cases h
    | ok s1 =>
      rw [h1] at h
      obtain ⟨l1, a1, a2⟩ := step_effect t it b ds s s1 h1
      obtain ⟨l2, b1, b2⟩ := ih (it + 1) s1 h
      exact ⟨l1 ++ l2, by rw [b1, a1, List.append_assoc], by rw [b2, a2, List.foldl_append]⟩

theorem distill_ok (t : Task R B W A Ow Oa) (it : Nat) (m : Mode) (r : R) (b : B) (s : St R B W A Ow Oa)
    (ht : t.distillAfter < it → s.teacher.isSome = true) :
    ∃ s', s.distill t it m r b = .ok s' ∧ s'.archTrain = s.archTrain ∧ s'.prob = s.prob ∧ s'.teacher = s.teacher ∧
      s'.log.map (Ev.map (·.1)) = s.log.map (Ev.map (·.1)) ++
        [.weight ⟨m, r, s.archTrain, b⟩ (if t.distillAfter < it then s.teacher.map (·.1) else none)] := by
  unfold St.distill
  dsimp only
  by_cases hd : t.distillAfter < it
  · obtain ⟨te, hte⟩ := Option.isSome_iff_exists.1 (ht hd)
    rw [if_pos hd, hte]
    exact ⟨_, rfl, rfl, rfl, hte, by simp [Ev.map, hd]⟩
  · rw [if_neg hd]
    exact ⟨_, rfl, rfl, rfl, rfl, by simp [Ev.map, hd]⟩

theorem entries_ok (t : Task R B W A Ow Oa) (it : Nat) (b : B) (es : List (Name × R × ℚ)) (k : Nat) (s : St R B W A Ow Oa)
    (ha : s.archTrain = decide (t.archStart < it)) (hp : s.prob = (9999 / 10000) ^ k)
    (ht : (∃ e r, es = e :: r ∧ kindOf e.1 = .max) ∨ s.teacher.isSome = true) :
    ∃ s', es.foldlM (St.entry t it b) s = .ok s' ∧ s'.archTrain = s.archTrain ∧
      s'.prob = (9999 / 10000) ^ (k + scheduled (es.map (·.1))) ∧
      s'.log.map (Ev.map (·.1)) = s.log.map (Ev.map (·.1)) ++ wantedPasses t it b k (s.teacher.map (·.1)) es := by
  induction es generalizing k s with
  | nil => exact ⟨s, rfl, rfl, by simpa [scheduled] using hp, by simp [wantedPasses]⟩
  | cons e es ih =>
    obtain ⟨n, r, u⟩ := e
    have ht' : kindOf n ≠ .max → s.teacher.isSome = true := by
      intro hn
      rcases ht with ⟨e, r, h1, h2⟩ | ht
      · obtain ⟨rfl, _⟩ := List.cons.inj h1
        exact absurd h2 hn
      · exact ht
    rw [List.foldlM_cons]
    have hs : scheduled (((n, r, u) :: es).map (·.1)) = (if kindOf n = .scheduledRandom then 1 else 0) + scheduled (es.map (·.1)) := by
      simp only [scheduled, List.map_cons, List.countP_cons]
      by_cases h : kindOf n = .scheduledRandom <;> simp [h, Nat.add_comm]
    cases hk : kindOf n with
    | max =>
      obtain ⟨s', f1, f2, f3, f4⟩ := ih k (s.maxPass t r b) (by exact ha) (by exact hp) (Or.inr rfl)
      refine ⟨s', ?_, f2, ?_, ?_⟩
      · simp only [St.entry, hk]; exact f1
      · rw [f3, hs, hk]; simp
      · rw [f4, wantedPasses]
        simp only [hk, wantedMode]
        rw [← ha]
        simp [St.maxPass, Ev.map]
    | min =>
      obtain ⟨s1, e1, e2, e3, e4, e5⟩ := distill_ok t it .min r b s (fun _ => ht' (by rw [hk]; simp))
      obtain ⟨s', f1, f2, f3, f4⟩ := ih k s1 (by rw [e2]; exact ha) (by rw [e3]; exact hp) (Or.inr (by rw [e4]; exact ht' (by rw [hk]; simp)))
      refine ⟨s', ?_, by rw [f2, e2], ?_, ?_⟩
      · simp only [St.entry, hk]; rw [e1]; exact f1
      · rw [f3, hs, hk]; simp
      · rw [f4, e5, e4, wantedPasses]
        simp only [hk, wantedMode]
        rw [← ha]
        simp
    | archRandom =>
      obtain ⟨s1, e1, e2, e3, e4, e5⟩ := distill_ok t it (if s.archTrain then .direct else .random) r b s (fun _ => ht' (by rw [hk]; simp))
      obtain ⟨s', f1, f2, f3, f4⟩ := ih k s1 (by rw [e2]; exact ha) (by rw [e3]; exact hp) (Or.inr (by rw [e4]; exact ht' (by rw [hk]; simp)))
      refine ⟨s', ?_, by rw [f2, e2], ?_, ?_⟩
      · simp only [St.entry, hk]; rw [e1]; exact f1
      · rw [f3, hs, hk]; simp
      · rw [f4, e5, e4, wantedPasses]
        simp only [hk, wantedMode]
        rw [← ha]
        cases s.archTrain <;> simp
    | scheduledRandom =>
      obtain ⟨s1, e1, e2, e3, e4, e5⟩ := distill_ok t it (if s.prob < u ∧ s.archTrain = true then .direct else .random) r b s
        (fun _ => ht' (by rw [hk]; simp))
      obtain ⟨s', f1, f2, f3, f4⟩ := ih (k + 1) { s1 with prob := s1.prob * (9999 / 10000) } (by dsimp only; rw [e2]; exact ha)
        (by dsimp only; rw [e3, hp, pow_succ]) (Or.inr (by dsimp only; rw [e4]; exact ht' (by rw [hk]; simp)))
      refine ⟨s', ?_, by rw [f2, e2], ?_, ?_⟩
      · simp only [St.entry, hk]; rw [e1]; exact f1
      · rw [f3, hs, hk]; simp [Nat.add_assoc]
      · rw [f4, wantedPasses]
        dsimp only
        rw [e5, e4]
        simp only [hk, wantedMode]
        rw [← ha, ← hp]
        cases s.archTrain <;> by_cases h : s.prob < u <;> simp [h]
    | ignored =>
      obtain ⟨s', f1, f2, f3, f4⟩ := ih k s ha hp (Or.inr (ht' (by rw [hk]; simp)))
      refine ⟨s', ?_, f2, ?_, ?_⟩
      · simp only [St.entry, hk]; exact f1
      · rw [f3, hs, hk]; simp
      · rw [f4, wantedPasses]
        simp [hk, wantedMode]

theorem passes_teacher (t : Task R B W A Ow Oa) (it : Nat) (b : B) (k : Nat) (te te' : Option (Pass R B)) (es : List (Name × R × ℚ))
    (h : ∃ e r, es = e :: r ∧ kindOf e.1 = .max) : wantedPasses t it b k te es = wantedPasses t it b k te' es := by
  obtain ⟨⟨n, r, u⟩, l, rfl, hk⟩ := h
  simp only at hk
  simp [wantedPasses, hk, wantedMode]

theorem base_take (m : Mode) : m.base.take 2 = match m with
    | .max => ['m', 'a'] | .min => ['m', 'i'] | .random => ['r', 'a'] | .direct => ['d', 'i'] := by
  cases m <;> decide +kernel

theorem base_length (m : Mode) : 2 ≤ m.base.length := by
  cases m <;> decide +kernel

theorem base_inj (m m' : Mode) (x y : Name) (h : m.base ++ x = m'.base ++ y) : m = m' ∧ x = y := by
  have h1 : (m.base ++ x).take 2 = (m'.base ++ y).take 2 := by rw [h]
  rw [List.take_append_of_le_length (base_length m), List.take_append_of_le_length (base_length m'), base_take, base_take] at h1
  have : m = m' := by cases m <;> cases m' <;> simp at h1 ⊢
  subst this
  exact ⟨rfl, List.append_cancel_left h⟩

theorem prefixes_mem (ms : List Mode) (c : Mode → Nat) (x : Name) (h : x ∈ prefixes c ms) :
    ∃ m k, c m ≤ k ∧ x = m.base ++ Nat.toDigits 10 k := by
  induction ms generalizing c with
  | nil => simp [prefixes] at h
  | cons m ms ih =>
    rw [prefixes, List.mem_cons] at h
    rcases h with rfl | h
    · exact ⟨m, c m, le_rfl, rfl⟩
    · obtain ⟨m', k, h1, h2⟩ := ih _ h
      refine ⟨m', k, ?_, h2⟩
      split_ifs at h1 <;> omega

end Verif.DmcpTrain
