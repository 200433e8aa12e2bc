import Verif.Spec.PredRun

/-! Helper lemmas for `Verif/Props/PredRun.lean`. -/

namespace Verif.PredRun
open Verif

section Search
variable {S H : Type}

theorem scores_validated (env : Env S H) (h : Option H) (l : List S) : scores env false h l = .ok (l.map fun s => env.rnd (env.real s)) := by
  induction l with
  | nil => rfl
  | cons s l ih =>
    rw [scores, ih]
    rfl

theorem scores_predicted (env : Env S H) (h : H) : ∀ (l : List S) (vs : List ℚ), scores env true (some h) l = .ok vs →
    vs.length = l.length ∧ ∀ e ∈ entries true l vs, PredictedBy env h e := by
  intro l
  induction l with
  | nil =>
    intro vs hv
    cases hv
    exact ⟨rfl, fun e he => by simp [entries] at he⟩
  | cons s l ih =>
    intro vs hv
    rw [scores] at hv
    unfold score at hv
    rw [if_pos rfl] at hv
    dsimp only at hv
    cases hp : env.predict h s with
    | error e => rw [hp] at hv; cases hv
    | ok v =>
      rw [hp] at hv
      dsimp only at hv
      cases hr : scores env true (some h) l with
      | error e => rw [hr] at hv; cases hv
      | ok ws =>
        rw [hr] at hv
        cases hv
        obtain ⟨h1, h2⟩ := ih ws hr
        refine ⟨by simp [h1], fun e he => ?_⟩
        unfold entries at he
        rw [List.zipWith_cons_cons, List.mem_cons] at he
        rcases he with rfl | he
        · exact ⟨rfl, v, hp, rfl⟩
        · exact h2 e he

theorem entries_validated (env : Env S H) (l : List S) : entries false l (l.map fun s => env.rnd (env.real s)) = validatedLog env l := by
  induction l with
  | nil => rfl
  | cons s l ih =>
    unfold entries validatedLog at *
    rw [List.map_cons, List.zipWith_cons_cons, ih]
    rfl

theorem epoch_plain (cfg : Evolution.Cfg) (env : Env S H) (i : Evolution.Inputs S) (r : Run S H) (hu : r.use = false) (x : Option H) :
    epoch cfg env i { r with handler := x } = (epoch cfg env i r).map fun r => { r with handler := x } := by
  unfold epoch
  dsimp only
  cases Evolution.sampleLoop cfg i.samples r.st.pool with
  | error e => rfl
  | ok pool =>
    dsimp only
    rw [hu, scores_validated, scores_validated]
    dsimp only
    cases Evolution.runEpoch cfg { i with score := fun i => (List.map (fun s => env.rnd (env.real s)) (pool.map (·.subnet))).getD i 0 } r.st with
    | error e => rfl
    | ok st => rfl

theorem epoch_validated (cfg : Evolution.Cfg) (env : Env S H) (i : Evolution.Inputs S) (r r' : Run S H) (hu : r.use = false)
    (h : epoch cfg env i r = .ok r') : r'.use = false ∧ ∃ l, r'.log = r.log ++ validatedLog env l := by
  unfold epoch at h
  cases hs : Evolution.sampleLoop cfg i.samples r.st.pool with
  | error e => rw [hs] at h; cases h
  | ok pool =>
    rw [hs] at h
    dsimp only at h
    rw [hu, scores_validated] at h
    dsimp only at h
    generalize hq : Evolution.runEpoch cfg _ r.st = q at h
    cases q with
    | error e => cases h
    | ok st =>
      cases h
      refine ⟨rfl, pool.map (·.subnet), ?_⟩
      rw [entries_validated]

theorem epoch_predicted (cfg : Evolution.Cfg) (env : Env S H) (i : Evolution.Inputs S) (r r' : Run S H) (x : H) (hu : r.use = true)
    (hx : r.handler = some x) (h : epoch cfg env i r = .ok r') :
    r'.use = true ∧ r'.handler = some x ∧ ∃ l, r'.log = r.log ++ l ∧ ∀ e ∈ l, PredictedBy env x e := by
  unfold epoch at h
  cases hs : Evolution.sampleLoop cfg i.samples r.st.pool with
  | error e => rw [hs] at h; cases h
  | ok pool =>
    rw [hs] at h
    dsimp only at h
    rw [hu, hx] at h
    cases hv : scores env true (some x) (pool.map (·.subnet)) with
    | error e => rw [hv] at h; cases h
    | ok vs =>
      rw [hv] at h
      dsimp only at h
      generalize hq : Evolution.runEpoch cfg _ r.st = q at h
      cases q with
      | error e => cases h
      | ok st =>
        cases h
        exact ⟨rfl, rfl, _, rfl, (scores_predicted env x _ vs hv).2⟩

theorem epochs_plain (cfg : Evolution.Cfg) (env : Env S H) (x : Option H) : ∀ (l : List (Evolution.Inputs S)) (r : Run S H), r.use = false →
    epochs cfg env l { r with handler := x } = (epochs cfg env l r).map fun r => { r with handler := x }
  | [], _, _ => rfl
  | i :: l, r, hu => by
    rw [epochs, epochs, epoch_plain cfg env i r hu x]
    cases he : epoch cfg env i r with
    | error e => rfl
    | ok r' => exact epochs_plain cfg env x l r' (epoch_validated cfg env i r r' hu he).1

theorem epochs_validated (cfg : Evolution.Cfg) (env : Env S H) : ∀ (l : List (Evolution.Inputs S)) (r r' : Run S H), r.use = false →
    epochs cfg env l r = .ok r' → r'.use = false ∧ ∃ k, r'.log = r.log ++ validatedLog env k
  | [], r, r', hu, h => by cases h; exact ⟨hu, [], by simp [validatedLog]⟩
  | i :: l, r, r', hu, h => by
    rw [epochs] at h
    cases he : epoch cfg env i r with
    | error e => rw [he] at h; cases h
    | ok r1 =>
      rw [he] at h
      obtain ⟨h1, k1, h2⟩ := epoch_validated cfg env i r r1 hu he
      obtain ⟨h3, k2, h4⟩ := epochs_validated cfg env l r1 r' h1 h
      exact ⟨h3, k1 ++ k2, by rw [h4, h2]; simp [validatedLog]⟩

theorem epochs_predicted (cfg : Evolution.Cfg) (env : Env S H) (x : H) : ∀ (l : List (Evolution.Inputs S)) (r r' : Run S H), r.use = true →
    r.handler = some x → epochs cfg env l r = .ok r' → ∃ k, r'.log = r.log ++ k ∧ ∀ e ∈ k, PredictedBy env x e
  | [], r, r', _, _, h => by cases h; exact ⟨[], by simp, by simp⟩
  | i :: l, r, r', hu, hx, h => by
    rw [epochs] at h
    cases he : epoch cfg env i r with
    | error e => rw [he] at h; cases h
    | ok r1 =>
      rw [he] at h
      obtain ⟨h1, h2, k1, h3, h4⟩ := epoch_predicted cfg env i r r1 x hu hx he
      obtain ⟨k2, h5, h6⟩ := epochs_predicted cfg env x l r1 r' h1 h2 h
      refine ⟨k1 ++ k2, by rw [h5, h3]; simp, fun e he => ?_⟩
      rcases List.mem_append.1 he with he | he
      · exact h4 e he
      · exact h6 e he

theorem sampled_length (cfg : Evolution.Cfg) : ∀ (samples : List (S × (String → Option ℚ))) (pool pool' : List (Evolution.Cand S)),
    Evolution.sampleLoop cfg samples pool = .ok pool' → pool'.length = max cfg.numCandidates pool.length ∧ pool <+: pool'
  | [], pool, pool', h => by
    rw [Evolution.sampleLoop] at h
    by_cases hl : pool.length < cfg.numCandidates
    · rw [if_pos hl] at h; cases h
    · rw [if_neg hl] at h; cases h
      exact ⟨by omega, List.prefix_rfl⟩
  | p :: l, pool, pool', h => by
    rw [Evolution.sampleLoop] at h
    by_cases hl : pool.length < cfg.numCandidates
    · rw [if_pos hl] at h
      obtain ⟨h1, h2⟩ := sampled_length cfg l _ pool' h
      by_cases hp : cfg.pass p.2 = true
      · rw [if_pos hp] at h1 h2
        rw [List.length_append] at h1
        simp only [List.length_cons, List.length_nil] at h1
        exact ⟨by omega, (List.prefix_append _ _).trans h2⟩
      · rw [if_neg hp] at h1 h2
        exact ⟨h1, h2⟩
    · rw [if_neg hl] at h; cases h
      exact ⟨by omega, List.prefix_rfl⟩

end Search

section Mlp
variable {W X : Type}

theorem update_some (t : Trainer W X) {b : List X} (hb : b ≠ []) (w : W) : t.update b (some w) = some (t.step b w) := by
  unfold Trainer.update
  rw [if_neg hb]
  rfl

theorem loop_nan (t : Trainer W X) (tr va : List X) : ∀ (n : Nat) (w : Option W) (bl : ℚ) (best : Option (Option W)),
    tr = [] ∨ va = [] → trainLoop t tr va n w bl best = best
  | 0, _, _, _, _ => rfl
  | n + 1, w, bl, best, h => by
    rw [trainLoop]
    have : t.valid va (t.update tr w) = .nan := by
      rcases h with h | h
      · unfold Trainer.update
        rw [if_pos h]
        rfl
      · cases t.update tr w with
        | none => rfl
        | some w => unfold Trainer.valid; dsimp only; rw [if_pos h]
    rw [this]
    exact loop_nan t tr va n _ bl best h

/-- The loop in terms of the losses of the coming epochs. -/
theorem loop_spec (t : Trainer W X) (tr va : List X) (htr : tr ≠ []) (hva : va ≠ []) :
    ∀ (n : Nat) (w : W) (bl : ℚ) (best : Option (Option W)),
      (trainLoop t tr va n (some w) bl best = best ∧ ∀ j < n, bl ≤ t.loss va (weightsAfter t tr w (j + 1))) ∨
      ∃ i < n, trainLoop t tr va n (some w) bl best = some (some (weightsAfter t tr w (i + 1))) ∧
        t.loss va (weightsAfter t tr w (i + 1)) < bl ∧
        (∀ j < n, t.loss va (weightsAfter t tr w (i + 1)) ≤ t.loss va (weightsAfter t tr w (j + 1))) ∧
        ∀ j < i, t.loss va (weightsAfter t tr w (i + 1)) < t.loss va (weightsAfter t tr w (j + 1))
  | 0, _, _, _ => by
    left
    exact ⟨rfl, fun j hj => absurd hj (Nat.not_lt_zero _)⟩
  | n + 1, w, bl, best => by
    have hsh : ∀ j, weightsAfter t tr (t.step tr w) (j + 1) = weightsAfter t tr w (j + 2) := fun j => by
      unfold weightsAfter
      rw [show j + 2 = (j + 1) + 1 from rfl, Function.iterate_succ_apply (n := j + 1)]
    have h1 : weightsAfter t tr w 1 = t.step tr w := rfl
    have hv : t.valid va (some (t.step tr w)) = .num (t.loss va (t.step tr w)) := by
      unfold Trainer.valid
      dsimp only
      rw [if_neg hva]
    rw [trainLoop]
    rw [update_some t htr, hv]
    dsimp only
    by_cases hq : t.loss va (t.step tr w) < bl
    · rw [if_pos hq]
      right
      rcases loop_spec t tr va htr hva n (t.step tr w) (t.loss va (t.step tr w)) (some (some (t.step tr w))) with ⟨e, h⟩ | ⟨i, hi, e, h2, h3, h4⟩
      · refine ⟨0, Nat.succ_pos _, e, hq, ?_, fun j hj => absurd hj (Nat.not_lt_zero _)⟩
        intro j hj
        cases j with
        | zero => exact le_refl _
        | succ j =>
          have := h j (by omega)
          rw [hsh] at this
          exact this
      · rw [hsh] at e h2
        refine ⟨i + 1, by omega, e, h2.trans hq, ?_, ?_⟩
        · intro j hj
          cases j with
          | zero => exact h2.le
          | succ j =>
            have := h3 j (by omega)
            rw [hsh, hsh] at this
            exact this
        · intro j hj
          cases j with
          | zero => exact h2
          | succ j =>
            have := h4 j (by omega)
            rw [hsh, hsh] at this
            exact this
    · rw [if_neg hq]
      push Not at hq
      rcases loop_spec t tr va htr hva n (t.step tr w) bl best with ⟨e, h⟩ | ⟨i, hi, e, h2, h3, h4⟩
      · left
        refine ⟨e, ?_⟩
        intro j hj
        cases j with
        | zero => exact hq
        | succ j =>
          have := h j (by omega)
          rw [hsh] at this
          exact this
      · right
        rw [hsh] at e h2
        refine ⟨i + 1, by omega, e, h2, ?_, ?_⟩
        · intro j hj
          cases j with
          | zero => exact (h2.trans_le hq).le
          | succ j =>
            have := h3 j (by omega)
            rw [hsh, hsh] at this
            exact this
        · intro j hj
          cases j with
          | zero => exact h2.trans_le hq
          | succ j =>
            have := h4 j (by omega)
            rw [hsh, hsh] at this
            exact this

theorem splitAt_eq (n : Nat) (ratio : ℚ) (h0 : 0 ≤ (n : ℚ) * ratio) (h1 : ratio ≤ 1) : splitAt n ratio = ⌊(n : ℚ) * ratio⌋₊ := by
  have hf : pyInt ((n : ℚ) * ratio) = ⌊(n : ℚ) * ratio⌋ := by
    unfold pyInt
    rw [if_pos h0]
  have hz : 0 ≤ ⌊(n : ℚ) * ratio⌋ := Int.floor_nonneg.2 h0
  have hle : ⌊(n : ℚ) * ratio⌋₊ ≤ n := by
    have : (n : ℚ) * ratio ≤ n := by
      have : (0 : ℚ) ≤ n := by positivity
      nlinarith
    exact (Nat.floor_le_floor this).trans (by rw [Nat.floor_natCast])
  unfold splitAt
  dsimp only
  rw [hf, if_neg (by omega)]
  rw [show ⌊(n : ℚ) * ratio⌋.toNat = ⌊(n : ℚ) * ratio⌋₊ from rfl]
  omega

theorem splitAt_all (n : Nat) (ratio : ℚ) (h : 1 ≤ ratio) : n ≤ splitAt n ratio := by
  have hn : (0 : ℚ) ≤ n := by positivity
  have h1 : (n : ℚ) ≤ n * ratio := by nlinarith
  have h0 : 0 ≤ (n : ℚ) * ratio := by linarith
  have hf : pyInt ((n : ℚ) * ratio) = ⌊(n : ℚ) * ratio⌋ := by
    unfold pyInt
    rw [if_pos h0]
  have hz : (n : Int) ≤ ⌊(n : ℚ) * ratio⌋ := Int.le_floor.2 (by exact_mod_cast h1)
  unfold splitAt
  dsimp only
  rw [hf, if_neg (by omega)]
  omega

end Mlp

section Carts

theorem pick_zip {A B : Type} [Inhabited A] [Inhabited B] (a : List A) (b : List B) (idx : List Nat) :
    (pick a idx).zip (pick b idx) = idx.map fun i => (a.getD i default, b.getD i default) := by
  unfold pick
  induction idx with
  | nil => rfl
  | cons i idx ih => rw [List.map_cons, List.map_cons, List.zip_cons_cons, ih, List.map_cons]

theorem range_getD {A B : Type} [Inhabited A] [Inhabited B] (a : List A) (b : List B) (h : a.length = b.length) :
    (List.range a.length).map (fun i => (a.getD i default, b.getD i default)) = a.zip b := by
  apply List.ext_getElem
  · simp [h]
  · intro i h1 h2
    simp at h1 h2
    simp [List.getD, h1, h2.2]

theorem pick_perm {A B : Type} [Inhabited A] [Inhabited B] (a : List A) (b : List B) (h : a.length = b.length) (idx : List Nat)
    (hp : idx.Perm (List.range a.length)) : ((pick a idx).zip (pick b idx)).Perm (a.zip b) := by
  rw [pick_zip, ← range_getD a b h]
  exact hp.map _

theorem pick_length {A : Type} [Inhabited A] (a : List A) (idx : List Nat) : (pick a idx).length = idx.length := by
  unfold pick
  simp

end Carts

section Search
variable {S H : Type}

end Search

section Mlp
variable {W X : Type}

end Mlp

section Carts
variable {T V : Type}

end Carts

end Verif.PredRun
