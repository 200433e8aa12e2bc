import Verif.Spec.Evolution

/-! Helper lemmas for `Verif/Props/Evolution.lean`. -/

namespace Verif.Evolution
open Verif

variable {S : Type}

/-! ### Helpers -/

theorem inside_iff (b : Bound) (x : ℚ) : Inside b x ↔ b.range.1 ≤ x ∧ x ≤ b.range.2 := by
  cases b <;> rfl

theorem byScore_sorted (l : List (Cand S)) :
    (sortBy byScore l).Pairwise (fun a b => a.score ≥ b.score) := by
  have := sortBy_sorted (le := byScore (S := S))
    (by intro a b c; simpa [byScore] using fun h1 h2 => le_trans h2 h1)
    (by intro a b; simpa [byScore] using le_total _ _) l
  simpa [byScore] using this

theorem best_step (k : Nat) (top all pool : List (Cand S)) (h : BestOf k top all) :
    BestOf k ((sortBy byScore (pool ++ top)).take k) (all ++ pool) := by
  obtain ⟨rest, hp, hs, hle, hlen⟩ := h
  set s := sortBy byScore (pool ++ top) with hsdef
  have hsp : s.Perm (pool ++ top) := sortBy_perm _
  have hss : s.Pairwise (fun a b => a.score ≥ b.score) := byScore_sorted _
  have hsplit : s = s.take k ++ s.drop k := (List.take_append_drop k s).symm
  rw [hsplit, List.pairwise_append] at hss
  refine ⟨s.drop k ++ rest, ?_, hss.1, ?_, ?_⟩
  · rw [← List.append_assoc, List.take_append_drop]
    refine (hsp.append_right rest).trans ?_
    rw [List.append_assoc]
    refine (List.Perm.append_left pool hp).trans ?_
    exact List.perm_append_comm
  · intro t ht r hr
    rcases List.mem_append.mp hr with hr | hr
    · exact hss.2.2 t ht r hr
    · by_contra hlt
      have hlt : t.score < r.score := not_le.mp hlt
      have hall : all.length = top.length + rest.length := by
        rw [← hp.length_eq, List.length_append]
      have hrest : 0 < rest.length := List.length_pos_of_mem hr
      have hk : top.length = k := by
        rw [hlen]; apply min_eq_left
        by_contra hc
        have hc : all.length < k := not_le.mp hc
        rw [min_eq_right (le_of_lt hc)] at hlen
        omega
      -- count candidates scoring at least `r`
      let P : Cand S → Bool := fun c => decide (c.score ≥ r.score)
      have h1 : k ≤ (pool ++ top).countP P := by
        rw [List.countP_append]
        have : top.countP P = top.length := by
          rw [List.countP_eq_length]
          intro c hc
          simpa [P] using hle c hc r hr
        omega
      have h2 : (s.drop k).countP P = 0 := by
        rw [List.countP_eq_zero]
        intro c hc
        have := hss.2.2 t ht c hc
        simp only [P, decide_eq_true_eq, not_le, ge_iff_le]
        exact lt_of_le_of_lt this hlt
      have h3 : (s.take k).countP P < (s.take k).length := by
        rcases lt_or_eq_of_le (List.countP_le_length (p := P) (l := s.take k)) with h | h
        · exact h
        · rw [List.countP_eq_length] at h
          have := h t ht
          simp only [P, decide_eq_true_eq] at this
          exact absurd this (not_le.mpr hlt)
      have h4 : (s.take k).length ≤ k := List.length_take_le _ _
      have h5 : s.countP P = (pool ++ top).countP P := hsp.countP_eq _
      rw [hsplit, List.countP_append] at h5
      omega
  · rw [List.length_take, hsp.length_eq, List.length_append, List.length_append, hlen]
    omega

theorem evaluate_length (f : Nat → ℚ) (pool : List (Cand S)) :
    (evaluate f pool).length = pool.length := by
  simp [evaluate]

/-- What a completed epoch did. -/
theorem runEpoch_ok (cfg : Cfg) (inp : Inputs S) (st st' : State S)
    (h : runEpoch cfg inp st = .ok st') :
    ∃ pool, sampleLoop cfg inp.samples st.pool = .ok pool ∧
      evaluatedIn cfg inp st = evaluate inp.score pool ∧
      st'.top = (sortBy byScore (evaluate inp.score pool ++ st.top)).take cfg.topK ∧
      st'.pool = (genLoop cfg.pass cfg.numMutation inp.mutations 0 []).1
        ++ (genLoop cfg.pass cfg.numCrossover inp.crossovers 0 []).1 ∧
      st'.pool.length ≤ cfg.numCandidates ∧
      st'.epoch = st.epoch + 1 ∧ st'.maxEpochs = st.maxEpochs := by
  unfold runEpoch at h
  simp only [bind, Except.bind, pure, Except.pure, throw, throwThe, MonadExceptOf.throw] at h
  split at h
  · cases h
  · rename_i pool hpool
    split at h
    · cases h
    split at h
    · cases h
    · split at h
      · rename_i hlen
        injection h with h
        subst h
        exact ⟨pool, hpool, by simp [evaluatedIn, hpool], rfl, rfl, hlen, rfl, rfl⟩
      · cases h

theorem runEpochs_best (cfg : Cfg) : ∀ (inputs : List (Inputs S)) (st st' : State S)
    (all ev : List (Cand S)), BestOf cfg.topK st.top all → runEpochs cfg inputs st = .ok (st', ev) →
    BestOf cfg.topK st'.top (all ++ ev)
  | [], st, st', all, ev, hb, h => by
    simp only [runEpochs, Except.ok.injEq, Prod.mk.injEq] at h
    obtain ⟨rfl, rfl⟩ := h
    simpa using hb
  | i :: rest, st, st', all, ev, hb, h => by
    rw [runEpochs] at h
    split at h
    · cases h
    · rename_i st1 h1
      split at h
      · cases h
      · rename_i st2 ev2 h2
        simp only [Except.ok.injEq, Prod.mk.injEq] at h
        obtain ⟨rfl, rfl⟩ := h
        obtain ⟨pool, _, hev, htop, _⟩ := runEpoch_ok cfg i st st1 h1
        have hb1 : BestOf cfg.topK st1.top (all ++ evaluatedIn cfg i st) := by
          rw [htop, hev]; exact best_step _ _ _ _ hb
        have := runEpochs_best cfg rest st1 _ _ _ hb1 h2
        simpa [List.append_assoc] using this

/-- The sampling loop only appends passing samples, and ends with a full pool. -/
theorem sampleLoop_spec (cfg : Cfg) : ∀ (samples : List (S × (String → Option ℚ)))
    (pool pool' : List (Cand S)), sampleLoop cfg samples pool = .ok pool' →
    (∃ new, pool' = pool ++ new ∧ ∀ c ∈ new, cfg.pass c.res = true) ∧
    pool'.length = max pool.length cfg.numCandidates
  | samples, pool, pool', h => by
    unfold sampleLoop at h
    split at h
    · rename_i hlt
      match samples with
      | [] => simp at h
      | p :: rest =>
        simp only at h
        obtain ⟨⟨new, hnew, hpass⟩, hlen⟩ := sampleLoop_spec cfg rest _ pool' h
        by_cases hp : cfg.pass p.2 = true
        · simp only [hp, if_true] at hnew hlen
          refine ⟨⟨newCand p :: new, by rw [hnew]; simp, ?_⟩, ?_⟩
          · intro c hc
            rcases List.mem_cons.mp hc with rfl | hc
            · exact hp
            · exact hpass c hc
          · rw [hlen, List.length_append, List.length_singleton]; omega
        · simp only [hp, Bool.false_eq_true, if_false] at hnew hlen
          exact ⟨⟨new, hnew, hpass⟩, hlen⟩
    · rename_i hge
      simp only [Except.ok.injEq] at h
      subst h
      exact ⟨⟨[], by simp, by simp⟩, by omega⟩

/-- Generation loop in closed form. -/
theorem genLoop_spec (pass : (String → Option ℚ) → Bool) (num : Nat)
    (attempt : Nat → S × (String → Option ℚ)) :
    ∀ (n iter : Nat) (acc : List (Cand S)), num * 10 - iter = n → iter ≤ num * 10 → acc.length ≤ num →
      (genLoop pass num attempt iter acc).1
        = (acc ++ (((List.range' iter n).map (fun i => newCand (attempt i))).filter
            (fun c => pass c.res))).take num ∧
      (genLoop pass num attempt iter acc).2 ≤ num * 10 := by
  intro n
  induction n with
  | zero =>
    intro iter acc hn hi hacc
    rw [genLoop]
    split
    · rw [if_pos (by omega)]
      refine ⟨?_, hi⟩
      simp [List.take_of_length_le hacc]
    · refine ⟨?_, hi⟩
      simp [List.take_of_length_le hacc]
  | succ n ih =>
    intro iter acc hn hi hacc
    rw [genLoop]
    split
    · rename_i hlt
      rw [if_neg (by omega)]
      by_cases hp : pass (attempt iter).2 = true
      · simp only [hp, if_true]
        have := ih (iter + 1) (acc ++ [newCand (attempt iter)]) (by omega) (by omega)
          (by rw [List.length_append, List.length_singleton]; omega)
        rw [this.1]
        refine ⟨?_, this.2⟩
        have hp' : pass (newCand (attempt iter)).res = true := hp
        simp [List.range'_succ, hp', List.append_assoc]
      · simp only [hp, Bool.false_eq_true, if_false]
        have := ih (iter + 1) acc (by omega) (by omega) hacc
        rw [this.1]
        refine ⟨?_, this.2⟩
        have hp' : pass (newCand (attempt iter)).res = false := Bool.eq_false_iff.mpr hp
        simp [List.range'_succ, hp']
    · rename_i hge
      refine ⟨?_, hi⟩
      have : acc.length = num := by omega
      rw [← this, List.take_left']
      rfl

section crossover
variable {G C : Type} [DecidableEq G]

theorem put_keys (d : Subnet G C) (k : G) (v : C) (h : k ∈ d.map (·.1)) :
    (put d k v).map (·.1) = d.map (·.1) := by
  have : d.any (fun p => decide (p.1 = k)) = true := by
    obtain ⟨p, hp, hk⟩ := List.mem_map.mp h
    exact List.any_eq_true.mpr ⟨p, hp, by simpa using hk⟩
  unfold put
  rw [if_pos this, List.map_map]
  apply List.map_congr_left
  intro p _
  by_cases hp : p.1 = k <;> simp [hp]

theorem lookup_put (d : Subnet G C) (k k' : G) (v : C) :
    lookup (put d k v) k' = if k' = k then some v else lookup d k' := by
  unfold put lookup
  split
  · rename_i h
    induction d with
    | nil => simp at h
    | cons p d ih =>
      by_cases hp : p.1 = k
      · by_cases hk : k' = k
        · subst hk; simp [hp]
        · simp only [List.map_cons, hp, if_true, List.find?_cons, Ne.symm hk, decide_false, hk, if_false]
          by_cases hd : d.any (fun p => decide (p.1 = k)) = true
          · rw [ih hd]; simp [hk]
          · have : d.map (fun p => if p.1 = k then (k, v) else p) = d := by
              conv_rhs => rw [← List.map_id d]
              apply List.map_congr_left
              intro q hq
              have hq' : ¬ q.1 = k := by
                intro hc
                exact hd (List.any_eq_true.mpr ⟨q, hq, by simpa using hc⟩)
              simp [hq']
            rw [this]
      · have hd : d.any (fun p => decide (p.1 = k)) = true := by simpa [hp] using h
        have ih' := ih hd
        simp only [List.map_cons, hp, if_false, List.find?_cons]
        by_cases hk : p.1 = k'
        · have : k' ≠ k := by rintro rfl; exact hp hk
          simp [hk, this]
        · simp only [hk, decide_false]
          exact ih'
  · rename_i h
    rw [List.find?_append]
    by_cases hk : k' = k
    · subst hk
      have : d.find? (fun p => decide (p.1 = k')) = none := by
        rw [List.find?_eq_none]
        intro q hq hc
        exact h (List.any_eq_true.mpr ⟨q, hq, hc⟩)
      simp [this]
    · simp [hk, Ne.symm hk]

theorem crossLoop_keys (prob : ℚ) (draws : Nat → ℚ) : ∀ (b : List (G × C)) (i : Nat) (acc : Subnet G C),
    (∀ p ∈ b, p.1 ∈ acc.map (·.1)) → (crossLoop prob draws b i acc).map (·.1) = acc.map (·.1)
  | [], _, _, _ => rfl
  | (k, v) :: rest, i, acc, h => by
    have hk := h (k, v) (by simp)
    have e : ((if draws i < prob then put acc k v else acc).map (·.1)) = acc.map (·.1) := by
      split
      · exact put_keys acc k v hk
      · rfl
    rw [crossLoop, crossLoop_keys prob draws rest (i + 1) _ ?_, e]
    intro p hp
    rw [e]
    exact h p (by simp [hp])

theorem crossLoop_lookup (prob : ℚ) (draws : Nat → ℚ) : ∀ (b : List (G × C)) (i : Nat) (acc : Subnet G C) (k : G),
    (b.map (·.1)).Nodup →
    lookup (crossLoop prob draws b i acc) k =
      match b.findIdx? (fun p => decide (p.1 = k)) with
      | none => lookup acc k
      | some j => if draws (i + j) < prob then lookup b k else lookup acc k
  | [], _, _, _, _ => rfl
  | (k0, v) :: rest, i, acc, k, hn => by
    simp only [List.map_cons, List.nodup_cons] at hn
    rw [crossLoop, crossLoop_lookup prob draws rest (i + 1) _ k hn.2, List.findIdx?_cons]
    by_cases hk : k0 = k
    · subst hk
      have hnone : rest.findIdx? (fun p => decide (p.1 = k0)) = none := by
        rw [List.findIdx?_eq_none_iff]
        intro p hp
        simp only [decide_eq_false_iff_not]
        rintro rfl
        exact hn.1 (List.mem_map.mpr ⟨p, hp, rfl⟩)
      rw [hnone]
      simp only [decide_true, if_true, Nat.add_zero]
      split
      · rw [lookup_put]; simp [lookup]
      · rfl
    · have hk' : ¬ k = k0 := fun h => hk h.symm
      have hacc : lookup (if draws i < prob then put acc k0 v else acc) k = lookup acc k := by
        split
        · rw [lookup_put]; simp [hk']
        · rfl
      have hlook : lookup ((k0, v) :: rest) k = lookup rest k := by
        simp [lookup, hk]
      simp only [hk, decide_false, Bool.false_eq_true, if_false]
      cases rest.findIdx? (fun p => decide (p.1 = k)) with
      | none => simp [hacc]
      | some j => simp [hacc, hlook, Nat.add_assoc, Nat.add_comm 1 j]

end crossover

theorem runLoop_epochs (cfg : Cfg) : ∀ (inputs : List (Inputs S)) (st st' : State S) (n : Nat),
    runLoop cfg inputs st = .ok (st', n) →
    st'.epoch = st.epoch + n ∧ st'.maxEpochs = st.maxEpochs ∧ (n : Int) = max 0 (st.maxEpochs - st.epoch)
  | inputs, st, st', n, h => by
    unfold runLoop at h
    split at h
    · rename_i hlt
      match inputs with
      | [] => simp at h
      | i :: rest =>
        simp only at h
        split at h
        · cases h
        · rename_i st1 he
          split at h
          · cases h
          · rename_i st2 m hr
            simp only [Except.ok.injEq, Prod.mk.injEq] at h
            obtain ⟨rfl, rfl⟩ := h
            obtain ⟨_, _, _, _, _, _, he1, he2⟩ := runEpoch_ok cfg i st st1 he
            obtain ⟨r1, r2, r3⟩ := runLoop_epochs cfg rest st1 _ m hr
            rw [he1, he2] at r3
            rw [he1] at r1
            push_cast
            refine ⟨by rw [r1]; omega, r2.trans he2, by omega⟩
    · rename_i hge
      simp only [Except.ok.injEq, Prod.mk.injEq] at h
      obtain ⟨rfl, rfl⟩ := h
      refine ⟨by simp, rfl, ?_⟩
      push_cast
      omega

theorem mem_saveCkpt (keep epoch : Int) (files : List Int) (s : Int) :
    s ∈ saveCkpt keep epoch files ↔ (s = epoch ∨ s ∈ files) ∧ (0 < keep → ¬ (1 ≤ s ∧ s < epoch + 1 - keep)) := by
  have h : s ∈ (if epoch ∈ files then files else files ++ [epoch]) ↔ s = epoch ∨ s ∈ files := by
    split
    · rename_i he
      constructor
      · exact Or.inr
      · rintro (rfl | h)
        · exact he
        · exact h
    · simp [or_comm]
  simp only [saveCkpt]
  generalize (if epoch ∈ files then files else files ++ [epoch]) = fs at h ⊢
  split
  · rename_i hk
    rw [List.mem_filter, h]
    simp only [Bool.not_eq_true', decide_eq_false_iff_not]
    exact ⟨fun hh => ⟨hh.1, fun _ => hh.2⟩, fun hh => ⟨hh.1, hh.2 hk⟩⟩
  · rename_i hk
    rw [h]
    exact ⟨fun hh => ⟨hh, fun hk' => absurd hk' hk⟩, fun hh => hh.1⟩

end Verif.Evolution
