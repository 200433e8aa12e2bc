import Mathlib.Data.List.Nodup
import Verif.Lemmas.Evolution

/-! C13-C17: evolution search. -/

namespace Verif.Evolution
open Verif

variable {S : Type}

/-! ### C13 -/

/-- C13: after any number of epochs of a search that starts with an empty top-k
list, the top-k list is a best-k selection of *all* candidates scored so far:
sorted, of length `min k (number scored)`, and nothing left out scores higher than
anything in it. -/
theorem C13_top_k (cfg : Cfg) (inputs : List (Inputs S)) (st st' : State S) (ev : List (Cand S))
    (h0 : st.top = []) (h : runEpochs cfg inputs st = .ok (st', ev)) :
    BestOf cfg.topK st'.top ev := by
  have := runEpochs_best cfg inputs st st' [] ev ⟨[], by simp [h0], by simp [h0], by simp [h0], by simp [h0]⟩ h
  simpa using this

/-- C13: the candidates scored in an epoch are those of its pool, in order, the one at
position `i` with the `i`-th score. -/
theorem C13_scores (cfg : Cfg) (inp : Inputs S) (st : State S) (pool : List (Cand S))
    (h : sampleLoop cfg inp.samples st.pool = .ok pool) :
    (evaluatedIn cfg inp st).length = pool.length ∧
    ∀ (i : Nat) (c : Cand S), pool[i]? = some c →
      (evaluatedIn cfg inp st)[i]? = some ⟨c.subnet, c.res, inp.score i⟩ := by
  simp only [evaluatedIn, h, evaluate, List.length_mapIdx, true_and]
  intro i c hc
  simp [hc]

/-- C13: the first entry of the top-k list (the subnet that is finally exported)
scores at least as high as every candidate scored during the search. -/
theorem C13_best (cfg : Cfg) (inputs : List (Inputs S)) (st st' : State S) (ev : List (Cand S))
    (h0 : st.top = []) (hk : 1 ≤ cfg.topK) (hne : ev ≠ [])
    (h : runEpochs cfg inputs st = .ok (st', ev)) :
    ∃ b, st'.top.head? = some b ∧ b ∈ ev ∧ ∀ c ∈ ev, c.score ≤ b.score := by
  obtain ⟨rest, hp, hs, hle, hlen⟩ := C13_top_k cfg inputs st st' ev h0 h
  have hpos : 0 < ev.length := List.length_pos_iff.mpr hne
  cases htop : st'.top with
  | nil => rw [htop] at hlen; simp at hlen; omega
  | cons b bs =>
    rw [htop] at hp hs hle
    refine ⟨b, rfl, hp.mem_iff.mp (by simp), ?_⟩
    intro c hc
    rcases List.mem_append.mp (hp.mem_iff.mpr hc) with h1 | h1
    · rcases List.mem_cons.mp h1 with rfl | h1
      · exact le_refl _
      · exact (List.pairwise_cons.mp hs).1 c h1
    · exact hle b (by simp) c h1

/-- C13: an epoch completes once enough samples pass the constraints, provided that there is room for
one candidate and one of the best and that no more descendants are asked for than candidates. -/
theorem C13_completes (cfg : Cfg) (inp : Inputs S) (st : State S) (pool : List (Cand S))
    (hs : sampleLoop cfg inp.samples st.pool = .ok pool) (hk : 1 ≤ cfg.topK) (hn : 1 ≤ cfg.numCandidates)
    (hm : cfg.numMutation + cfg.numCrossover ≤ cfg.numCandidates) :
    ∃ st', runEpoch cfg inp st = .ok st' ∧ st'.epoch = st.epoch + 1 ∧ st'.maxEpochs = st.maxEpochs ∧
      st'.pool.length ≤ cfg.numMutation + cfg.numCrossover := by
  have hlen : 1 ≤ pool.length := by
    have := (sampleLoop_spec cfg inp.samples st.pool pool hs).2
    omega
  have htop : ¬ (sortBy byScore (evaluate inp.score pool ++ st.top)).take cfg.topK = [] := by
    intro h
    have := congrArg List.length h
    simp only [List.length_take, length_sortBy, List.length_append, evaluate, List.length_mapIdx, List.length_nil] at this
    omega
  have h1 : ((genLoop cfg.pass cfg.numMutation inp.mutations 0 []).1 ++ (genLoop cfg.pass cfg.numCrossover inp.crossovers 0 []).1).length
      ≤ cfg.numMutation + cfg.numCrossover := by
    have hg : ∀ (num : Nat) (f : Nat → S × (String → Option ℚ)), (genLoop cfg.pass num f 0 []).1.length ≤ num := by
      intro num f
      rw [(genLoop_spec cfg.pass num f _ 0 [] rfl (Nat.zero_le _) (Nat.zero_le _)).1]
      simp
    have a1 := hg cfg.numMutation inp.mutations
    have a2 := hg cfg.numCrossover inp.crossovers
    rw [List.length_append]
    omega
  refine ⟨⟨st.epoch + 1, st.maxEpochs, (genLoop cfg.pass cfg.numMutation inp.mutations 0 []).1 ++ (genLoop cfg.pass cfg.numCrossover inp.crossovers 0 []).1,
    (sortBy byScore (evaluate inp.score pool ++ st.top)).take cfg.topK⟩, ?_, rfl, rfl, h1⟩
  unfold runEpoch
  have hne : pool ≠ [] := by rintro rfl; simp at hlen
  simp only [hs, bind, Except.bind, htop, hne, false_and, if_false, pure, Except.pure]
  rw [if_pos (by omega)]

/-- Without a place in the list of the best, mutation and crossover have nothing to start from: the
epoch fails as soon as one of them is asked for. -/
theorem C13_no_top (cfg : Cfg) (inp : Inputs S) (st : State S) (pool : List (Cand S))
    (hs : sampleLoop cfg inp.samples st.pool = .ok pool) (hk : cfg.topK = 0) :
    (0 < cfg.numMutation ∨ 0 < cfg.numCrossover → runEpoch cfg inp st = .error (.raised .assertion)) ∧
    (pool = [] → runEpoch cfg inp st = .error (.raised .assertion)) ∧
    (pool ≠ [] → cfg.numMutation = 0 → cfg.numCrossover = 0 →
      ∃ st', runEpoch cfg inp st = .ok st' ∧ st'.pool = [] ∧ st'.top = []) := by
  unfold runEpoch
  simp only [hs, bind, Except.bind, hk, List.take_zero, true_and]
  refine ⟨?_, ?_, ?_⟩
  · intro h
    by_cases hp : pool = []
    · rw [if_pos hp]; rfl
    · rw [if_neg hp, if_pos h]
      rfl
  · intro hp
    rw [if_pos hp]; rfl
  · intro hp h1 h2
    rw [if_neg hp, if_neg (by omega)]
    simp only [h1, h2, pure, Except.pure]
    have : ∀ f : Nat → S × (String → Option ℚ), (genLoop cfg.pass 0 f 0 []).1 = [] := by
      intro f
      rw [genLoop]
      simp
    simp only [this, List.append_nil, List.length_nil, Nat.zero_le, if_true]
    exact ⟨_, rfl, rfl, rfl⟩

/-- C13: from one epoch to the next the best score never decreases, whatever the
state the epoch starts from. -/
theorem C13_best_monotone (cfg : Cfg) (inp : Inputs S) (st st' : State S) (hk : 1 ≤ cfg.topK)
    (h : runEpoch cfg inp st = .ok st') (c : Cand S) (hc : c ∈ st.top) :
    ∃ b, st'.top.head? = some b ∧ c.score ≤ b.score := by
  obtain ⟨pool, _, _, htop, _⟩ := runEpoch_ok cfg inp st st' h
  set s := sortBy byScore (evaluate inp.score pool ++ st.top) with hsdef
  have hss := byScore_sorted (evaluate inp.score pool ++ st.top)
  rw [← hsdef] at hss
  have hm : c ∈ s := mem_sortBy.mpr (by simp [hc])
  cases hs : s with
  | nil => rw [hs] at hm; cases hm
  | cons b bs =>
    refine ⟨b, ?_, ?_⟩
    · rw [htop, hs]
      obtain ⟨k, hk⟩ : ∃ k, cfg.topK = k + 1 := ⟨cfg.topK - 1, by omega⟩
      simp [hk]
    · rw [hs] at hm hss
      rcases List.mem_cons.mp hm with rfl | hm
      · exact le_refl _
      · exact (List.pairwise_cons.mp hss).1 c hm

example : ((runEpochs exCfg exInputs (⟨0, 2, [], []⟩ : State Nat)).toOption.map
    (fun r => (r.1.top.map (fun c => (c.subnet, c.score)), r.2.map (·.subnet))))
    = some ([(2, 7), (10, 6)], [1, 2, 10, 3]) := by
  decide +kernel

/-! ### C14 -/

/-- C14, decision: with constraints, a subnet passes iff every constrained resource
is reported and lies inside its range, bounds included (a single number `v` means
the range from 0 to `v`); without constraints everything passes. -/
theorem C14_check (constraints : Option (List (String × Bound))) (results : String → Option ℚ) :
    check constraints results = .ok true ↔
      ∀ cs, constraints = some cs → ∀ kb ∈ cs, ∃ x, results kb.1 = some x ∧ Inside kb.2 x := by
  cases constraints with
  | none => simp [check]
  | some cs =>
    simp only [check, Option.some.injEq, forall_eq']
    induction cs with
    | nil => simp [checkLoop]
    | cons kb cs ih =>
      obtain ⟨k, b⟩ := kb
      rw [checkLoop]
      cases hr : results k with
      | none => simp [hr]
      | some x =>
        simp only [List.forall_mem_cons, hr]
        by_cases hin : x < b.range.1 ∨ x > b.range.2
        · rw [if_pos hin]
          constructor
          · intro h; cases h
          · rintro ⟨⟨y, hy, h12⟩, _⟩
            obtain ⟨h1, h2⟩ := (inside_iff b y).1 h12
            simp only [Option.some.injEq] at hy
            subst hy
            rcases hin with hin | hin
            · exact absurd hin (not_lt.mpr h1)
            · exact absurd hin (not_lt.mpr h2)
        · rw [if_neg hin, ih]
          simp only [not_or, not_lt] at hin
          constructor
          · intro h; exact ⟨⟨x, rfl, (inside_iff b x).2 ⟨hin.1, hin.2⟩⟩, h⟩
          · intro h; exact h.2

example : (check (some [("flops", .scalar 330), ("params", .pair 1 5)])
    (fun k => if k = "flops" then some 330 else some 1)) = .ok true := by rfl

/-- C14: a resource outside its range makes the subnet fail, provided the
resources named before it are reported. -/
theorem C14_check_rejects (cs : List (String × Bound)) (results : String → Option ℚ)
    (hall : ∀ kb ∈ cs, results kb.1 ≠ none) (kb : String × Bound) (hk : kb ∈ cs) (x : ℚ)
    (hx : results kb.1 = some x) (hout : ¬ Inside kb.2 x) :
    check (some cs) results = .ok false := by
  have hne : ∀ cs : List (String × Bound), (∀ kb ∈ cs, results kb.1 ≠ none) →
      ∃ b, checkLoop results cs = .ok b := by
    intro cs
    induction cs with
    | nil => intro _; exact ⟨true, rfl⟩
    | cons kb cs ih =>
      intro h
      obtain ⟨k, b⟩ := kb
      rw [checkLoop]
      cases hr : results k with
      | none => exact absurd hr (h (k, b) (by simp))
      | some x =>
        simp only
        split
        · exact ⟨false, rfl⟩
        · exact ih (fun kb hkb => h kb (by simp [hkb]))
  obtain ⟨b, hb⟩ := hne cs hall
  cases b with
  | false => exact hb
  | true =>
    obtain ⟨y, hy, hin⟩ := (C14_check (some cs) results).mp hb cs rfl kb hk
    rw [hx] at hy
    simp only [Option.some.injEq] at hy
    subst hy
    exact absurd hin hout

/-- C14: every candidate scored in an epoch satisfies the constraints, if those
already in the pool do; the pool is filled to exactly `num_candidates` (or left
alone when it is larger). -/
theorem C14_sampled_pass (cfg : Cfg) (samples : List (S × (String → Option ℚ)))
    (pool pool' : List (Cand S)) (h : sampleLoop cfg samples pool = .ok pool')
    (hpool : ∀ c ∈ pool, cfg.pass c.res = true) :
    (∀ c ∈ pool', cfg.pass c.res = true) ∧ pool'.length = max pool.length cfg.numCandidates := by
  obtain ⟨⟨new, hnew, hpass⟩, hlen⟩ := sampleLoop_spec cfg samples pool pool' h
  refine ⟨?_, hlen⟩
  intro c hc
  rw [hnew] at hc
  rcases List.mem_append.mp hc with hc | hc
  · exact hpool c hc
  · exact hpass c hc

/-- C14: mutation (and crossover) return exactly the first `num` passing attempts
among the first `10 * num` attempts, and make at most `10 * num` attempts. -/
theorem C14_generated (pass : (String → Option ℚ) → Bool) (num : Nat)
    (attempt : Nat → S × (String → Option ℚ)) :
    (genLoop pass num attempt 0 []).1
      = (((List.range (num * 10)).map (fun i => newCand (attempt i))).filter (fun c => pass c.res)).take num ∧
    (genLoop pass num attempt 0 []).2 ≤ num * 10 := by
  have := genLoop_spec pass num attempt (num * 10) 0 [] (by simp) (by simp) (by simp)
  simpa [List.range_eq_range'] using this

example : (genLoop (fun r => (r "x").isSome) 2
    (fun i => (i, fun _ => if i % 3 = 2 then some (1 : ℚ) else none)) 0 []).1.map (·.subnet) = [2, 5] := by
  decide +kernel

/-- C14 over a whole search: starting from a pool whose candidates all satisfy the
constraints (an empty one, for instance), every candidate scored in any epoch does,
and so does every candidate in the pool and the top-k list at the end. -/
theorem C14_all_pass (cfg : Cfg) : ∀ (inputs : List (Inputs S)) (st st' : State S) (ev : List (Cand S)),
    (∀ c ∈ st.pool, cfg.pass c.res = true) → (∀ c ∈ st.top, cfg.pass c.res = true) →
    runEpochs cfg inputs st = .ok (st', ev) →
    (∀ c ∈ ev, cfg.pass c.res = true) ∧ (∀ c ∈ st'.pool, cfg.pass c.res = true) ∧
    (∀ c ∈ st'.top, cfg.pass c.res = true)
  | [], st, st', ev, h1, h2, h => by
    simp only [runEpochs, Except.ok.injEq, Prod.mk.injEq] at h
    obtain ⟨rfl, rfl⟩ := h
    exact ⟨by simp, h1, h2⟩
  | i :: rest, st, st', ev, h1, h2, h => by
    rw [runEpochs] at h
    split at h
    · cases h
    · rename_i st1 he
      split at h
      · cases h
      · rename_i st2 ev2 hr
        simp only [Except.ok.injEq, Prod.mk.injEq] at h
        obtain ⟨rfl, rfl⟩ := h
        obtain ⟨pool, hsam, hev, htop, hpool, _, _, _⟩ := runEpoch_ok cfg i st st1 he
        have hp := (C14_sampled_pass cfg i.samples st.pool pool hsam h1).1
        have hev' : ∀ c ∈ evaluatedIn cfg i st, cfg.pass c.res = true := by
          rw [hev]
          intro c hc
          unfold evaluate at hc
          obtain ⟨j, hj, rfl⟩ := List.mem_mapIdx.mp hc
          exact hp pool[j] (List.getElem_mem hj)
        have hgen : ∀ n (f : Nat → S × (String → Option ℚ)), ∀ c ∈ (genLoop cfg.pass n f 0 []).1,
            cfg.pass c.res = true := by
          intro n f c hc
          rw [(C14_generated cfg.pass n f).1] at hc
          exact (List.mem_filter.mp (List.mem_of_mem_take hc)).2
        have hpool1 : ∀ c ∈ st1.pool, cfg.pass c.res = true := by
          rw [hpool]
          intro c hc
          rcases List.mem_append.mp hc with hc | hc
          · exact hgen _ _ c hc
          · exact hgen _ _ c hc
        have htop1 : ∀ c ∈ st1.top, cfg.pass c.res = true := by
          rw [htop]
          intro c hc
          have := mem_sortBy.mp (List.mem_of_mem_take hc)
          rcases List.mem_append.mp this with hc | hc
          · rw [← hev] at hc; exact hev' c hc
          · exact h2 c hc
        obtain ⟨r1, r2, r3⟩ := C14_all_pass cfg rest st1 _ _ hpool1 htop1 hr
        refine ⟨?_, r2, r3⟩
        intro c hc
        rcases List.mem_append.mp hc with hc | hc
        · exact hev' c hc
        · exact r1 c hc

/-- C14 is violated for candidates loaded from a file: an initial pool is never
checked, so a candidate outside the constraints is scored and can win. -/
theorem C14_initial_candidates_violated :
    ∃ (cfg : Cfg) (st st' : State Nat) (inp : Inputs Nat) (ev : List (Cand Nat)),
      runEpochs cfg [inp] st = .ok (st', ev) ∧ ∃ c ∈ st'.top, cfg.pass c.res = false := by
  refine ⟨⟨1, 1, 0, 0, fun _ => false⟩, ⟨0, 1, [⟨7, fun _ => none, -1⟩], []⟩,
    ⟨1, 1, [], [⟨7, fun _ => none, 5⟩]⟩, ⟨[], fun _ => 5, fun i => (i, fun _ => none), fun i => (i, fun _ => none)⟩,
    [⟨7, fun _ => none, 5⟩], ?_, ⟨7, fun _ => none, 5⟩, by simp, rfl⟩
  simp [runEpochs, runEpoch, sampleLoop, evaluatedIn, evaluate, genLoop, sortBy, insertBy,
    bind, Except.bind, pure, Except.pure]

/-! ### C15 -/

section crossover
variable {G C : Type} [DecidableEq G]

/-- C15: offspring of two parents with the same groups: same groups in the same
order, and at every group the choice of one of the parents. -/
theorem C15_genes (a b r : Subnet G C) (prob : ℚ) (draws : Nat → ℚ)
    (hn : (b.map (·.1)).Nodup) (hkeys : ∀ k, k ∈ b.map (·.1) → k ∈ a.map (·.1))
    (h : crossover a b prob draws = .ok r) :
    r.map (·.1) = a.map (·.1) ∧ ∀ k, lookup r k = lookup a k ∨ lookup r k = lookup b k := by
  unfold crossover at h
  split at h
  · simp only [Except.ok.injEq] at h
    subst h
    refine ⟨crossLoop_keys prob draws b 0 a (fun p hp => hkeys _ (List.mem_map.mpr ⟨p, hp, rfl⟩)), ?_⟩
    intro k
    rw [crossLoop_lookup prob draws b 0 a k hn]
    split
    · exact Or.inl rfl
    · split
      · exact Or.inr rfl
      · exact Or.inl rfl
  · cases h

example : (crossover [("a", 1), ("b", 2), ("c", 3)] [("a", 10), ("b", 20), ("c", 30)] (1/2)
    (fun i => if i = 1 then 9/10 else 1/10)).toOption = some [("a", 10), ("b", 2), ("c", 30)] := by
  decide +kernel

/-- C15, which parent a choice comes from: the group at position `i` of the second parent gets the
second parent's choice when the `i`-th draw is below the probability, and otherwise keeps the choice of
the first parent, if it has one; groups unknown to the second parent keep the first parent's choice. -/
theorem C15_draws (a b r : Subnet G C) (prob : ℚ) (draws : Nat → ℚ) (hn : (b.map (·.1)).Nodup)
    (h : crossover a b prob draws = .ok r) :
    (∀ (i : Nat) (k : G) (v : C), b[i]? = some (k, v) →
      lookup r k = if draws i < prob then some v else lookup a k) ∧
    (∀ k, k ∉ b.map (·.1) → lookup r k = lookup a k) := by
  unfold crossover at h
  split at h
  · simp only [Except.ok.injEq] at h
    subst h
    constructor
    · intro i k v hi
      obtain ⟨hlt, hget⟩ := List.getElem?_eq_some_iff.1 hi
      have hne : ∀ j (hj : j < i), ¬ (b[j]'(by omega)).1 = k := by
        intro j hj he
        have h1 : (b.map (·.1))[j]'(by simp; omega) = (b.map (·.1))[i]'(by simpa using hlt) := by
          simp [hget, he]
        have := (List.Nodup.getElem_inj_iff hn).1 h1
        omega
      have hidx : b.findIdx? (fun p => decide (p.1 = k)) = some i := by
        rw [List.findIdx?_eq_some_iff_getElem]
        refine ⟨hlt, by simp [hget], ?_⟩
        intro j hj
        simpa using hne j hj
      have hl : lookup b k = some v := by
        have : b.find? (fun p => decide (p.1 = k)) = some (k, v) := by
          rw [List.find?_eq_some_iff_getElem]
          exact ⟨by simp, i, hlt, hget, fun j hj => by simpa using hne j hj⟩
        simp [lookup, this]
      rw [crossLoop_lookup prob draws b 0 a k hn, hidx]
      simp [hl]
    · intro k hk
      rw [crossLoop_lookup prob draws b 0 a k hn]
      have : b.findIdx? (fun p => decide (p.1 = k)) = none := by
        rw [List.findIdx?_eq_none_iff]
        intro p hp
        simp only [decide_eq_false_iff_not]
        rintro rfl
        exact hk (List.mem_map.mpr ⟨p, hp, rfl⟩)
      rw [this]
  · cases h

example : (crossover [("a", 1), ("b", 2)] [("b", 20), ("c", 30)] (1/2)
    (fun i => if i = 0 then 1/2 else 1/10)).toOption = some [("a", 1), ("b", 2), ("c", 30)] := by
  decide +kernel

/-- C15: probability 0 gives the first parent, probability 1 the second parent's
choice at each of its groups (draws lie in `[0, 1)`); anything outside `[0, 1]` is
refused. -/
theorem C15_extremes (a b : Subnet G C) (draws : Nat → ℚ) (hd : ∀ i, 0 ≤ draws i ∧ draws i < 1)
    (hn : (b.map (·.1)).Nodup) :
    crossover a b 0 draws = .ok a ∧
    (∃ r, crossover a b 1 draws = .ok r ∧ ∀ k ∈ b.map (·.1), lookup r k = lookup b k) ∧
    (∀ p : ℚ, p < 0 ∨ 1 < p → crossover a b p draws = .error .assertion) := by
  refine ⟨?_, ?_, ?_⟩
  · have : ∀ (b : List (G × C)) (i : Nat) (acc : Subnet G C), crossLoop 0 draws b i acc = acc := by
      intro b
      induction b with
      | nil => intro i acc; rfl
      | cons p b ih =>
        intro i acc
        rw [crossLoop, if_neg (not_lt.mpr (hd i).1), ih]
    simp [crossover, this]
  · refine ⟨crossLoop 1 draws b 0 a, by simp [crossover], ?_⟩
    intro k hk
    rw [crossLoop_lookup 1 draws b 0 a k hn]
    cases hf : b.findIdx? (fun p => decide (p.1 = k)) with
    | none =>
      rw [List.findIdx?_eq_none_iff] at hf
      obtain ⟨p, hp, rfl⟩ := List.mem_map.mp hk
      have := hf p hp
      simp at this
    | some j => simp [(hd _).2]
  · intro p hp
    unfold crossover
    rw [if_neg]
    rintro ⟨h1, h2⟩
    rcases hp with hp | hp
    · exact absurd h1 (not_le.mpr hp)
    · exact absurd h2 (not_le.mpr hp)

end crossover

/-! ### C16 -/

/-- C16, uninterrupted: a search that starts at epoch 0 runs exactly the configured
number of epochs. -/
theorem C16_uninterrupted (cfg : Cfg) (inputs : List (Inputs S)) (st st' : State S) (n : Nat)
    (h0 : st.epoch = 0) (hm : 0 ≤ st.maxEpochs) (h : runLoop cfg inputs st = .ok (st', n)) :
    (n : Int) = st.maxEpochs ∧ st'.epoch = st.maxEpochs := by
  obtain ⟨h1, _, h3⟩ := runLoop_epochs cfg inputs st st' n h
  rw [h0] at h1 h3
  omega

/-- C16, the resumed state: pool, top-k list and epoch are the saved ones. -/
theorem C16_resume_state (saved st : State S) :
    (resume 0 saved st).pool = saved.pool ∧ (resume 0 saved st).top = saved.top ∧
    (resume 0 saved st).epoch = saved.epoch := ⟨rfl, rfl, rfl⟩

/-- C16, how many epochs a resumed search runs: with `M` epochs configured and a
checkpoint of epoch `e`, it runs `M - 2e` further epochs (none if that is
negative). -/
theorem C16_resumed_epochs (cfg : Cfg) (inputs : List (Inputs S)) (saved st st' : State S) (n : Nat)
    (h : runLoop cfg inputs (resume 0 saved st) = .ok (st', n)) :
    (n : Int) = max 0 (st.maxEpochs - 2 * saved.epoch) := by
  obtain ⟨_, _, h3⟩ := runLoop_epochs cfg inputs _ st' n h
  simp only [resume, if_true] at h3
  omega

/-- C16 is violated: whenever the checkpoint is of an epoch strictly between 0 and
the configured number, the resumed search runs fewer than the remaining epochs. -/
theorem C16_resume_violated (cfg : Cfg) (inputs : List (Inputs S)) (saved st st' : State S) (n : Nat)
    (he : 0 < saved.epoch) (hm : saved.epoch < st.maxEpochs)
    (h : runLoop cfg inputs (resume 0 saved st) = .ok (st', n)) :
    (n : Int) < st.maxEpochs - saved.epoch ∧ st'.epoch < st.maxEpochs := by
  have h3 := C16_resumed_epochs cfg inputs saved st st' n h
  obtain ⟨h1, _, _⟩ := runLoop_epochs cfg inputs _ st' n h
  simp only [resume, if_true] at h1
  omega

/-- The hypotheses of the previous theorem are met: resuming a 4-epoch search at
epoch 2 runs no epoch at all. -/
example : (runLoop exCfg [] (resume 0 (⟨2, 4, [], []⟩ : State Nat) ⟨0, 4, [], []⟩)).toOption.map
    (fun r => (r.1.epoch, r.2)) = some (2, 0) := by
  simp [runLoop, resume, Except.toOption]

/-- C16 where it holds: a checkpoint of epoch 0, or of the last epoch, resumes to
exactly the remaining epochs. Missing: checkpoints of the other epochs, see `C16_resume_violated`. -/
theorem C16_resume_partial (cfg : Cfg) (inputs : List (Inputs S)) (saved st st' : State S) (n : Nat)
    (he : saved.epoch = 0 ∨ saved.epoch = st.maxEpochs) (hm : 0 ≤ st.maxEpochs)
    (h : runLoop cfg inputs (resume 0 saved st) = .ok (st', n)) :
    (n : Int) = st.maxEpochs - saved.epoch := by
  have h3 := C16_resumed_epochs cfg inputs saved st st' n h
  omega

/-- C16: as far as it runs, the resumed search does what the uninterrupted one
would have done from the checkpoint, for the same random outcomes. -/
theorem C16_continuation (cfg : Cfg) : ∀ (inputs : List (Inputs S)) (saved st : State S),
    (runEpochs cfg inputs saved).toOption.map (fun r => (r.1.pool, r.1.top, r.1.epoch, r.2))
      = (runEpochs cfg inputs (resume 0 saved st)).toOption.map (fun r => (r.1.pool, r.1.top, r.1.epoch, r.2)) := by
  have key : ∀ (inputs : List (Inputs S)) (s t : State S), s.pool = t.pool → s.top = t.top → s.epoch = t.epoch →
      (runEpochs cfg inputs s).toOption.map (fun r => (r.1.pool, r.1.top, r.1.epoch, r.2))
      = (runEpochs cfg inputs t).toOption.map (fun r => (r.1.pool, r.1.top, r.1.epoch, r.2)) := by
    intro inputs
    induction inputs with
    | nil => intro s t h1 h2 h3; simp [runEpochs, Except.toOption, h1, h2, h3]
    | cons i rest ih =>
      intro s t h1 h2 h3
      have hrel : (∃ e, runEpoch cfg i s = .error e ∧ runEpoch cfg i t = .error e) ∨
          (∃ s1 t1, runEpoch cfg i s = .ok s1 ∧ runEpoch cfg i t = .ok t1 ∧ s1.pool = t1.pool ∧
            s1.top = t1.top ∧ s1.epoch = t1.epoch) := by
        unfold runEpoch
        rw [h1, h2]
        simp only [bind, Except.bind, pure, Except.pure, throw, throwThe, MonadExceptOf.throw]
        split
        · exact Or.inl ⟨_, rfl, rfl⟩
        · split
          · exact Or.inl ⟨_, rfl, rfl⟩
          · split
            · exact Or.inl ⟨_, rfl, rfl⟩
            · split
              · exact Or.inr ⟨_, _, rfl, rfl, rfl, rfl, by simp [h3]⟩
              · exact Or.inl ⟨_, rfl, rfl⟩
      have hev : evaluatedIn cfg i s = evaluatedIn cfg i t := by simp [evaluatedIn, h1]
      rcases hrel with ⟨e, hs, ht⟩ | ⟨s1, t1, hs, ht, e1, e2, e3⟩
      · simp [runEpochs, hs, ht]
      · simp only [runEpochs, hs, ht, hev]
        have := ih s1 t1 e1 e2 e3
        cases hrs : runEpochs cfg rest s1 with
        | error x =>
          cases hrt : runEpochs cfg rest t1 with
          | error y => simp [Except.toOption]
          | ok y => rw [hrs, hrt] at this; simp [Except.toOption] at this
        | ok x =>
          cases hrt : runEpochs cfg rest t1 with
          | error y => rw [hrs, hrt] at this; simp [Except.toOption] at this
          | ok y =>
            rw [hrs, hrt] at this
            simp only [Except.toOption, Option.map_some, Option.some.injEq, Prod.mk.injEq] at this ⊢
            obtain ⟨a1, a2, a3, a4⟩ := this
            exact ⟨a1, a2, a3, by rw [a4]⟩
  intro inputs saved st
  exact key inputs saved _ rfl rfl rfl

/-- C16 is violated on several processes: only rank 0 loads the checkpoint, so the
ranks disagree about how many epochs are left. -/
theorem C16_other_ranks_violated (saved st : State S) (rank : Nat) (hr : rank ≠ 0)
    (h0 : st.epoch = 0) (he : 0 < saved.epoch) :
    (resume 0 saved st).maxEpochs - (resume 0 saved st).epoch
      < (resume rank saved st).maxEpochs - (resume rank saved st).epoch := by
  simp only [resume, if_true, hr, if_false]
  omega

/-! ### C17 -/

/-- C17: after `n` epochs in a new work directory, the checkpoints on disk are
exactly those of the last `max_keep_ckpts` epochs, and all of them when the limit
is not positive. -/
theorem C17_retention (keep : Int) (n : Nat) (s : Int) :
    s ∈ savedFiles keep 1 n [] ↔ 1 ≤ s ∧ s ≤ n ∧ (0 < keep → n - keep < s) := by
  induction n with
  | zero => simp [savedFiles]; intro h1 h2; omega
  | succ n ih =>
    rw [savedFiles, mem_saveCkpt, ih]
    push_cast
    constructor
    · rintro ⟨h1, h2⟩
      by_cases hk : 0 < keep
      · have := h2 hk
        rcases h1 with h1 | h1
        · refine ⟨by omega, by omega, fun _ => by omega⟩
        · refine ⟨by omega, by omega, fun _ => by omega⟩
      · refine ⟨by omega, by omega, fun h => absurd h hk⟩
    · rintro ⟨h1, h2, h3⟩
      by_cases hk : 0 < keep
      · have := h3 hk
        refine ⟨?_, fun _ => by omega⟩
        by_cases hs : s = 1 + n
        · exact Or.inl hs
        · exact Or.inr ⟨h1, by omega, fun _ => by omega⟩
      · refine ⟨?_, fun h => absurd h hk⟩
        by_cases hs : s = 1 + n
        · exact Or.inl hs
        · exact Or.inr ⟨h1, by omega, fun h => absurd h hk⟩

/-- C17: the checkpoint of the epoch just finished is always there when the limit
is not positive or at least 1, and saving never removes one of the last
`max_keep_ckpts` epochs, whatever files were there before (a resumed run). -/
theorem C17_current_exists (keep epoch : Int) (files : List Int) :
    epoch ∈ saveCkpt keep epoch files ∧
    ∀ s ∈ files, epoch - keep < s → s ∈ saveCkpt keep epoch files := by
  constructor
  · rw [mem_saveCkpt]; exact ⟨Or.inl rfl, fun hk => by omega⟩
  · intro s hs hlt
    rw [mem_saveCkpt]; exact ⟨Or.inr hs, fun hk => by omega⟩

example : savedFiles 3 1 5 [] = [3, 4, 5] := by decide

/-- C17: a resumed run keeps the checkpoints of the last `max_keep_ckpts` epochs, also those of the run
before it, and removes older ones; what another, longer run has left behind with larger numbers stays
there. -/
theorem C17_resumed (keep start : Int) (n : Nat) (hn : 1 ≤ n) (files : List Int) (s : Int) :
    s ∈ savedFiles keep start n files ↔
      (s ∈ files ∨ (start ≤ s ∧ s < start + n)) ∧ (0 < keep → 1 ≤ s → start + n - 1 - keep < s) := by
  induction n with
  | zero => omega
  | succ n ih =>
    rw [savedFiles, mem_saveCkpt]
    push_cast
    by_cases h0 : n = 0
    · subst h0
      simp only [savedFiles]
      constructor
      · rintro ⟨h1, h2⟩
        refine ⟨?_, fun h3 h4 => ?_⟩
        · rcases h1 with h1 | h1
          · right; omega
          · left; exact h1
        · have := h2 h3
          omega
      · rintro ⟨h1, h2⟩
        refine ⟨?_, fun h3 => ?_⟩
        · rcases h1 with h1 | h1
          · right; exact h1
          · left; omega
        · have := h2 h3
          omega
    · rw [ih (by omega)]
      constructor
      · rintro ⟨h1, h2⟩
        refine ⟨?_, fun h3 h4 => ?_⟩
        · rcases h1 with h1 | ⟨h1 | h1, _⟩
          · right; omega
          · left; exact h1
          · right; omega
        · have := h2 h3
          omega
      · rintro ⟨h1, h2⟩
        refine ⟨?_, fun h3 => ?_⟩
        · by_cases he : s = start + n
          · left; omega
          · right
            refine ⟨?_, fun h3 h4 => by have := h2 h3 h4; omega⟩
            rcases h1 with h1 | h1
            · left; exact h1
            · right; omega
        · have := h2 h3
          omega

example : savedFiles 2 3 2 [1, 2, 7] = [7, 3, 4] := by decide

/-- A constraint on something the estimator does not report is a `KeyError`, exactly if all constraints before it hold. -/
theorem C13_unreported (results : String → Option ℚ) (cs : List (String × Bound)) (e : Err) :
    check (some cs) results = .error e ↔ e = .key ∧ ∃ pre k b post, cs = pre ++ (k, b) :: post ∧ results k = none ∧
      ∀ p ∈ pre, ∃ x, results p.1 = some x ∧ p.2.range.1 ≤ x ∧ x ≤ p.2.range.2 := by
  rw [check]
  induction cs with
  | nil => simp [checkLoop]
  | cons c cs ih =>
    obtain ⟨k, b⟩ := c
    rw [checkLoop]
    cases hk : results k with
    | none =>
      simp only [Except.error.injEq]
      constructor
      · rintro rfl
        exact ⟨rfl, [], k, b, cs, rfl, hk, by simp⟩
      · rintro ⟨rfl, -⟩
        rfl
    | some x =>
      have key : ∀ (P : Prop), (P ↔ e = .key ∧ ∃ pre k b post, cs = pre ++ (k, b) :: post ∧ results k = none ∧
          ∀ p ∈ pre, ∃ x, results p.1 = some x ∧ p.2.range.1 ≤ x ∧ x ≤ p.2.range.2) →
          ((P ∧ b.range.1 ≤ x ∧ x ≤ b.range.2) ↔ e = .key ∧ ∃ pre k' b' post, (k, b) :: cs = pre ++ (k', b') :: post ∧
            results k' = none ∧ ∀ p ∈ pre, ∃ x, results p.1 = some x ∧ p.2.range.1 ≤ x ∧ x ≤ p.2.range.2) := by
        intro P hP
        rw [hP]
        constructor
        · rintro ⟨⟨he, pre, k', b', post, h1, h2, h3⟩, hx⟩
          refine ⟨he, (k, b) :: pre, k', b', post, by rw [h1]; rfl, h2, ?_⟩
          intro p hp
          rcases List.mem_cons.1 hp with rfl | hp
          · exact ⟨x, hk, hx⟩
          · exact h3 p hp
        · rintro ⟨he, pre, k', b', post, h1, h2, h3⟩
          cases pre with
          | nil =>
            simp only [List.nil_append, List.cons.injEq, Prod.mk.injEq] at h1
            rw [← h1.1.1, hk] at h2
            simp at h2
          | cons p pre =>
            simp only [List.cons_append, List.cons.injEq] at h1
            refine ⟨⟨he, pre, k', b', post, h1.2, h2, fun q hq => h3 q (by simp [hq])⟩, ?_⟩
            obtain ⟨y, hy, h4⟩ := h3 p (by simp)
            rw [← h1.1] at hy h4
            simp only at hy h4
            rw [hk] at hy
            cases hy
            exact h4
      rw [← key _ ih]
      simp only
      by_cases hx : x < b.range.1 ∨ x > b.range.2
      · rw [if_pos hx]
        simp only [reduceCtorEq, false_iff]
        rintro ⟨-, h1, h2⟩
        rcases hx with hx | hx
        · exact absurd hx (not_lt.2 h1)
        · exact absurd hx (not_lt.2 h2)
      · rw [if_neg hx]
        push Not at hx
        simp [hx.1, hx.2]

example : check (some [("flops", .scalar 5), ("latency", .scalar 1)]) (fun k => if k = "flops" then some 3 else none) = .error .key :=
  (C13_unreported _ _ _).2 ⟨rfl, [("flops", .scalar 5)], "latency", .scalar 1, [], rfl, by decide +kernel,
    by simp [Bound.range]; norm_num⟩

end Verif.Evolution
