import Verif.Model.Sampler
import Mathlib.Tactic.Linarith
import Mathlib.Tactic.FieldSimp

/-! C19: the greedy sampler loop. -/

namespace Verif.Sampler
open Verif

variable {S : Type}

/-! ### The probability -/

/-- C19, before and after the schedule: `init_prob` and `max_prob`. -/
theorem C19_outside (s : Schedule) (it : Int) (hs : s.start ≤ s.stop) :
    (it < s.start → linearProb s it = .ok s.init) ∧ (s.stop < it → linearProb s it = .ok s.max) := by
  constructor
  · intro h
    rw [linearProb, if_neg (by omega), if_pos h]
  · intro h
    rw [linearProb, if_pos h]

/-- C19, inside the schedule, where it holds: with `init_prob = 0` the probability is
the documented linear interpolation between the two. Missing: other initial probabilities, see `C19_linear_violated`. -/
theorem C19_linear_partial (s : Schedule) (it : Int) (h0 : s.init = 0) (h1 : s.start ≤ it) (h2 : it ≤ s.stop)
    (h3 : s.start < s.stop) :
    linearProb s it
      = .ok (s.init + (s.max - s.init) * (((it - s.start : Int) : ℚ) / ((s.stop - s.start : Int) : ℚ))) := by
  have hne : ((s.stop - s.start : Int) : ℚ) ≠ 0 := by
    have : s.stop - s.start ≠ 0 := by omega
    exact_mod_cast this
  rw [linearProb, if_neg (by omega), if_neg (by omega)]
  simp only
  rw [if_neg hne, h0]
  congr 1
  field_simp
  ring

example : linearProb ⟨100, 200, 0, 4/5⟩ 150 = .ok (2/5) := by decide +kernel

/-- C19 is violated by the linear schedule whenever `init_prob` is not 0: on entering
the schedule the probability drops to 0, and at its end it is `init_prob` short of
`max_prob`. -/
theorem C19_linear_violated (s : Schedule) (h0 : s.init ≠ 0) (h3 : s.start < s.stop) :
    linearProb s s.start = .ok 0 ∧ linearProb s s.start ≠ .ok s.init ∧
    linearProb s s.stop = .ok (s.max - s.init) ∧ linearProb s s.stop ≠ .ok s.max := by
  have hne : ((s.stop - s.start : Int) : ℚ) ≠ 0 := by
    have : s.stop - s.start ≠ 0 := by omega
    exact_mod_cast this
  have ha : linearProb s s.start = .ok 0 := by
    rw [linearProb, if_neg (by omega), if_neg (by omega)]
    simp only
    rw [if_neg hne]
    simp
  have hb : linearProb s s.stop = .ok (s.max - s.init) := by
    rw [linearProb, if_neg (by omega), if_neg (by omega)]
    simp only
    rw [if_neg hne]
    congr 1
    field_simp
  refine ⟨ha, ?_, hb, ?_⟩
  · rw [ha]; intro h; injection h with h; exact h0 h.symm
  · rw [hb]; intro h; injection h with h; apply h0; linarith

/-- C19, still a probability: with `0 ≤ init_prob ≤ max_prob ≤ 1` the linear schedule
stays between 0 and `max_prob`. -/
theorem C19_linear_range (s : Schedule) (it : Int) (p : ℚ) (h0 : 0 ≤ s.init) (h1 : s.init ≤ s.max)
    (h : linearProb s it = .ok p) : 0 ≤ p ∧ p ≤ s.max := by
  unfold linearProb at h
  split at h
  · injection h with h; subst h; exact ⟨le_trans h0 h1, le_refl _⟩
  · split at h
    · injection h with h; subst h; exact ⟨h0, h1⟩
    · rename_i hs he
      simp only at h
      split at h
      · cases h
      · rename_i hne
        injection h with h
        subst h
        have hle : (0 : ℚ) ≤ ((it - s.start : Int) : ℚ) := by
          have : 0 ≤ it - s.start := by omega
          exact_mod_cast this
        have hcur : ((it - s.start : Int) : ℚ) ≤ ((s.stop - s.start : Int) : ℚ) := by
          have : it - s.start ≤ s.stop - s.start := by omega
          exact_mod_cast this
        have hpos : (0 : ℚ) < ((s.stop - s.start : Int) : ℚ) :=
          lt_of_le_of_ne (le_trans hle hcur) (Ne.symm hne)
        have hd : 0 ≤ s.max - s.init := by linarith
        constructor
        · exact mul_nonneg (div_nonneg hd hpos.le) hle
        · have : (s.max - s.init) / ((s.stop - s.start : Int) : ℚ) * ((it - s.start : Int) : ℚ)
              ≤ (s.max - s.init) / ((s.stop - s.start : Int) : ℚ) * ((s.stop - s.start : Int) : ℚ) :=
            mul_le_mul_of_nonneg_left hcur (div_nonneg hd hpos.le)
          rw [div_mul_cancel₀ _ hne] at this
          linarith

/-- C19 is violated by the cosine schedule, for every `init_prob < 1`: it starts at 1
and falls to `init_prob`, the reverse of the documented increase to `max_prob`. -/
theorem C19_cosine_violated (s : Schedule) (h1 : s.init < 1) (h3 : s.start < s.stop) :
    cosineProb s s.start = .ok 1 ∧ cosineProb s s.stop = .ok (s.init : ℝ) ∧ (s.init : ℝ) < 1 := by
  have hne : ((s.stop - s.start : Int) : ℝ) ≠ 0 := by
    have : s.stop - s.start ≠ 0 := by omega
    exact_mod_cast this
  refine ⟨?_, ?_, by exact_mod_cast h1⟩
  · rw [cosineProb, if_neg (by omega), if_neg (by omega)]
    simp only
    rw [if_neg (by omega)]
    congr 1
    simp
    ring
  · rw [cosineProb, if_neg (by omega), if_neg (by omega)]
    simp only
    rw [if_neg (by omega)]
    congr 1
    rw [mul_div_assoc, div_self hne, mul_one, Real.cos_pi]
    ring

/-- C19: a schedule of length 0 raises at its only iteration. -/
theorem C19_empty_schedule_violated (s : Schedule) (h : s.start = s.stop) :
    linearProb s s.start = .error .zeroDivision := by
  rw [linearProb, if_neg (by omega), if_neg (by omega)]
  simp [h]

/-! ### The candidates handed out -/

/-- C19, refilling: the candidate pool is sorted by the current scores, holds at most
`num_candidates`, the top-k list is its first `top_k`, the handed-out subnet is a best
one among everything considered, and everything considered was in the pool or is a
new subnet that passed the constraints. -/
theorem C19_refill (cfg : Cfg) (prob : ℚ) (score : S → ℚ) (draws : List (Draw S)) (st st' : State S) (s : S)
    (hempty : st.top = []) (h : sampleSubnet cfg prob score draws st = .ok (s, st')) :
    st'.pool.Pairwise (fun a b => a.score ≥ b.score) ∧
    st'.pool.length ≤ cfg.numCandidates ∧ st'.top = st'.pool.take cfg.topK ∧
    (∀ c ∈ st'.pool, c.score = score c.subnet ∧
      ((∃ o ∈ st.pool, o.subnet = c.subnet) ∨ ∃ d ∈ draws, d.fresh = c.subnet ∧ d.pass = true)) ∧
    (∀ o ∈ st.pool, score o.subnet ≤ score s) ∧
    (∀ d ∈ draws, d.pass = true → prob ≤ d.r → score d.fresh ≤ score s) := by
  unfold sampleSubnet at h
  simp only [hempty, List.length_nil, if_true] at h
  set all := (st.pool ++ sampled prob st.pool draws).map (fun c => (⟨c.subnet, score c.subnet⟩ : Cand S)) with hall
  have hsorted : (sortBy byScore all).Pairwise (fun a b => a.score ≥ b.score) := by
    have := sortBy_sorted (le := byScore (S := S))
      (by intro a b c; simpa [byScore] using fun h1 h2 => le_trans h2 h1)
      (by intro a b; simpa [byScore] using le_total _ _) all
    simpa [byScore] using this
  have hst : refill cfg prob score draws st
      = ⟨(sortBy byScore all).take cfg.numCandidates,
         ((sortBy byScore all).take cfg.numCandidates).take cfg.topK⟩ := rfl
  rw [hst] at h
  have hmem : ∀ c ∈ all, c.score = score c.subnet ∧
      ((∃ o ∈ st.pool, o.subnet = c.subnet) ∨ ∃ d ∈ draws, d.fresh = c.subnet ∧ d.pass = true) := by
    intro c hc
    obtain ⟨o, ho, rfl⟩ := List.mem_map.mp hc
    refine ⟨rfl, ?_⟩
    rcases List.mem_append.mp ho with ho | ho
    · exact Or.inl ⟨o, ho, rfl⟩
    · unfold sampled at ho
      obtain ⟨d, hd, hdo⟩ := List.mem_filterMap.mp ho
      split at hdo
      · split at hdo
        · rename_i hp
          simp only [Option.some.injEq] at hdo
          subst hdo
          exact Or.inr ⟨d, hd, rfl, hp⟩
        · cases hdo
      · exact Or.inl ⟨o, List.mem_of_getElem? hdo, rfl⟩
  split at h
  · cases h
  · rename_i c rest htop
    simp only [Except.ok.injEq, Prod.mk.injEq] at h
    obtain ⟨h1, h2⟩ := h
    subst h2
    simp only at htop
    -- the first of the top list is the first of the sorted list
    obtain ⟨t, ht⟩ : ∃ t, sortBy byScore all = c :: t := by
      cases hs : sortBy byScore all with
      | nil => rw [hs] at htop; simp at htop
      | cons x t =>
        rw [hs] at htop
        refine ⟨t, ?_⟩
        cases hn : cfg.numCandidates with
        | zero => rw [hn] at htop; simp at htop
        | succ n =>
          cases hk : cfg.topK with
          | zero => rw [hk] at htop; simp at htop
          | succ k => rw [hn, hk] at htop; simp at htop; rw [htop.1]
    have hmax : ∀ x ∈ all, x.score ≤ c.score := by
      intro x hx
      have hx' : x ∈ sortBy byScore all := mem_sortBy.mpr hx
      rw [ht] at hx' hsorted
      rcases List.mem_cons.mp hx' with rfl | hx'
      · exact le_refl _
      · exact (List.pairwise_cons.mp hsorted).1 x hx'
    have hc : c.score = score s := by
      have : c ∈ all := mem_sortBy.mp (by rw [ht]; simp)
      rw [(hmem c this).1, h1]
    refine ⟨hsorted.sublist (List.take_sublist _ _), List.length_take_le _ _, rfl, ?_, ?_, ?_⟩
    · intro x hx
      exact hmem x (mem_sortBy.mp (List.mem_of_mem_take hx))
    · intro o ho
      rw [← hc]
      exact hmax ⟨o.subnet, score o.subnet⟩ (List.mem_map.mpr ⟨o, by simp [ho], rfl⟩)
    · intro d hd hp hr
      rw [← hc]
      refine hmax ⟨d.fresh, score d.fresh⟩ (List.mem_map.mpr ⟨⟨d.fresh, 0⟩, ?_, rfl⟩)
      refine List.mem_append.mpr (Or.inr ?_)
      unfold sampled
      refine List.mem_filterMap.mpr ⟨d, hd, ?_⟩
      rw [if_pos (Or.inl hr), if_pos hp]

example : (sampleSubnet ⟨3, 2⟩ (1/2) (fun n : Nat => (n : ℚ))
    [⟨9/10, 4, true, 0⟩, ⟨8/10, 9, false, 0⟩, ⟨1/10, 5, true, 1⟩] ⟨[⟨1, 0⟩, ⟨7, 0⟩], []⟩).toOption.map
    (fun r => (r.1, r.2.pool.map (·.subnet), r.2.top.map (·.subnet))) = some (7, [7, 7, 4], [7, 7]) := by
  decide +kernel

/-- C19 is violated: once the top-k list is filled, its first entry is handed out in
every later iteration; nothing is ever taken from the list. -/
theorem C19_never_popped_violated (cfg : Cfg) (c : Cand S) (rest : List (Cand S)) (pool : List (Cand S))
    (iters : List (ℚ × (S → ℚ) × List (Draw S))) :
    trainSubnets cfg iters ⟨pool, c :: rest⟩ = .ok (List.replicate iters.length c.subnet) := by
  induction iters with
  | nil => rfl
  | cons i iters ih =>
    obtain ⟨p, sc, ds⟩ := i
    rw [trainSubnets]
    simp [sampleSubnet, ih, List.replicate_succ]

/-- C19: when nothing sampled passes and the pool is empty, the iteration raises. -/
theorem C19_nothing_found_fails (cfg : Cfg) (prob : ℚ) (score : S → ℚ) (draws : List (Draw S))
    (h : ∀ d ∈ draws, d.pass = false) :
    sampleSubnet cfg prob score draws ⟨[], []⟩ = .error .index := by
  have : sampled prob ([] : List (Cand S)) draws = [] := by
    unfold sampled
    rw [List.filterMap_eq_nil_iff]
    intro d hd
    simp [h d hd]
  simp [sampleSubnet, refill, this, sortBy]

/-- C19: no draw is wasted while there is a pool to draw from: every round yields a candidate,
except one that asks for a new subnet (always, while the pool is empty) and has it refused. -/
theorem C19_sampled (prob : ℚ) (pool : List (Cand S)) (draws : List (Draw S)) :
    (sampled prob pool draws).length = draws.countP (fun d => d.pass || (decide (d.r < prob) && !pool.isEmpty)) := by
  induction draws with
  | nil => rfl
  | cons d draws ih =>
    unfold sampled at ih ⊢
    rw [List.countP_cons, ← ih]
    by_cases h0 : pool = []
    · subst h0
      cases hp : d.pass <;> simp [hp]
    · have hl : 0 < pool.length := List.length_pos_iff.2 h0
      by_cases hr : d.r < prob
      · have hm : d.pos % pool.length < pool.length := Nat.mod_lt _ hl
        have hc : ¬ (d.r ≥ prob ∨ pool.length = 0) := by
          rintro (h | h)
          · exact absurd hr (not_lt.2 h)
          · omega
        rw [List.filterMap_cons, if_neg hc, List.getElem?_eq_getElem hm]
        simp [hr, h0]
      · have hc : d.r ≥ prob ∨ pool.length = 0 := Or.inl (not_lt.1 hr)
        rw [List.filterMap_cons, if_pos hc]
        cases hp : d.pass <;> simp [hp, hr]

example : (sampled (1 / 2) [⟨7, 1⟩] [⟨1 / 4, 8, false, 5⟩, ⟨3 / 4, 9, false, 0⟩, ⟨3 / 4, 10, true, 0⟩] : List (Cand Nat)) =
    [⟨7, 1⟩, ⟨10, 0⟩] := by decide +kernel

/-- DISAGREEMENT: the cosine schedule too raises at the only iteration of a schedule of length 0. -/
theorem C19_empty_cosine_violated (s : Schedule) (h : s.start = s.stop) : cosineProb s s.start = .error .zeroDivision := by
  unfold cosineProb
  rw [if_neg (by omega), if_neg (by omega)]
  simp [h]

end Verif.Sampler
