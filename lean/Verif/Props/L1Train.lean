import Verif.Lemmas.L1Train

/-! C112: iterative pruning with L1 units, from the first iteration to the target. -/

namespace Verif.L1Train
open Verif ChannelUnit SeqChannel L1Norm ItePrune

/-- Iterative pruning with L1 units, whatever the training does to the weights: after any number of
iterations every unit of the plan keeps the best channels by its weights at the last pruning, as many
as planned for it, and the target from the last pruning on; the other units are left alone. Missing: units that cannot be set,
see `C111_no_weights_violated` and `C111_exceeds_violated`. -/
theorem C112_run_partial (A : Arith) (us : List LUnit) (m : Manager) (hp : Planned us m) (w : ℕ → String → List Out)
    (hw : Weighted us w) (masks : String → List Bool) (n : ℕ) :
    ∃ masks', train A double us m w masks n = .ok masks' ∧
      (∀ nm, nm ∉ m.target.map (·.1) → masks' nm = masks nm) ∧ (n = 0 → masks' = masks) ∧
      (0 < n → ∀ e ∈ m.target, ∀ u ∈ us, u.name = e.1 → ∀ t : Int, e.2 = .int t →
        Kept m u.cfg t (done m.freq m.times n) (w ((done m.freq m.times n - 1) * m.freq) e.1) (masks' e.1)) := by
  obtain ⟨ms, h1, h2, h3, h4⟩ := run_ok A hp hw masks n
  refine ⟨ms, h1, h2, h3, fun hn e he u hu hun t ht => ?_⟩
  obtain ⟨k, g1, g2⟩ := h4 hn e he u hu hun t ht
  obtain ⟨u', hu', hun', hal, hb52, _, t', ht', d1, d2, d3⟩ := hp.target e he
  have : u' = u := List.inj_on_of_nodup_map hp.names hu' hu (by rw [hun, hun'])
  subst this
  rw [ht] at ht'
  cases ht'
  obtain ⟨k', c, v1, v2, v3, v4, v5, v6, v7⟩ := planned_count m u'.cfg hal hb52 hp.times d1 d2 d3 A
    (show done m.freq m.times n ≤ m.times by unfold done; omega)
  rw [g1] at v1
  cases v1
  have c0 : 0 ≤ c := by
    have := hal.divisor
    unfold effMin at d2
    omega
  obtain ⟨cn, rfl⟩ := Int.eq_ofNat_of_zero_le c0
  have hwt := hw ((done m.freq m.times n - 1) * m.freq) u' hu'
  rw [hun] at hwt
  obtain ⟨mk, s1, s2, _⟩ := C111_set_partial A u'.cfg _ hwt.1 hwt.2 (.num k) v4 (by exact_mod_cast v6)
  rw [g2] at s1
  cases s1
  exact ⟨k, cn, g1, v4, s2, v5, fun h => (v7 h).symm⟩

example : ((train exact double exUnits exManager exWeights (fun _ => []) 0).toOption.map fun ms => ms "a") = some [] ∧
    ((train exact double exUnits exManager exWeights (fun _ => []) 1).toOption.map fun ms => ms "a") =
      some [false, false, true, true, true, true, true, true] ∧
    ((train exact double exUnits exManager exWeights (fun _ => []) 3).toOption.map fun ms => ms "a") =
      some [false, false, true, false, true, true, true, false] ∧
    ((train exact double exUnits exManager exWeights (fun _ => []) 9).toOption.map fun ms => ms "a") =
      some [false, false, false, false, false, false, true, true] := by
  decide +kernel

/-- After the last pruning every unit of the plan has exactly the channels it should have, the best ones
by the weights at that pruning, and nothing changes any more. Missing: units that cannot be set, see `C111_no_weights_violated`
and `C111_exceeds_violated`. -/
theorem C112_target_partial (A : Arith) (us : List LUnit) (m : Manager) (hp : Planned us m) (w : ℕ → String → List Out)
    (hw : Weighted us w) (masks : String → List Bool) (n : ℕ) (hn : (m.times - 1) * m.freq < n) :
    ∃ masks', train A double us m w masks n = .ok masks' ∧
      (∀ n', n ≤ n' → train A double us m w masks n' = .ok masks') ∧
      ∀ e ∈ m.target, ∀ u ∈ us, u.name = e.1 → ∀ t : ℕ, e.2 = .int t →
        Best u.cfg.n t (score (w ((m.times - 1) * m.freq) e.1)) (masks' e.1) := by
  obtain ⟨ms, h1, _, _, h4⟩ := C112_run_partial A us m hp w hw masks n
  have hd : done m.freq m.times n = m.times := by
    unfold done
    have : m.times ≤ (n + m.freq - 1) / m.freq := by
      rw [Nat.le_div_iff_mul_le hp.freq]
      have : m.times * m.freq = (m.times - 1) * m.freq + m.freq := by
        obtain ⟨k, hk⟩ : ∃ k, m.times = k + 1 := ⟨m.times - 1, by have := hp.times; omega⟩
        rw [hk, Nat.add_mul, Nat.add_sub_cancel]
        omega
      omega
    omega
  refine ⟨ms, h1, ?_, ?_⟩
  · intro n' hn'
    induction n' with
    | zero => omega
    | succ j ih =>
      by_cases hj : n ≤ j
      · unfold train
        rw [ih hj]
        dsimp only
        unfold step
        have hb : m.isPruneTime j = .ok false := by
          have hnot : ¬ ∃ k < m.times, j = k * m.freq := by
            rintro ⟨k, hk, rfl⟩
            have : k * m.freq ≤ (m.times - 1) * m.freq := Nat.mul_le_mul_right _ (by omega)
            omega
          have hnot := mt ((C34_times m hp.freq).1 j).1 hnot
          unfold Manager.isPruneTime at hnot ⊢
          rw [if_neg (by have := hp.freq; omega)] at hnot ⊢
          congr 1
          by_contra hc
          exact hnot (by rw [Bool.not_eq_false] at hc; rw [hc])
        rw [hb]
      · have : n = j + 1 := by omega
        rw [← this]
        exact h1
  · intro e he u hu hun t ht
    obtain ⟨k, c, _, _, g3, _, g5⟩ := (h4 (by omega) e he u hu hun t ht).out
    rw [hd] at g3 g5
    have : t = c := by exact_mod_cast g5 rfl
    rw [this]
    exact g3

/-- As long as the weights of a unit stay the same, its channels only get fewer. Missing: weights that are trained between the
prunings, see `C112_regrow_violated`. -/
theorem C112_shrink_partial (A : Arith) (us : List LUnit) (m : Manager) (hp : Planned us m) (w : ℕ → String → List Out)
    (hw : Weighted us w) (masks : String → List Bool) {n n' : ℕ} (h0 : 0 < n) (hn : n ≤ n') {e : String × Num} (he : e ∈ m.target)
    (hc : ∀ it it', w it e.1 = w it' e.1) :
    ∃ ms ms', train A double us m w masks n = .ok ms ∧ train A double us m w masks n' = .ok ms' ∧
      ∀ (i : ℕ), (ms' e.1)[i]? = some true → (ms e.1)[i]? = some true := by
  obtain ⟨ms, h1, _, _, h4⟩ := run_ok A hp hw masks n
  obtain ⟨ms', h1', _, _, h4'⟩ := run_ok A hp hw masks n'
  refine ⟨ms, ms', h1, h1', ?_⟩
  obtain ⟨u, hu, hun, hal, hb52, _, t, ht, d1, d2, d3⟩ := hp.target e he
  obtain ⟨k, g1, g2⟩ := h4 h0 e he u hu hun t ht
  obtain ⟨k', g1', g2'⟩ := h4' (by omega) e he u hu hun t ht
  have hle : done m.freq m.times n ≤ done m.freq m.times n' := by
    unfold done
    have : (n + m.freq - 1) / m.freq ≤ (n' + m.freq - 1) / m.freq := Nat.div_le_div_right (by omega)
    omega
  have hle' : done m.freq m.times n' ≤ m.times := by unfold done; omega
  have t0 : 0 ≤ t := by have := hal.divisor; unfold effMin at d2; omega
  obtain ⟨_, q2, _⟩ := C34_double_counts m u.cfg.n t (by omega) t0 hb52 (by omega) hp.times _ _ hle hle'
  have q2 := (q2 d3).2.1
  rw [g1, g1'] at q2
  simp only [Num.val] at q2
  have q2 : k' ≤ k := by exact_mod_cast q2
  obtain ⟨x, c, v1, v2, v3, v4, _⟩ := planned_count m u.cfg hal hb52 hp.times d1 d2 d3 A (le_trans hle hle')
  obtain ⟨x', c', v1', v2', v3', v4', _⟩ := planned_count m u.cfg hal hb52 hp.times d1 d2 d3 A hle'
  rw [g1] at v1
  cases v1
  rw [g1'] at v1'
  cases v1'
  have hcc : c' ≤ c := mkDiv_mono u.cfg k' k c' c (by omega) q2 hal.divisor hal.ratio0 hal.least v4' v4
  rw [hc _ ((done m.freq m.times n - 1) * m.freq)] at g2'
  exact C111_nested A u.cfg _ (.num k') (.num k) v4' v4 hcc g2' g2

/-- DISAGREEMENT: a channel that has been pruned should stay pruned. When the weights are trained between
the prunings, a dropped channel comes back as soon as its weights are among the largest again: here
channel seven is dropped by the second pruning and kept by the third, although the unit has fewer
channels then. -/
theorem C112_regrow_violated : Planned exUnits exManager ∧ Weighted exUnits exWeights ∧
    ((train exact double exUnits exManager exWeights (fun _ => []) 3).toOption.map fun ms => (ms "a")[7]?) = some (some false) ∧
    ((train exact double exUnits exManager exWeights (fun _ => []) 5).toOption.map fun ms => ((ms "a")[7]?, (ms "a").count true)) =
      some (some true, 2) := by
  refine ⟨exPlanned, ?_, by decide +kernel, by decide +kernel⟩
  intro it u hu
  rw [exUnits, List.mem_cons, List.mem_singleton] at hu
  rcases hu with rfl | rfl
  · refine ⟨?_, ⟨_, List.mem_singleton.2 rfl, by simp⟩⟩
    intro o ho rows hr
    have ho := List.mem_singleton.1 ho
    subst ho
    simp only [Option.some.injEq] at hr
    subst hr
    simp
  · refine ⟨?_, ⟨_, List.mem_singleton.2 rfl, by simp⟩⟩
    intro o ho rows hr
    have ho := List.mem_singleton.1 ho
    subst ho
    simp only [Option.some.injEq] at hr
    subst hr
    simp

/-- A plan for a unit that is not there is refused at the first pruning. -/
theorem C112_unknown_refused (A : Arith) (rnd : ℚ → ℚ) (us : List LUnit) (m : Manager) (hf : 0 < m.freq) (ht : 0 < m.times)
    (e : String × Num) (l : Choices) (hm : m.target = e :: l) (hs : ∀ x ∈ m.target, ∃ v, lookup m.supernet x.1 = .ok v)
    (hu : ∀ u ∈ us, u.name ≠ e.1) (w : ℕ → String → List Out) (masks : String → List Bool) :
    train A rnd us m w masks 1 = .error .key := by
  unfold train train
  dsimp only
  unfold step
  have hb : m.isPruneTime 0 = .ok true := ((C34_times m hf).1 0).2 ⟨0, ht, by simp⟩
  rw [hb]
  dsimp only
  have hmap := mapM_value_eq rnd m 1 (fun nm => (lookup m.supernet nm).toOption.getD (.int 0)) m.target (by
    intro x hx
    obtain ⟨v, hv⟩ := hs x hx
    rw [hv]
    rfl)
  have : m.pruneAt rnd 0 = .ok (m.target.map fun x => (x.1, m.value rnd 1 x.2 ((lookup m.supernet x.1).toOption.getD (.int 0)))) := by
    unfold Manager.pruneAt
    rw [if_neg (by omega), Nat.zero_div, if_neg (by omega)]
    exact hmap
  rw [this, hm, List.map_cons]
  dsimp only
  rw [List.foldlM_cons]
  have : us.find? (·.name = e.1) = none := by
    rw [List.find?_eq_none]
    intro u hu'
    simpa using hu u hu'
  unfold setOne
  dsimp only
  rw [this]
  rfl

end Verif.L1Train
