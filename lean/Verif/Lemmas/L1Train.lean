import Verif.Spec.L1Train
import Verif.Props.L1Norm
import Verif.Props.ItePrune

/-! Helper lemmas for `Verif/Props/L1Train.lean`. -/

namespace Verif.L1Train
open Verif ChannelUnit SeqChannel L1Norm ItePrune

theorem find_unit {us : List LUnit} (hn : (us.map LUnit.name).Nodup) {u : LUnit} (hu : u ∈ us) :
    us.find? (·.name = u.name) = some u := by
  induction us with
  | nil => cases hu
  | cons v us ih =>
    rw [List.map_cons, List.nodup_cons] at hn
    rcases List.mem_cons.1 hu with rfl | hu
    · simp
    · have hne : v.name ≠ u.name := fun h => hn.1 (h ▸ List.mem_map_of_mem hu)
      rw [List.find?_cons_of_neg (by simpa using hne)]
      exact ih hn.2 hu

theorem setAll_ok (A : Arith) {us : List LUnit} (hn : (us.map LUnit.name).Nodup) (w : String → List Out)
    (R : String → List Bool → Prop) : ∀ (cfg : Choices) (masks : String → List Bool), (cfg.map (·.1)).Nodup →
    (∀ e ∈ cfg, ∃ u ∈ us, u.name = e.1 ∧ ∃ mk, setChoice A u.cfg (w e.1) (choiceOf e.2) = .ok mk ∧ R e.1 mk) →
    ∃ masks', cfg.foldlM (setOne A us w) masks = .ok masks' ∧ (∀ e ∈ cfg, R e.1 (masks' e.1)) ∧
      ∀ nm, nm ∉ cfg.map (·.1) → masks' nm = masks nm
  | [], masks, _, _ => ⟨masks, rfl, by simp, by simp⟩
  | e :: cfg, masks, hk, h => by
    rw [List.map_cons, List.nodup_cons] at hk
    obtain ⟨u, hu, hun, mk, h1, h2⟩ := h e List.mem_cons_self
    obtain ⟨masks', g1, g2, g3⟩ := setAll_ok A hn w R cfg (Function.update masks e.1 mk) hk.2
      (fun x hx => h x (List.mem_cons_of_mem _ hx))
    refine ⟨masks', ?_, ?_, ?_⟩
    · rw [List.foldlM_cons]
      have : setOne A us w masks e = .ok (Function.update masks e.1 mk) := by
        unfold setOne
        rw [← hun, find_unit hn hu]
        dsimp only
        rw [hun, h1]
      rw [this]
      exact g1
    · intro x hx
      rcases List.mem_cons.1 hx with rfl | hx
      · rw [g3 _ hk.1]
        simpa using h2
      · exact g2 x hx
    · intro nm hnm
      rw [List.map_cons, List.mem_cons, not_or] at hnm
      rw [g3 nm hnm.2, Function.update_of_ne hnm.1]

theorem mapM_value_eq (rnd : ℚ → ℚ) (m : Manager) (k : ℕ) (f : String → Num) : ∀ (l : Choices),
    (∀ e ∈ l, lookup m.supernet e.1 = .ok (f e.1)) →
    (l.mapM fun e => do
      let s ← lookup m.supernet e.1
      return (e.1, m.value rnd k e.2 s)) = (.ok (l.map fun e => (e.1, m.value rnd k e.2 (f e.1))) : Except Err Choices)
  | [], _ => rfl
  | e :: l, h => by
    rw [List.mapM_cons, mapM_value_eq rnd m k f l fun x hx => h x (List.mem_cons_of_mem _ hx), h e List.mem_cons_self]
    rfl

/-- The number of channels a unit of the plan has after `q` prunings. -/
theorem planned_count (m : Manager) (u : Cfg) (hu : Aligned u) (hb : (u.n : Int) < 2 ^ 52) (ht : 0 < m.times) {t : Int}
    (h1 : u.divisor ∣ t) (h2 : effMin u ≤ t) (h3 : t ≤ u.n) (A : Arith) {q : ℕ} (hq : q ≤ m.times) :
    ∃ k c : Int, m.value double q (.int t) (.int u.n) = .int k ∧ t ≤ k ∧ k ≤ u.n ∧
      validInt A u (.num k) = .ok c ∧ t ≤ c ∧ c ≤ u.n ∧ (q = m.times → c = t) := by
  have t0 : 0 ≤ t := by have := hu.divisor; unfold effMin at h2; omega
  obtain ⟨g1, g2, _⟩ := C34_double_counts m u.n t (by omega) t0 hb (by omega) ht q m.times hq le_rfl
  obtain ⟨_, g3, g4⟩ := g2 h3
  obtain ⟨_, g5, _⟩ := C34_double_counts m u.n t (by omega) t0 hb (by omega) ht q q le_rfl hq
  obtain ⟨g5, _, _⟩ := g5 h3
  obtain ⟨k, hk⟩ : ∃ k, m.value double q (.int t) (.int u.n) = .int k := ⟨_, rfl⟩
  rw [hk] at g3 g4 g5
  simp only [Num.val] at g3 g4 g5
  have g4 : k ≤ u.n := by exact_mod_cast g4
  have g5 : t ≤ k := by exact_mod_cast g5
  obtain ⟨c, hc, _, _⟩ := mkDiv_ok u k (by omega) hu.divisor
  have ft : mkDiv u t = .ok t := mkDiv_fixpoint u t hu.divisor h1 h2 hu.ratio1
  have fn : mkDiv u u.n = .ok (u.n : Int) := mkDiv_fixpoint u u.n hu.divisor hu.width hu.small hu.ratio1
  refine ⟨k, c, hk, g5, g4, hc, ?_, ?_, ?_⟩
  · exact mkDiv_mono u t k t c t0 g5 hu.divisor hu.ratio0 hu.least ft hc
  · exact mkDiv_mono u k u.n c u.n (by omega) g4 hu.divisor hu.ratio0 hu.least hc fn
  · rintro rfl
    rw [g1] at hk
    cases hk
    rw [ft] at hc
    cases hc
    rfl

theorem done_prune {freq times k : ℕ} (hf : 0 < freq) (hk : k < times) : done freq times (k * freq + 1) = k + 1 := by
  unfold done
  have : (k * freq + 1 + freq - 1) / freq = k + 1 := by
    rw [show k * freq + 1 + freq - 1 = freq + freq * k by rw [Nat.mul_comm]; omega, Nat.add_mul_div_left _ _ hf, Nat.div_self hf]
    omega
  rw [this]
  omega

theorem done_keep {freq times n : ℕ} (hf : 0 < freq) (h : ¬ ∃ k < times, n = k * freq) :
    done freq times (n + 1) = done freq times n := by
  unfold done
  have e1 : n = freq * (n / freq) + n % freq := (Nat.div_add_mod n freq).symm
  have hm := Nat.mod_lt n hf
  by_cases h0 : n % freq = 0
  · have hq : n = n / freq * freq := by rw [Nat.mul_comm]; omega
    have ht : times ≤ n / freq := by
      by_contra hc
      exact h ⟨n / freq, by omega, hq⟩
    have h1 : n / freq ≤ (n + freq - 1) / freq := Nat.div_le_div_right (by omega)
    have h2 : n / freq ≤ (n + 1 + freq - 1) / freq := Nat.div_le_div_right (by omega)
    omega
  · have a1 : (n + 1 + freq - 1) / freq = n / freq + 1 := by
      rw [show n + 1 + freq - 1 = n + freq by omega, Nat.add_div_right _ hf]
    have a2 : (n + freq - 1) / freq = n / freq + 1 := by
      apply Nat.div_eq_of_lt_le
      · rw [Nat.mul_comm, Nat.mul_add]
        omega
      · rw [Nat.mul_comm, Nat.mul_add, Nat.mul_add]
        omega
    rw [a1, a2]

theorem done_pos {freq times n : ℕ} (hf : 0 < freq) (ht : 0 < times) (hn : 0 < n) : 0 < done freq times n := by
  unfold done
  have : 0 < (n + freq - 1) / freq := Nat.div_pos (by omega) hf
  omega

/-- What every unit of the plan is set to. -/
theorem run_ok (A : Arith) {us : List LUnit} {m : Manager} (hp : Planned us m) {w : ℕ → String → List Out}
    (hw : Weighted us w) (masks : String → List Bool) : ∀ n, ∃ masks', train A double us m w masks n = .ok masks' ∧
      (∀ nm, nm ∉ m.target.map (·.1) → masks' nm = masks nm) ∧ (n = 0 → masks' = masks) ∧
      (0 < n → ∀ e ∈ m.target, ∀ u ∈ us, u.name = e.1 → ∀ t : Int, e.2 = .int t →
        ∃ k : Int, m.value double (done m.freq m.times n) (.int t) (.int u.cfg.n) = .int k ∧
          setChoice A u.cfg (w ((done m.freq m.times n - 1) * m.freq) e.1) (.num k) = .ok (masks' e.1))
  | 0 => ⟨masks, rfl, fun _ _ => rfl, fun _ => rfl, fun h => by omega⟩
  | n + 1 => by
    obtain ⟨ms, h1, h2, h3, h4⟩ := run_ok A hp hw masks n
    have htimes := (C34_times m hp.freq).1 n
    by_cases hprune : ∃ k < m.times, n = k * m.freq
    · have hb := htimes.2 hprune
      obtain ⟨q, hq, rfl⟩ := hprune
      have hsup : ∀ e ∈ m.target, ∃ u ∈ us, u.name = e.1 ∧ lookup m.supernet e.1 = .ok (.int u.cfg.n) := by
        intro e he
        obtain ⟨u, hu, hn, _, _, hl, _⟩ := hp.target e he
        exact ⟨u, hu, hn, hl⟩
      let f : String → Num := fun nm => match us.find? (·.name = nm) with
        | some u => .int u.cfg.n
        | none => .int 0
      have hf : ∀ u ∈ us, f u.name = .int u.cfg.n := by
        intro u hu
        show (match us.find? (·.name = u.name) with
          | some u => Num.int u.cfg.n
          | none => .int 0) = _
        rw [find_unit hp.names hu]
      have hat : m.pruneAt double (q * m.freq) = .ok (m.target.map fun e => (e.1, m.value double (q + 1) e.2 (f e.1))) := by
        unfold Manager.pruneAt
        rw [if_neg (by have := hp.freq; omega), Nat.mul_div_cancel _ hp.freq, if_neg (by omega)]
        apply mapM_value_eq
        intro e he
        obtain ⟨u, hu, hn, hl⟩ := hsup e he
        rw [hl, ← hn, hf u hu]
      obtain ⟨ms', g1, g2, g3⟩ := setAll_ok A hp.names (w (q * m.freq))
        (fun nm mk => ∀ e ∈ m.target, e.1 = nm → ∀ u ∈ us, u.name = e.1 → ∀ t : Int, e.2 = .int t →
          ∃ k : Int, m.value double (q + 1) (.int t) (.int u.cfg.n) = .int k ∧
            setChoice A u.cfg (w (q * m.freq) e.1) (.num k) = .ok mk)
        (m.target.map fun e => (e.1, m.value double (q + 1) e.2 (f e.1))) ms
        (by rw [List.map_map]; exact hp.keys) (by
          intro x hx
          obtain ⟨e, he, rfl⟩ := List.mem_map.1 hx
          obtain ⟨u, hu, hn, hal, hb52, _, t, ht, d1, d2, d3⟩ := hp.target e he
          obtain ⟨k, c, v1, v2, v3, v4, v5, v6, _⟩ := planned_count m u.cfg hal hb52 hp.times d1 d2 d3 A
            (show q + 1 ≤ m.times by omega)
          have c0 : 0 ≤ c := by
            have := hal.divisor
            unfold effMin at d2
            omega
          obtain ⟨cn, rfl⟩ := Int.eq_ofNat_of_zero_le c0
          have hwt := hw (q * m.freq) u hu
          rw [hn] at hwt
          obtain ⟨mk, s1, _⟩ := C111_set_partial A u.cfg (w (q * m.freq) e.1) hwt.1 hwt.2 (.num k) v4 (by exact_mod_cast v6)
          refine ⟨u, hu, hn, mk, ?_, ?_⟩
          · dsimp only
            rw [ht, ← hn, hf u hu, v1, hn]
            exact s1
          · intro e' he' hee u' hu' hun t' ht'
            have : e' = e := List.inj_on_of_nodup_map hp.keys he' he hee
            subst this
            have : u' = u := List.inj_on_of_nodup_map hp.names hu' hu (by rw [hun, hn])
            subst this
            rw [ht] at ht'
            cases ht'
            exact ⟨k, v1, s1⟩)
      refine ⟨ms', ?_, ?_, fun h => by omega, fun _ => ?_⟩
      · unfold train
        rw [h1]
        dsimp only
        unfold step
        rw [hb]
        dsimp only
        rw [hat]
        exact g1
      · intro nm hnm
        rw [g3 nm (by rw [List.map_map]; exact hnm), h2 nm hnm]
      · intro e he u hu hn t ht
        rw [done_prune hp.freq hq]
        exact g2 (e.1, m.value double (q + 1) e.2 (f e.1)) (List.mem_map.2 ⟨e, he, rfl⟩) e he rfl u hu hn t ht
    · have hb : m.isPruneTime n = .ok false := by
        have hnot := mt htimes.1 hprune
        unfold Manager.isPruneTime at hnot ⊢
        rw [if_neg (by have := hp.freq; omega)] at hnot ⊢
        congr 1
        by_contra hc
        exact hnot (by rw [Bool.not_eq_false] at hc; rw [hc])
      have hn0 : 0 < n := by
        by_contra hc
        exact hprune ⟨0, hp.times, by omega⟩
      refine ⟨ms, ?_, h2, fun h => by omega, fun _ => ?_⟩
      · unfold train
        rw [h1]
        dsimp only
        unfold step
        rw [hb]
      · rw [done_keep hp.freq hprune]
        exact h4 hn0

theorem exPlanned : Planned exUnits exManager := by
  refine ⟨by decide, by decide, by decide, by decide, ?_⟩
  intro e he
  rw [exManager, List.mem_singleton] at he
  subst he
  refine ⟨exUnits[0]'(by decide), List.getElem_mem _, rfl, ⟨rfl, by decide, ?_, ?_, by decide, by decide, by decide⟩, by decide, rfl,
    2, rfl, by decide, by decide, by decide⟩
  · show (0 : ℚ) ≤ 9 / 10
    norm_num
  · show (9 / 10 : ℚ) ≤ 1
    norm_num

end Verif.L1Train
