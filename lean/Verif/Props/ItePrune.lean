import Verif.Lemmas.ItePrune

namespace Verif.ItePrune
open Verif

/-- Pruning takes place at iterations 0, `freq`, …, exactly `times` times. -/
theorem C34_times (m : Manager) (hf : 0 < m.freq) :
    (∀ it, m.isPruneTime it = .ok true ↔ ∃ k < m.times, it = k * m.freq) ∧
    ∀ N, (m.times - 1) * m.freq < N →
      (List.range N).filter (fun it => m.isPruneTime it = .ok true) = (List.range m.times).map (· * m.freq) := by
  have h1 : ∀ it, m.isPruneTime it = .ok true ↔ ∃ k < m.times, it = k * m.freq := by
    intro it
    simp only [Manager.isPruneTime, hf.ne', if_false, Except.ok.injEq, Bool.and_eq_true, beq_iff_eq, decide_eq_true_eq]
    constructor
    · rintro ⟨a, b⟩
      exact ⟨it / m.freq, b, (Nat.div_mul_cancel (Nat.dvd_of_mod_eq_zero a)).symm⟩
    · rintro ⟨k, hk, rfl⟩
      exact ⟨Nat.mul_mod_left _ _, by rwa [Nat.mul_div_cancel _ hf]⟩
  refine ⟨h1, ?_⟩
  intro N hN
  have hs1 : ((List.range N).filter (fun it => m.isPruneTime it = .ok true)).Pairwise (· < ·) :=
    List.Pairwise.filter _ List.pairwise_lt_range
  have hs2 : ((List.range m.times).map (· * m.freq)).Pairwise (· < ·) := by
    rw [List.pairwise_map]
    exact List.pairwise_lt_range.imp (fun h => Nat.mul_lt_mul_of_pos_right h hf)
  apply List.Perm.eq_of_pairwise (le := (· < ·)) ?_ hs1 hs2
  · rw [List.perm_ext_iff_of_nodup (hs1.imp (fun h => ne_of_lt h)) (hs2.imp (fun h => ne_of_lt h))]
    intro a
    simp only [List.mem_filter, List.mem_range, decide_eq_true_eq, h1, List.mem_map]
    constructor
    · rintro ⟨_, k, hk, rfl⟩
      exact ⟨k, hk, rfl⟩
    · rintro ⟨k, hk, rfl⟩
      refine ⟨?_, k, hk, rfl⟩
      have : k * m.freq ≤ (m.times - 1) * m.freq := Nat.mul_le_mul_right _ (by omega)
      omega
  · intro a b _ _ h h'
    omega

/-- After the last pruning the value is the target (exact arithmetic, start and target of
the same kind). Missing: floating point and targets of another kind, see `C34_target_violated` and `C34_kinds_violated`. -/
theorem C34_target_partial (m : Manager) (t s : Num) (h : Same s t) (ht : 0 < m.times) :
    m.value id m.times t s = t := by
  have hr : ((m.times : ℚ) / m.times) = 1 := by
    have : (m.times : ℚ) ≠ 0 := by exact_mod_cast ht.ne'
    field_simp
  cases s <;> cases t <;> simp only [Same] at h
  · rename_i a b
    simp only [Manager.value, id, Num.val, hr]
    split
    · simp only [mul_one, sub_add_cancel]
      simp [pyInt]
    · simp [pyInt]
  · simp only [Manager.value, id, Num.val, hr]
    split
    · simp
    · rfl

/-- Before: from one pruning to the next each value moves towards the target and never
past it. -/
theorem C34_monotone (m : Manager) (t s : Num) (h : Same s t) (ht : 0 < m.times) (k k' : Nat) (hk : k ≤ k') (hk' : k' ≤ m.times) :
    (t.val ≤ s.val → t.val ≤ (m.value id k' t s).val ∧ (m.value id k' t s).val ≤ (m.value id k t s).val ∧
      (m.value id k t s).val ≤ s.val) ∧
    (s.val ≤ t.val → s.val ≤ (m.value id k t s).val ∧ (m.value id k t s).val ≤ (m.value id k' t s).val ∧
      (m.value id k' t s).val ≤ t.val) := by
  obtain ⟨r0, r1, r2⟩ := ratio_mono m k k' hk hk' ht
  set a := (k : ℚ) / m.times with ha
  set b := (k' : ℚ) / m.times with hb
  cases hl : m.linear with
  | false =>
    cases s <;> cases t <;> simp only [Same] at h
    · simp [Manager.value, hl, Num.val, pyInt_int]
    · simp [Manager.value, hl, Num.val]
  | true =>
    cases s <;> cases t <;> simp only [Same] at h
    · rename_i x y
      obtain ⟨hx, hy⟩ := h
      have hx' : (0 : ℚ) ≤ x := by exact_mod_cast hx
      have hy' : (0 : ℚ) ≤ y := by exact_mod_cast hy
      simp only [Manager.value, hl, id, Num.val, if_true, ← ha, ← hb]
      constructor
      · intro hyx
        have e1 : (y : ℚ) ≤ (y - x) * b + x := by nlinarith
        have e2 : ((y : ℚ) - x) * b + x ≤ (y - x) * a + x := by nlinarith
        have e3 : ((y : ℚ) - x) * a + x ≤ x := by nlinarith
        refine ⟨?_, ?_, ?_⟩
        · have := pyInt_mono hy' e1; rw [pyInt_int] at this; exact_mod_cast this
        · have := pyInt_mono (le_trans hy' e1) e2; exact_mod_cast this
        · have := pyInt_mono (le_trans (le_trans hy' e1) e2) e3; rw [pyInt_int] at this; exact_mod_cast this
      · intro hxy
        have e1 : (x : ℚ) ≤ (y - x) * a + x := by nlinarith
        have e2 : ((y : ℚ) - x) * a + x ≤ (y - x) * b + x := by nlinarith
        have e3 : ((y : ℚ) - x) * b + x ≤ y := by nlinarith
        refine ⟨?_, ?_, ?_⟩
        · have := pyInt_mono hx' e1; rw [pyInt_int] at this; exact_mod_cast this
        · have := pyInt_mono (le_trans hx' e1) e2; exact_mod_cast this
        · have := pyInt_mono (le_trans (le_trans hx' e1) e2) e3; rw [pyInt_int] at this; exact_mod_cast this
    · rename_i x y
      simp only [Manager.value, hl, id, Num.val, if_true, ← ha, ← hb]
      constructor
      · intro hyx
        exact ⟨by nlinarith, by nlinarith, by nlinarith⟩
      · intro hxy
        exact ⟨by nlinarith, by nlinarith, by nlinarith⟩

/-- In double precision as well, for units that count channels (below `2 ^ 52` of them): every value
moves towards the target, never past it, and the last one is the target. -/
theorem C34_double_counts (m : Manager) (x y : Int) (hx : 0 ≤ x) (hy : 0 ≤ y) (hx' : x < 2 ^ 52) (hy' : y < 2 ^ 52)
    (ht : 0 < m.times) (k k' : Nat) (hk : k ≤ k') (hk' : k' ≤ m.times) :
    m.value double m.times (.int y) (.int x) = .int y ∧
    (y ≤ x → (y : ℚ) ≤ (m.value double k' (.int y) (.int x)).val ∧
      (m.value double k' (.int y) (.int x)).val ≤ (m.value double k (.int y) (.int x)).val ∧
      (m.value double k (.int y) (.int x)).val ≤ x) ∧
    (x ≤ y → (x : ℚ) ≤ (m.value double k (.int y) (.int x)).val ∧
      (m.value double k (.int y) (.int x)).val ≤ (m.value double k' (.int y) (.int x)).val ∧
      (m.value double k' (.int y) (.int x)).val ≤ y) := by
  obtain ⟨r0, r1, r2⟩ := ratio_mono m k k' hk hk' ht
  cases hl : m.linear with
  | false => simp [Manager.value, hl, Num.val, pyInt_int]
  | true =>
    have d1 : double ((y : ℚ) - x) = y - x := by
      have := double_int (y - x) (by rw [abs_lt]; omega)
      push_cast at this
      exact this
    have dx : double (x : ℚ) = x := double_int x (by rw [abs_lt]; omega)
    have dy : double (y : ℚ) = y := double_int y (by rw [abs_lt]; omega)
    have z0 : double 0 = 0 := by simpa using double_int 0 (by norm_num)
    have z1 : double 1 = 1 := by simpa using double_int 1 (by norm_num)
    have s0 : 0 ≤ double ((k : ℚ) / m.times) := by have := double_mono r0; rwa [z0] at this
    have s1 := double_mono r1
    have s2 : double ((k' : ℚ) / m.times) ≤ 1 := by have := double_mono r2; rwa [z1] at this
    have one : double ((m.times : ℚ) / m.times) = 1 := by
      have : (m.times : ℚ) ≠ 0 := by exact_mod_cast ht.ne'
      rw [div_self this, z1]
    set a := double ((k : ℚ) / m.times) with ha
    set b := double ((k' : ℚ) / m.times) with hb
    have hx0 : (0 : ℚ) ≤ x := by exact_mod_cast hx
    have hy0 : (0 : ℚ) ≤ y := by exact_mod_cast hy
    simp only [Manager.value, hl, Num.val, if_true, d1, ← ha, ← hb, one]
    refine ⟨?_, ?_, ?_⟩
    · rw [mul_one, d1, sub_add_cancel, dy, pyInt_int]
    · intro hyx
      have hyx' : (y : ℚ) ≤ x := by exact_mod_cast hyx
      have f1 : (y : ℚ) - x ≤ double (((y : ℚ) - x) * b) := by
        rw [← d1]
        apply double_mono
        rw [d1]
        nlinarith
      have f2 : double (((y : ℚ) - x) * b) ≤ double (((y : ℚ) - x) * a) := double_mono (by nlinarith)
      have f3 : double (((y : ℚ) - x) * a) ≤ 0 := by
        rw [← z0]
        apply double_mono
        nlinarith
      have g1 : (y : ℚ) ≤ double (double (((y : ℚ) - x) * b) + x) := by
        rw [← dy]
        apply double_mono
        rw [dy]
        linarith
      have g2 : double (double (((y : ℚ) - x) * b) + x) ≤ double (double (((y : ℚ) - x) * a) + x) := double_mono (by linarith)
      have g3 : double (double (((y : ℚ) - x) * a) + x) ≤ x := by
        rw [← dx]
        apply double_mono
        rw [dx]
        linarith
      refine ⟨?_, ?_, ?_⟩
      · have := pyInt_mono hy0 g1; rw [pyInt_int] at this; exact_mod_cast this
      · have := pyInt_mono (le_trans hy0 g1) g2; exact_mod_cast this
      · have := pyInt_mono (le_trans (le_trans hy0 g1) g2) g3; rw [pyInt_int] at this; exact_mod_cast this
    · intro hxy
      have hxy' : (x : ℚ) ≤ y := by exact_mod_cast hxy
      have f1 : 0 ≤ double (((y : ℚ) - x) * a) := by
        rw [← z0]
        apply double_mono
        nlinarith
      have f2 : double (((y : ℚ) - x) * a) ≤ double (((y : ℚ) - x) * b) := double_mono (by nlinarith)
      have f3 : double (((y : ℚ) - x) * b) ≤ y - x := by
        rw [← d1]
        apply double_mono
        rw [d1]
        nlinarith
      have g1 : (x : ℚ) ≤ double (double (((y : ℚ) - x) * a) + x) := by
        rw [← dx]
        apply double_mono
        rw [dx]
        linarith
      have g2 : double (double (((y : ℚ) - x) * a) + x) ≤ double (double (((y : ℚ) - x) * b) + x) := double_mono (by linarith)
      have g3 : double (double (((y : ℚ) - x) * b) + x) ≤ y := by
        rw [← dy]
        apply double_mono
        rw [dy]
        linarith
      refine ⟨?_, ?_, ?_⟩
      · have := pyInt_mono hx0 g1; rw [pyInt_int] at this; exact_mod_cast this
      · have := pyInt_mono (le_trans hx0 g1) g2; exact_mod_cast this
      · have := pyInt_mono (le_trans (le_trans hx0 g1) g2) g3; rw [pyInt_int] at this; exact_mod_cast this

example : Manager.value double ⟨[], [], 10, 7, true⟩ 3 (.int 20) (.int 64) = .int 45 ∧
    Manager.value double ⟨[], [], 10, 7, true⟩ 7 (.int 20) (.int 64) = .int 20 := by decide +kernel

/-- In double precision the last value need not be the target: from 1.0 to 0.1 it is the
double next to 0.1 that is two ten-quadrillionths below, and of 20 channels only 1 is
kept instead of 2. -/
theorem C34_target_violated :
    let m : Manager := ⟨[("u", .float (fl64 (1 / 10)))], [("u", .float 1)], 1, 1, true⟩
    m.value double 1 (.float (fl64 (1 / 10))) (.float 1) ≠ .float (fl64 (1 / 10)) ∧
    (pyInt (fl64 (20 * fl64 (1 / 10))) = 2) ∧
    (pyInt (fl64 (20 * (m.value double 1 (.float (fl64 (1 / 10))) (.float 1)).val)) = 1) := by
  refine ⟨?_, ?_, ?_⟩ <;> decide +kernel

/-- A ratio as target of a unit that counts channels truncates to no channel. -/
theorem C34_kinds_violated :
    (⟨[("u", .float (1 / 2))], [("u", .int 8)], 1, 1, true⟩ : Manager).value id 1 (.float (1 / 2)) (.int 8) = .int 0 := by decide +kernel

/-- The whole run: training without interruption from the start, for any number of
iterations, on any number of units; before iteration `n` every unit has the planned value
for the number of prunings that are due. -/
theorem C34_run (rnd : ℚ → ℚ) (a : Alg) (n : Nat) (hf : 0 < a.freq) (hm : a.mgr = none) (hn : (a.choices.map (·.1)).Nodup) :
    ∃ b, a.train rnd 0 n = .ok b ∧ b.choices = a.choices.map (planned rnd a.makeManager (done a.freq a.times n)) := by
  suffices H : ∀ (n it : Nat) (b : Alg), b.mgr.getD b.makeManager = a.makeManager →
      b.choices = a.choices.map (planned rnd a.makeManager (done a.freq a.times it)) →
      ∃ c, b.train rnd it n = .ok c ∧ c.choices = a.choices.map (planned rnd a.makeManager (done a.freq a.times (it + n))) by
    have h0 : done a.freq a.times 0 = 0 := by
      unfold done
      have : (0 + a.freq - 1) / a.freq = 0 := Nat.div_eq_of_lt (by omega)
      omega
    have := H n 0 a (by rw [hm]; rfl) (by
      rw [h0]
      conv_lhs => rw [← List.map_id a.choices]
      apply List.map_congr_left
      intro e _
      simp [planned])
    simpa using this
  intro n
  induction n with
  | zero => intro it b _ hb; exact ⟨b, rfl, by simpa using hb⟩
  | succ n ih =>
    intro it b hmg hb
    simp only [Alg.train]
    set m := a.makeManager with hmdef
    have hfreq : m.freq = a.freq := rfl
    have htimes : m.times = a.times := rfl
    have hprune := (C34_times m (by rw [hfreq]; exact hf)).1 it
    unfold Alg.step
    rw [hmg]
    dsimp only
    by_cases hp : m.isPruneTime it = .ok true
    · obtain ⟨k, hk, rfl⟩ := hprune.1 hp
      rw [hp]
      have hdiv : k * m.freq / m.freq = k := Nat.mul_div_cancel _ (by rw [hfreq]; exact hf)
      have hlk : ∀ e ∈ m.target, ∃ s, lookup m.supernet e.1 = .ok s := by
        intro e he
        have he' : e ∈ a.target.filter (fun e => a.choices.any (·.1 = e.1)) := he
        simp only [List.mem_filter, List.any_eq_true, decide_eq_true_eq] at he'
        obtain ⟨_, x, hx, hxe⟩ := he'
        refine ⟨x.2, ?_⟩
        rw [← hxe]
        exact lookup_mem a.choices hn x hx
      obtain ⟨cfg, hc1, hc2⟩ := mapM_value rnd m (k + 1) m.target hlk
      have hpa : m.pruneAt rnd (k * m.freq) = .ok cfg := by
        unfold Manager.pruneAt
        rw [if_neg (by rw [hfreq]; exact hf.ne'), hdiv, if_neg (by omega)]
        exact hc1
      simp only [bind, Except.bind, if_true, hpa, pure, Except.pure]
      have e2 : done a.freq a.times (k * m.freq + 1) = k + 1 := by
        unfold done
        rw [← hfreq]
        have : (k * m.freq + 1 + m.freq - 1) / m.freq = k + 1 := by
          have : k * m.freq + 1 + m.freq - 1 = (k + 1) * m.freq := by rw [Nat.add_mul]; omega
          rw [this, Nat.mul_div_cancel _ (by rw [hfreq]; exact hf)]
        rw [this]
        rw [htimes] at hk
        omega
      have key := ih (k * m.freq + 1) { b with mgr := some m, choices := setChoices b.choices cfg } rfl (by
        rw [e2]
        change setChoices b.choices cfg = _
        rw [hb, setChoices, List.map_map]
        apply List.map_congr_left
        intro e he
        simp only [Function.comp, planned_name]
        rw [hc2]
        have hls : lookup m.supernet e.1 = .ok e.2 := lookup_mem a.choices hn e he
        unfold planned
        cases hft : m.target.find? (·.1 = e.1) with
        | none => simp [hft]
        | some t =>
          have hte : t.1 = e.1 := by simpa using List.find?_some hft
          simp [hte, hls])
      obtain ⟨c, c1, c2⟩ := key
      refine ⟨c, c1, ?_⟩
      rw [c2]
      congr 3
      omega
    · have hp' : m.isPruneTime it = .ok false := by
        unfold Manager.isPruneTime at hp ⊢
        rw [if_neg (by rw [hfreq]; exact hf.ne')] at hp ⊢
        simp only [Except.ok.injEq, Bool.not_eq_true] at hp ⊢
        exact hp
      rw [hp']
      simp only [bind, Except.bind, Bool.false_eq_true, if_false, pure, Except.pure]
      have e2 : done a.freq a.times (it + 1) = done a.freq a.times it := by
        have hnot : ¬ ∃ k < m.times, it = k * m.freq := fun h => hp (hprune.2 h)
        unfold done
        rw [← hfreq, ← htimes]
        have hmpos : 0 < m.freq := by rw [hfreq]; exact hf
        by_cases hd : m.freq ∣ it
        · obtain ⟨q, hq⟩ := hd
          have hqt : m.times ≤ q := by
            by_contra hlt
            exact hnot ⟨q, by omega, by rw [hq, Nat.mul_comm]⟩
          have h1 : q ≤ (it + m.freq - 1) / m.freq := by
            rw [Nat.le_div_iff_mul_le hmpos, hq, Nat.mul_comm]; omega
          have h2 : q ≤ (it + 1 + m.freq - 1) / m.freq := by
            rw [Nat.le_div_iff_mul_le hmpos, hq, Nat.mul_comm]; omega
          omega
        · congr 1
          have h0 : 0 < it % m.freq := Nat.pos_of_ne_zero (fun h => hd (Nat.dvd_of_mod_eq_zero h))
          have hlt : it % m.freq < m.freq := Nat.mod_lt _ hmpos
          have hdm := Nat.div_add_mod it m.freq
          have hA : ∀ x, it / m.freq * m.freq + m.freq ≤ x → x < it / m.freq * m.freq + m.freq + m.freq → x / m.freq = it / m.freq + 1 := by
            intro x hx1 hx2
            rw [Nat.div_eq_iff hmpos]
            constructor
            · rw [Nat.add_mul]; omega
            · rw [Nat.add_mul]; omega
          have hcomm : m.freq * (it / m.freq) = it / m.freq * m.freq := Nat.mul_comm _ _
          rw [hA (it + 1 + m.freq - 1) (by omega) (by omega), hA (it + m.freq - 1) (by omega) (by omega)]
      obtain ⟨c, c1, c2⟩ := ih (it + 1) { b with mgr := some m } rfl (by rw [e2]; exact hb)
      refine ⟨c, c1, ?_⟩
      rw [c2]
      congr 3
      omega

/-- Resuming in the middle changes the plan: from 8 to 2 channels in three steps the plan
is 6, 4, 2; resumed after the first step it goes 6, 3, 2. -/
theorem C34_resume_violated :
    let a : Alg := ⟨[("u", .int 2)], 1, 3, true, none, [("u", .int 8)]⟩
    (a.train id 0 2).map (·.choices) = .ok [("u", .int 4)] ∧
    (a.train id 0 1 >>= fun b => b.resume.train id 1 1).map Alg.choices = .ok [("u", .int 3)] ∧
    (a.train id 0 1 >>= fun b => b.resume.train id 1 2).map Alg.choices = .ok [("u", .int 2)] := by
  refine ⟨?_, ?_, ?_⟩ <;> decide +kernel

/-- Without the linear schedule every pruning sets the target: resuming makes no
difference. Missing: the linear schedule, see `C34_resume_violated`. -/
theorem C34_resume_partial (m m' : Manager) (k k' : Nat) (t s s' : Num) (hl : m.linear = false) (hl' : m'.linear = false)
    (h : Same s t) (h' : Same s' t) : m.value id k t s = t ∧ m'.value id k' t s' = t := by
  constructor
  · cases s <;> cases t <;> simp only [Same] at h
    · simp [Manager.value, hl, Num.val, pyInt_int]
    · simp [Manager.value, hl]
  · cases s' <;> cases t <;> simp only [Same] at h'
    · simp [Manager.value, hl', Num.val, pyInt_int]
    · simp [Manager.value, hl']

/-- Asking for the structure outside of the plan is refused. -/
theorem C34_refused (rnd : ℚ → ℚ) (m : Manager) (it : Nat) (hf : 0 < m.freq) (h : m.times * m.freq ≤ it) : m.pruneAt rnd it = .error .assertion := by
  unfold Manager.pruneAt
  rw [if_neg hf.ne', if_pos]
  have := (Nat.le_div_iff_mul_le hf).2 h
  omega

example : Same (.int 8) (.int 2) ∧
    ((⟨[("u", .int 2)], 5, 3, true, none, [("u", .int 8), ("v", .int 4)]⟩ : Alg).train id 0 7).map (·.choices) =
      .ok [("u", .int 4), ("v", .int 4)] ∧ done 5 3 7 = 2 := by
  refine ⟨by simp [Same], by decide +kernel, by decide⟩

/-- With a step of 0 iterations every question for the time of pruning and every pruning
is refused. -/
theorem C34_freq_zero (rnd : ℚ → ℚ) (m : Manager) (it : Nat) (h : m.freq = 0) :
    m.isPruneTime it = .error .zeroDivision ∧ m.pruneAt rnd it = .error .zeroDivision := by
  simp [Manager.isPruneTime, Manager.pruneAt, h]

example : (⟨[], [], 0, 1, true⟩ : Manager).isPruneTime 3 = .error .zeroDivision := (C34_freq_zero id _ 3 rfl).1

/-- A unit of the target structure that the supernet does not have is a `KeyError` at the first pruning. -/
theorem C34_unknown (rnd : ℚ → ℚ) (m : Manager) (it : Nat) (hf : m.freq ≠ 0) (ht : it / m.freq + 1 ≤ m.times) (e : String × Num)
    (rest : Choices) (hm : m.target = e :: rest) (hs : ∀ p ∈ m.supernet, p.1 ≠ e.1) : m.pruneAt rnd it = .error .key := by
  have h1 : lookup m.supernet e.1 = .error .key := by
    unfold lookup
    rw [List.find?_eq_none.2 (by simpa using hs)]
  rw [Manager.pruneAt, if_neg hf, if_neg (by omega), hm, List.mapM_cons, h1]
  rfl

example : Manager.pruneAt id ⟨[("a", .int 4)], [("b", .int 8)], 2, 3, true⟩ 1 = .error .key :=
  C34_unknown _ _ _ (by decide) (by decide) _ _ rfl (by decide)

end Verif.ItePrune
