import Verif.Lemmas.QParams

namespace Verif.QParams
open Verif

/-- The range for `b` bits: `2 ^ b` integers (one fewer for a symmetric signed range), zero
among them; a symmetric range is symmetric. -/
theorem C38_range (s : Scheme) (hb : 0 < s.bit) :
    s.range.2 - s.range.1 + 1 = (if s.signed && s.symRange then 2 ^ s.bit - 1 else 2 ^ s.bit) ∧
    s.range.1 ≤ 0 ∧ 0 ≤ s.range.2 ∧ (s.signed = true → s.symRange = true → s.range.1 = -s.range.2) := by
  obtain ⟨sg, b, sy⟩ := s
  obtain ⟨k, rfl⟩ : ∃ k, b = k + 1 := ⟨b - 1, by simp at hb; omega⟩
  have hp : (1 : Int) ≤ 2 ^ k := one_le_pow₀ (by norm_num)
  have hs : (2 : Int) ^ (k + 1) = 2 * 2 ^ k := by ring
  cases sg <;> cases sy <;> simp only [Scheme.range, Nat.add_sub_cancel, hs, if_true, Bool.false_eq_true, if_false, Bool.and_true, Bool.and_false] <;> refine ⟨?_, ?_, ?_, ?_⟩ <;> first | omega | (intros; omega) | (intro h1 h2; simp at h1 h2)

/-- Asking for a symmetric range has no effect on unsigned types: no error and no smaller
range. -/
theorem C38_unsigned_violated (b : Nat) : (⟨false, b, true⟩ : Scheme).range = (⟨false, b, false⟩ : Scheme).range := rfl

/-- Exactly the widths from one (two for a symmetric signed range) to eight bits are
accepted. -/
theorem C38_accepted (s : Scheme) (hb : 0 < s.bit) :
    s.accepted = .ok () ↔ s.bit ≤ 8 ∧ (s.signed = true → s.symRange = true → 2 ≤ s.bit) := by
  obtain ⟨sg, b, sy⟩ := s
  obtain ⟨k, rfl⟩ : ∃ k, b = k + 1 := ⟨b - 1, by simp at hb; omega⟩
  by_cases hk : k ≤ 7
  · have : k ∈ List.range 8 := List.mem_range.2 (by omega)
    have key : ∀ sg sy, ∀ k ∈ List.range 8, ((⟨sg, k + 1, sy⟩ : Scheme).accepted = .ok () ↔
      k + 1 ≤ 8 ∧ (sg = true → sy = true → 2 ≤ k + 1)) := by decide +kernel
    exact key sg sy k this
  · have hp : (256 : Int) ≤ 2 ^ k := by
      calc (256 : Int) = 2 ^ 8 := by norm_num
        _ ≤ 2 ^ k := pow_le_pow_right₀ (by norm_num) (by omega)
    have hs : (2 : Int) ^ (k + 1) = 2 * 2 ^ k := by ring
    constructor
    · intro h
      exfalso
      have hr : (if sg = true then (⟨sg, k + 1, sy⟩ : Scheme).range.1 < -128 ∨ 127 < (⟨sg, k + 1, sy⟩ : Scheme).range.2
          else (⟨sg, k + 1, sy⟩ : Scheme).range.1 < 0 ∨ 255 < (⟨sg, k + 1, sy⟩ : Scheme).range.2) := by
        cases sg
        · simp only [Scheme.range, Bool.false_eq_true, if_false, hs]; right; omega
        · simp only [Scheme.range, if_true, Nat.add_sub_cancel]; right; omega
      unfold Scheme.accepted at h
      dsimp only at h
      rw [if_pos hr] at h
      split at h <;> simp at h
    · rintro ⟨h, _⟩
      simp at h
      omega

/-- Whatever happened before — mode changes, forward passes, optimizer steps — the
parameters reported for deployment are legal: scale not below the bound, zero point an
integer of the range. -/
theorem C38_calculate (s : Scheme) (hb : 0 < s.bit) (eps root : ℚ) (he : 0 < eps) (zt : Bool) (ops : List Op)
    (hl : ∀ o ∈ ops, Legal (build s eps root zt) o) :
    let r := (ops.foldl Lsq.step (build s eps root zt)).calculate
    eps ≤ r.2.1 ∧ s.range.1 ≤ r.2.2 ∧ r.2.2 ≤ s.range.2 ∧ eps ≤ r.1.scale := by
  intro r
  obtain ⟨_, hc1, hc2, _⟩ := C38_range s hb
  obtain ⟨⟨i1, i2, _⟩, a, b, c, _⟩ := inv_run ops (build s eps root zt) ⟨he, le_trans hc1 hc2, fun _ => ⟨0, rfl, hc1, hc2⟩⟩ hl
  have ha : (ops.foldl Lsq.step (build s eps root zt)).lo = s.range.1 := a
  have hbb : (ops.foldl Lsq.step (build s eps root zt)).hi = s.range.2 := b
  have hcc : (ops.foldl Lsq.step (build s eps root zt)).eps = eps := c
  refine ⟨?_, ?_, ?_, ?_⟩
  · change eps ≤ max _ _
    rw [hcc]; exact le_max_right _ _
  · change s.range.1 ≤ clamp _ _ _
    rw [ha]; exact le_max_left _ _
  · change clamp _ _ _ ≤ s.range.2
    rw [ha, hbb]
    unfold clamp
    have := le_trans hc1 hc2
    omega
  · change eps ≤ max _ _
    rw [hcc]; exact le_max_right _ _

/-- A zero point that is not learned stays an integer of the range in the state itself. Missing: learned zero points, see
`C38_zero_violated`. -/
theorem C38_zero_partial (s : Scheme) (hb : 0 < s.bit) (eps root : ℚ) (he : 0 < eps) (ops : List Op)
    (hl : ∀ o ∈ ops, Legal (build s eps root false) o) :
    ∃ z : Int, (ops.foldl Lsq.step (build s eps root false)).zp = z ∧ s.range.1 ≤ z ∧ z ≤ s.range.2 := by
  obtain ⟨_, hc1, hc2, _⟩ := C38_range s hb
  obtain ⟨⟨_, _, i3⟩, a, b, _, e⟩ := inv_run ops (build s eps root false) ⟨he, le_trans hc1 hc2, fun _ => ⟨0, rfl, hc1, hc2⟩⟩ hl
  obtain ⟨z, h1, h2, h3⟩ := i3 e
  rw [a] at h2
  rw [b] at h3
  exact ⟨z, h1, h2, h3⟩

/-- A learned zero point is used in forward passes without being put back into the range
(the code only prints it), and exporting truncates it instead of rounding. -/
theorem C38_zero_violated :
    let q := [Op.mode .paramLearning, .optim (1 / 2) 300, .forward 0 0].foldl Lsq.step (build ⟨false, 8, false⟩ (1 / 1000) 16 true)
    q.zp = 300 ∧ q.hi = 255 ∧
    let p := [Op.mode .paramLearning, .optim (1 / 2) (37 / 10)].foldl Lsq.step (build ⟨false, 8, false⟩ (1 / 1000) 16 true)
    replace p = (1 / 2, 3) ∧ p.calculate.2 = (1 / 2, 4) := by
  refine ⟨by decide +kernel, by decide +kernel, by decide +kernel, by decide +kernel⟩

/-- After every forward pass with learned or fixed parameters the scale is not below the
bound. Missing: the scale while it is estimated, see `C38_scale_violated`. -/
theorem C38_scale_partial (q : Lsq) (n : ℚ) (z : Int) (hs : q.static = false) :
    q.eps ≤ (q.forward n z).scale := by
  simp [Lsq.forward, hs]

/-- While it is estimated it is twice the mean absolute value over the root of the largest
integer: legal only for inputs that are not too small; an input of zeros gives scale zero,
by which the same forward pass divides. -/
theorem C38_scale_violated (q : Lsq) (n : ℚ) (z : Int) (hs : q.static = true) :
    (q.forward n z).scale = 2 * n / q.root ∧ (0 < q.root → (q.eps ≤ (q.forward n z).scale ↔ q.eps * q.root ≤ 2 * n)) ∧
    (q.forward 0 z).scale = 0 := by
  refine ⟨by simp [Lsq.forward, hs, estimate], ?_, by simp [Lsq.forward, hs, estimate]⟩
  intro hr
  simp only [Lsq.forward, hs, estimate, if_true]
  rw [le_div_iff₀ hr]

/-- The modes: what each does to a forward pass and to learning. -/
theorem C38_modes (q : Lsq) (n : ℚ) (z : Int) (s w : ℚ) :
    ((q.setMode .val).optim s w = q.setMode .val) ∧
    ((q.setMode .val).forward n z).zp = q.zp ∧
    (q.eps ≤ q.scale → ((q.setMode .val).forward n z) = q.setMode .val) ∧
    ((q.setMode .paramLearning).optim s w).scale = s ∧
    ((q.setMode .staticEstimate).optim s w = q.setMode .staticEstimate) ∧
    ((q.setMode .staticEstimate).forward n z).zp = z ∧
    ((q.setMode .staticObservation).fq = false ∧ (q.setMode .val).fq = true ∧ (q.setMode .paramLearning).fq = true ∧
      (q.setMode .staticEstimate).fq = true) := by
  refine ⟨rfl, rfl, ?_, rfl, rfl, rfl, rfl, rfl, rfl, rfl⟩
  intro h
  simp [Lsq.setMode, Lsq.forward, h]

/-- Contrary to its description, the observation mode does change the parameters. -/
theorem C38_observation_violated (q : Lsq) (n : ℚ) (z : Int) :
    ((q.setMode .staticObservation).forward n z).scale = estimate n q.root ∧
    ((q.setMode .staticObservation).forward n z).zp = z := ⟨rfl, rfl⟩

example : (⟨true, 8, false⟩ : Scheme).range = (-128, 127) ∧ (⟨true, 4, true⟩ : Scheme).range = (-7, 7) ∧
    Legal (build ⟨false, 8, false⟩ (1 / 1000) 16 false) (.forward 3 128) := by
  refine ⟨by decide, by decide, ?_⟩
  norm_num [Legal, build, Scheme.range]

/-- C38: a newly built quantiser, before any mode is chosen, quantises with parameters taken
from the input, and the optimizer does not touch them. -/
theorem C38_built (sc : Scheme) (eps root : ℚ) (zt : Bool) (n s w : ℚ) (z : Int) :
    (build sc eps root zt).scale = 1 ∧ (build sc eps root zt).zp = 0 ∧ (build sc eps root zt).fq = true ∧
    ((build sc eps root zt).forward n z).scale = 2 * n / root ∧ ((build sc eps root zt).forward n z).zp = z ∧
    (build sc eps root zt).optim s w = build sc eps root zt := by
  refine ⟨rfl, rfl, rfl, rfl, rfl, rfl⟩

/-- C38: only the observation mode leaves the values as they are; only in the learning mode
does the optimizer change anything. -/
theorem C38_mode_switches (q : Lsq) (m : Mode) (s w : ℚ) :
    ((q.setMode m).fq = false ↔ m = .staticObservation) ∧
    (m ≠ .paramLearning → (q.setMode m).optim s w = q.setMode m) := by
  cases m <;> simp [Lsq.setMode, Lsq.optim]

/-- A refused width is refused with an assertion. -/
theorem C38_refused (s : Scheme) (e : Err) (h : s.accepted = .error e) : e = .assertion := by
  unfold Scheme.accepted at h
  dsimp only at h
  split at h
  · simp only [Except.error.injEq] at h; exact h.symm
  · have key : ∀ (q : Prop) [Decidable q], (if q then (.error .assertion : Except Err Unit) else .ok ()) = .error e → e = .assertion := by
      intro q _ hq
      split at hq
      · simp only [Except.error.injEq] at hq; exact hq.symm
      · simp at hq
    exact key _ h

example : (⟨true, 1, true⟩ : Scheme).accepted = .error .assertion ∧ (⟨true, 9, false⟩ : Scheme).accepted = .error .assertion := by
  decide +kernel

end Verif.QParams
