import Verif.Spec.Calibration

/-! Helper lemmas for `Verif/Props/Calibration.lean`. -/

namespace Verif.Calibration
open Verif

theorem gram_eq (l : List (List Vec)) (a b : Nat) : gram l a b = 2 * moment l.flatten a b := rfl

theorem moment_append (l k : List Vec) (a b : Nat) : moment (l ++ k) a b = moment l a b + moment k a b := by
  simp [moment]

theorem update_ok (s : St) (x : Input) (hx : x ≠ .other) :
    update s x = .ok (s.merge (fun a b => 2 * moment (allRows x) a b) (counted x)) := by
  cases x with
  | rows l =>
    have : gram [l] = fun a b => 2 * moment l a b := by funext a b; simp [gram, moment]
    simp [update, format, allRows, counted, this, bind, Except.bind, pure, Except.pure]
  | seqs l => rfl
  | other => exact absurd rfl hx

theorem run_spec (xs : List Input) (hx : ∀ x ∈ xs, x ≠ Input.other) (hc : ∀ x ∈ xs, 0 < counted x) :
    ∀ (s : St) (h : Nat → Nat → ℚ), s.h = some h →
      ∃ s' h', run s xs = .ok s' ∧ s'.h = some h' ∧ s'.n = s.n + (xs.map counted).sum ∧
        ∀ a b, h' a b * s'.n = h a b * s.n + 2 * moment (xs.flatMap allRows) a b := by
  induction xs with
  | nil => intro s h hs; exact ⟨s, h, rfl, hs, by simp, by simp [moment]⟩
  | cons x xs ih =>
    intro s h hs
    have c0 := hc x (by simp)
    have hn : s.n + counted x ≠ 0 := by omega
    obtain ⟨s', h', r1, r2, r3, r4⟩ := ih (fun y hy => hx y (by simp [hy])) (fun y hy => hc y (by simp [hy]))
      (s.merge (fun a b => 2 * moment (allRows x) a b) (counted x))
      (fun a b => (h a b * s.n + 2 * moment (allRows x) a b) / ((s.n : ℚ) + counted x)) (by simp [St.merge, hn, hs]; omega)
    refine ⟨s', h', ?_, r2, ?_, ?_⟩
    · rw [run, update_ok s x (hx x (by simp))]
      exact r1
    · rw [r3]
      simp [St.merge]
      omega
    · intro a b
      rw [r4 a b, List.flatMap_cons, moment_append]
      have : ((s.n : ℚ) + counted x) ≠ 0 := by
        have : ((s.n + counted x : Nat) : ℚ) ≠ 0 := by exact_mod_cast hn
        simpa using this
      simp only [St.merge]
      push_cast
      field_simp
      ring

theorem sum_means (b : Batch) (m : Nat) (hm : 0 < m) (hb : ∀ s ∈ b, s.length = m) :
    mean b.flatten * b.length = (b.map mean).sum := by
  have hlen : b.flatten.length = m * b.length := by
    rw [List.length_flatten]
    have : b.map List.length = List.replicate b.length m := by
      rw [List.eq_replicate_iff]
      refine ⟨by simp, ?_⟩
      intro k hk
      obtain ⟨l, hl, rfl⟩ := List.mem_map.1 hk
      exact hb l hl
    rw [this, List.sum_replicate, smul_eq_mul, Nat.mul_comm]
  have hm' : (m : ℚ) ≠ 0 := by exact_mod_cast hm.ne'
  have hsum : (b.map mean).sum = b.flatten.sum / m := by
    have : ∀ c : Batch, (∀ s ∈ c, s.length = m) → (c.map mean).sum = c.flatten.sum / m := by
      intro c
      induction c with
      | nil => simp
      | cons s c ih =>
        intro h
        rw [List.map_cons, List.sum_cons, ih (fun t ht => h t (by simp [ht])), List.flatten_cons, List.sum_append, mean, h s (by simp)]
        ring
    exact this b hb
  rw [hsum, mean, hlen]
  cases b with
  | nil => simp
  | cons s b =>
    push_cast
    have : ((List.length b : ℚ) + 1) ≠ 0 := by positivity
    simp only [List.length_cons, Nat.cast_add, Nat.cast_one]
    field_simp

theorem calibrateMean_eq (bs : List Batch) : ∀ m : Meter,
    (∀ b ∈ bs, ∃ k, 0 < k ∧ ∀ s ∈ b, s.length = k) →
    bs.foldl (fun m b => m.update (mean b.flatten) b.length) m =
      ⟨m.sum + (bs.flatten.map mean).sum, m.count + bs.flatten.length⟩ := by
  induction bs with
  | nil => intro m _; simp
  | cons b bs ih =>
    intro m h
    obtain ⟨k, hk, hb⟩ := h b (by simp)
    rw [List.foldl_cons, ih _ (fun c hc => h c (by simp [hc]))]
    simp only [Meter.update, sum_means b k hk hb, List.flatten_cons, List.map_append, List.sum_append, List.length_append]
    congr 1 <;> ring

theorem sum_map_mul_sum (l m : List Nat) (f g : Nat → ℚ) :
    (l.map fun a => (m.map fun b => f a * g b).sum).sum = (l.map f).sum * (m.map g).sum := by
  induction l with
  | nil => simp
  | cons a l ih => rw [List.map_cons, List.sum_cons, ih, List.map_cons, List.sum_cons, add_mul, List.sum_map_mul_left]

theorem quadratic_add (k : Nat) (h h' : Nat → Nat → ℚ) (w : Nat → ℚ) :
    quadratic k (fun a b => h a b + h' a b) w = quadratic k h w + quadratic k h' w := by
  unfold quadratic
  rw [← List.sum_map_add]
  congr 1
  apply List.map_congr_left
  intro a _
  rw [← List.sum_map_add]
  congr 1
  apply List.map_congr_left
  intro b _
  ring

theorem quadratic_smul (k : Nat) (c : ℚ) (h : Nat → Nat → ℚ) (w : Nat → ℚ) :
    quadratic k (fun a b => c * h a b) w = c * quadratic k h w := by
  unfold quadratic
  rw [← List.sum_map_mul_left]
  congr 1
  apply List.map_congr_left
  intro a _
  rw [← List.sum_map_mul_left]
  congr 1
  apply List.map_congr_left
  intro b _
  ring

theorem quadratic_moment (k : Nat) (w : Nat → ℚ) (l : List Vec) :
    quadratic k (moment l) w = (l.map fun x => response k w x ^ 2).sum := by
  induction l with
  | nil => simp [quadratic, moment]
  | cons x l ih =>
    have : moment (x :: l) = fun a b => x a * x b + moment l a b := by
      funext a b; simp [moment]
    rw [this, quadratic_add, ih, List.map_cons, List.sum_cons]
    congr 1
    unfold quadratic response
    rw [sq, ← sum_map_mul_sum]
    congr 1
    apply List.map_congr_left
    intro a _
    congr 1
    apply List.map_congr_left
    intro b _
    ring

end Verif.Calibration
