import Verif.Lemmas.Derived

/-! C06: derived mutables stay consistent with their sources. -/

namespace Verif.Derived
open Verif SeqChannel MakeDivisible

/-- C06: for every state of the sources and every legal nesting of expansions,
divisions and concatenations, choice and mask can be read, and the choice is the
number of active channels of the mask. Missing: division by a `float`, see `C06_divide_float_violated`. -/
theorem C06_choice_is_popcount_partial (σ : Store) (e : Expr) (h : Legal σ e) :
    ∃ c m, evalChoice σ e = .ok c ∧ evalMask σ e = .ok m ∧ (popcount m : Int) = c := by
  induction e with
  | chan i => exact ⟨_, _, rfl, rfl, rfl⟩
  | expandInt e r ih =>
    obtain ⟨c, m, hc, hm, hp⟩ := ih h.1
    have hle := popcount_le m
    have hlen : c * r ≤ m.length * r := Int.mul_le_mul_of_nonneg_right (by omega) h.2
    obtain ⟨m', h1, h2⟩ := zerosPrefix_ok (m.length * r) (c * r)
      (Int.mul_nonneg (by omega) h.2) hlen
    exact ⟨c * r, m', by simp [evalChoice, hc, Except.map], by simp [evalMask, hc, hm, h1], h2⟩
  | expandFloat e q ih =>
    obtain ⟨c, m, hc, hm, hp⟩ := ih h.1
    have hle := popcount_le m
    have hc0 : (0 : ℚ) ≤ c := by rw [← hp]; positivity
    have hcm : (c : ℚ) ≤ m.length := by rw [← hp]; exact_mod_cast hle
    have hq := h.2
    obtain ⟨m', h1, h2⟩ := zerosPrefix_ok (pyInt (m.length * q)) (pyInt (c * q))
      (pyInt_nonneg (by positivity)) (pyInt_mono (by positivity) (by nlinarith))
    exact ⟨_, m', by simp [evalChoice, hc, Except.map], by simp [evalMask, hc, hm, h1], h2⟩
  | divide e ratio divC divM ih =>
    obtain ⟨he, hr, hd, rfl⟩ := h
    obtain ⟨c, m, hc, hm, hp⟩ := ih he
    have hle := popcount_le m
    obtain ⟨a, ha, ha0⟩ := divideAndDivise_ok c ratio divC (by omega) hr hd
    obtain ⟨b, hb, _⟩ := divideAndDivise_ok m.length ratio divC (by omega) hr hd
    have hab := divideAndDivise_mono c m.length ratio divC a b (by omega) (by omega) hr hd ha hb
    obtain ⟨m', h1, h2⟩ := zerosPrefix_ok b a (by omega) hab
    exact ⟨a, m', by simp [evalChoice, hc, ha], by simp [evalMask, hc, hm, ha, hb, h1], h2⟩
  | mulValue i v =>
    obtain ⟨h0, h1⟩ := h
    have hle := popcount_le (σ.chan i).mask
    have hle' : (popcount (σ.chan i).mask : ℚ) ≤ (σ.chan i).mask.length := by exact_mod_cast hle
    obtain ⟨m', h2, h3⟩ := zerosPrefix_ok
      (pyInt (((σ.chan i).mask.length : ℚ) * (σ.val v).max))
      (pyInt ((popcount (σ.chan i).mask : ℚ) * (σ.val v).cur))
      (pyInt_nonneg (by positivity))
      (pyInt_mono (by positivity) (mul_le_mul hle' h1 h0 (by positivity)))
    exact ⟨_, m', rfl, by simp only [evalMask]; exact h2, h3⟩
  | concat a b iha ihb =>
    obtain ⟨c, m, hc, hm, hp⟩ := iha h.1
    obtain ⟨c', m', hc', hm', hp'⟩ := ihb h.2
    refine ⟨c + c', m ++ m', by simp [evalChoice, hc, hc'], by simp [evalMask, hm, hm'], ?_⟩
    simp only [popcount, List.countP_append] at *
    push_cast
    omega

example : Legal exStore (.concat (.divide (.chan 0) 2 8 8) (.expandInt (.chan 1) 3)) ∧
    evalChoice exStore (.concat (.divide (.chan 0) 2 8 8) (.expandInt (.chan 1) 3)) = .ok 17 := by
  refine ⟨by simp [Legal], by decide +kernel⟩

/-- C06 violated: dividing by a `float` (or by a mutable ratio) rounds the choice
with divisor 1 and the mask with divisor 8; the choice says 6, the mask has 8
active channels. -/
theorem C06_divide_float_violated :
    evalChoice exStore (deriveDivide exStore (.chan 0) 8 (.float 2)) = .ok 6 ∧
    (evalMask exStore (deriveDivide exStore (.chan 0) 8 (.float 2))).map popcount = .ok 8 := by
  decide +kernel

/-- C06: the derivations with an integer ratio are legal, so the theorem above
covers them. -/
theorem C06_int_ratio_legal (σ σ₀ : Store) (e : Expr) (r divisor : Int) (he : Legal σ e)
    (hr : 1 ≤ r) (hd : 1 ≤ divisor) :
    Legal σ (deriveExpand σ₀ e (.int r)) ∧ Legal σ (deriveDivide σ₀ e divisor (.int r)) :=
  ⟨⟨he, by omega⟩, ⟨he, hr, hd, rfl⟩⟩

/-- C06: choice, mask and fixedness depend only on the current state of the traced
sources: any two histories that leave these sources in the same state give the
same values, so every source change is reflected and nothing else matters. -/
theorem C06_depends_on_sources (σ τ : Store) (e : Expr) (h : ∀ s ∈ sources e, Agree σ τ s) :
    evalChoice σ e = evalChoice τ e ∧ evalMask σ e = evalMask τ e ∧ isFixed σ e = isFixed τ e := by
  induction e with
  | chan i =>
    have := h (.chan i) (by simp [sources]); simp only [Agree] at this
    simp [evalChoice, evalMask, isFixed, sources, srcFixed, this]
  | expandInt e r ih => obtain ⟨a, b, c⟩ := ih h; exact ⟨by simp [evalChoice, a], by simp [evalMask, a, b], c⟩
  | expandFloat e r ih => obtain ⟨a, b, c⟩ := ih h; exact ⟨by simp [evalChoice, a], by simp [evalMask, a, b], c⟩
  | divide e _ _ _ ih => obtain ⟨a, b, c⟩ := ih h; exact ⟨by simp [evalChoice, a], by simp [evalMask, a, b], c⟩
  | mulValue i v =>
    have h1 := h (.chan i) (by simp [sources]); simp only [Agree] at h1
    have h2 := h (.val v) (by simp [sources]); simp only [Agree] at h2
    simp [evalChoice, evalMask, isFixed, sources, srcFixed, h1, h2]
  | concat a b iha ihb =>
    obtain ⟨a1, a2, a3⟩ := iha (fun s hs => h s (by simp [sources, hs]))
    obtain ⟨b1, b2, b3⟩ := ihb (fun s hs => h s (by simp [sources, hs]))
    refine ⟨by simp [evalChoice, a1, b1], by simp [evalMask, a2, b2], ?_⟩
    simp only [isFixed, sources, List.all_append] at *
    rw [a3, b3]

/-- C06: fixed exactly when all sources are fixed. -/
theorem C06_fixed_iff (σ : Store) (e : Expr) :
    isFixed σ e = true ↔ ∀ s ∈ sources e, srcFixed σ s = true := by
  simp [isFixed, List.all_eq_true]

/-- C06: multiplying a channel by a value mutable follows later changes of the
value (here from 2 to 4) ... -/
theorem C06_mul_value_tracks (σ : Store) (i v : Nat) (q : ℚ) :
    evalChoice { σ with val := fun j => if j = v then { σ.val v with cur := q } else σ.val j }
      (.mulValue i v) = .ok (pyInt ((popcount (σ.chan i).mask : ℚ) * q)) := by
  simp [evalChoice]

/-- C06 violated: ... but deriving an expansion or a division from a mutable ratio
takes a snapshot: after the ratio changes from 2 to 4 the derived choice is
still computed with 2, and the ratio is not even recorded as a source. -/
theorem C06_snapshot_stale_violated :
    let σ' : Store := { exStore with val := fun _ => ⟨4, 4, false⟩ }
    evalChoice σ' (deriveExpand exStore (.chan 1) (.mutable 0)) = .ok 6 ∧
    evalChoice σ' (.mulValue 1 0) = .ok 12 ∧
    sources (deriveExpand exStore (.chan 1) (.mutable 0)) = [.chan 1] ∧
    evalChoice σ' (deriveDivide exStore (.chan 0) 1 (.mutable 0)) = .ok 6 := by
  decide +kernel

/-! ### `choices` -/

/-- C06: listing the choices of a derived mutable, which sets the sources to every
combination in turn, leaves every source at its original value. -/
theorem C06_choices_restores {α β : Type} (f : (Nat → α) → β) (ids : List Nat)
    (cands : Nat → List α) (σ : Nat → α) : (choices f ids cands σ).2 = σ := by
  funext j
  simp only [choices]
  rw [setAll_restore]
  split
  · rfl
  · rename_i h; exact choicesLoop_other f ids _ σ j h

/-- C06: the current choice of a derived mutable is among its listed choices
whenever every source holds one of its candidates. -/
theorem C06_current_in_choices {α β : Type} (f : (Nat → α) → β) (ids : List Nat)
    (cands : Nat → List α) (σ : Nat → α) (h : ∀ i ∈ ids, σ i ∈ cands i) :
    f σ ∈ (choices f ids cands σ).1 :=
  mem_choicesLoop f ids σ _ σ (fun _ _ => rfl) (mem_product σ cands ids h)

example : (choices (fun σ : Nat → Nat => σ 0 * σ 1) [0, 1] (fun i => if i = 0 then [1, 2] else [3, 4])
    (fun i => if i = 0 then 2 else 3)).1 = [3, 4, 6, 8] := by decide

/-- C06: dividing by a float or by a mutable uses the whole part of the ratio and does not round to
the divisor: the choice is the quotient, at least 1. -/
theorem C06_divide_choice (σ σ₀ : Store) (e : Expr) (d c : Int) (h : evalChoice σ e = .ok c) (hc : 0 ≤ c) :
    (∀ q : ℚ, 1 ≤ pyInt q → evalChoice σ (deriveDivide σ₀ e d (.float q)) = .ok (max 1 (c / pyInt q))) ∧
    (∀ v, 1 ≤ pyInt (σ₀.val v).cur → evalChoice σ (deriveDivide σ₀ e d (.mutable v)) = .ok (max 1 (c / pyInt (σ₀.val v).cur))) := by
  constructor
  · intro q hq
    simp only [deriveDivide, evalChoice, h]
    exact divideAndDivise_one c _ hc hq
  · intro v hq
    simp only [deriveDivide, evalChoice, h]
    exact divideAndDivise_one c _ hc hq

/-- A mask of negative size is a `RuntimeError`, and nothing else fails. -/
theorem C06_negative_size (size choice : Int) (e : Err) : zerosPrefix size choice = .error e ↔ size < 0 ∧ e = .runtime := by
  unfold zerosPrefix
  by_cases h : size < 0 <;> simp [h, eq_comm]

example : zerosPrefix (-1) 0 = .error .runtime := (C06_negative_size _ _ _).2 ⟨by decide, rfl⟩

end Verif.Derived
