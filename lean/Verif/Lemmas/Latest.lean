import Verif.Spec.Latest

/-! Helper lemmas for `Verif/Props/Latest.lean`. -/

/-! C51: the latest checkpoint and the frames per second. -/
namespace Verif.Latest

theorem takeWhile_stop (c : Char) (a b : Name) (h : c ∉ a) :
    (a ++ c :: b).takeWhile (· != c) = a := by
  induction a with
  | nil => simp
  | cons x l ih =>
    simp only [List.mem_cons, not_or] at h
    simp [List.takeWhile_cons, ih h.2, Ne.symm h.1]

theorem lastPiece_stop (c : Char) (a b : Name) (h : c ∉ b) : lastPiece c (a ++ c :: b) = b := by
  have : (a ++ c :: b).reverse = b.reverse ++ c :: a.reverse := by simp
  rw [lastPiece, this, takeWhile_stop c _ _ (by simpa using h), List.reverse_reverse]

theorem parseInt_digits (s : Name) (h0 : s ≠ []) (h : ∀ c ∈ s, c.isDigit = true) :
    parseInt s = some ((Nat.ofDigitChars 10 s 0 : Nat) : Int) := by
  have hp : parseNat s = some (Nat.ofDigitChars 10 s 0) := by
    rw [parseNat, if_pos ⟨h0, by simpa using h⟩]
  cases s with
  | nil => exact absurd rfl h0
  | cons c l =>
    have hc := h c (by simp)
    unfold parseInt
    split
    · rename_i heq
      simp only [List.cons.injEq] at heq
      rw [heq.1] at hc
      exact absurd hc (by decide)
    · rename_i heq
      simp only [List.cons.injEq] at heq
      rw [heq.1] at hc
      exact absurd hc (by decide)
    · rw [hp]; rfl

theorem count_stepName (suffix pre : Name) (n : Nat) (hs : '_' ∉ suffix) :
    count (stepName suffix pre n) = .ok (n : Int) := by
  have h1 : '_' ∉ Nat.toDigits 10 n ++ '.' :: suffix := by
    simp only [List.mem_append, List.mem_cons, not_or]
    exact ⟨Nat.underscore_not_in_toDigits, by decide, hs⟩
  have hd : ∀ c ∈ Nat.toDigits 10 n, c.isDigit = true := fun c hc =>
    Nat.isDigit_of_mem_toDigits (by decide) (by decide) hc
  have h2 : '.' ∉ Nat.toDigits 10 n := fun h => absurd (hd _ h) (by decide)
  rw [count, stepName, lastPiece_stop _ _ _ h1, firstPiece, takeWhile_stop _ _ _ h2,
    parseInt_digits _ Nat.toDigits_ne_nil hd, Nat.ofDigitChars_toDigits (by decide) (by decide)]

theorem stepName_matches (suffix pre : Name) (n : Nat) :
    ('.' :: suffix).isSuffixOf (stepName suffix pre n) = true := by
  rw [List.isSuffixOf_iff_suffix]
  exact ⟨pre ++ '_' :: Nat.toDigits 10 n, by simp [stepName]⟩

theorem scan (l : List Name) (cnt : Name → Int) (hc : ∀ g ∈ l, count g = .ok (cnt g))
    (st : Int × Option Name) :
    ∃ st', l.foldlM look st = .ok st' ∧ st.1 ≤ st'.1 ∧ (∀ g ∈ l, cnt g ≤ st'.1) ∧
      (st' = st ∨ ∃ f ∈ l, st' = (cnt f, some f) ∧ st.1 < cnt f) := by
  induction l generalizing st with
  | nil => exact ⟨st, rfl, le_refl _, by simp, .inl rfl⟩
  | cons g l ih =>
    have hg := hc g (by simp)
    have hl : ∀ x ∈ l, count x = .ok (cnt x) := fun x hx => hc x (by simp [hx])
    by_cases h : cnt g > st.1
    · obtain ⟨st', e, h1, h2, h3⟩ := ih hl (cnt g, some g)
      refine ⟨st', ?_, by simp only at h1; omega, ?_, ?_⟩
      · simp [List.foldlM_cons, look, hg, bind, Except.bind, if_pos h, pure, Except.pure, e]
      · intro x hx
        rcases List.mem_cons.mp hx with e1 | e1
        · rw [e1]; exact h1
        · exact h2 x e1
      · rcases h3 with h3 | ⟨f, hf, h3, h4⟩
        · exact .inr ⟨g, by simp, h3, h⟩
        · exact .inr ⟨f, by simp [hf], h3, by simp only at h4; omega⟩
    · obtain ⟨st', e, h1, h2, h3⟩ := ih hl st
      refine ⟨st', ?_, h1, ?_, ?_⟩
      · simp [List.foldlM_cons, look, hg, bind, Except.bind, if_neg h, pure, Except.pure, e]
      · intro x hx
        rcases List.mem_cons.mp hx with e1 | e1
        · rw [e1]; omega
        · exact h2 x e1
      · rcases h3 with h3 | ⟨f, hf, h3, h4⟩
        · exact .inl h3
        · exact .inr ⟨f, by simp [hf], h3, h4⟩

theorem scan_error (l : List Name) (st : Int × Option Name)
    (h : ∃ g ∈ l, count g = .error .value) : l.foldlM look st = .error .value := by
  induction l generalizing st with
  | nil => simp at h
  | cons g l ih =>
    simp only [List.foldlM_cons, bind, Except.bind]
    cases hg : count g with
    | error e =>
      have : e = .value := by
        unfold count at hg
        split at hg
        · exact absurd hg (by simp)
        · exact (Except.error.inj hg).symm
      simp [look, hg, bind, Except.bind, this]
    | ok n =>
      have h' : ∃ g ∈ l, count g = .error .value := by
        obtain ⟨x, hx, hxe⟩ := h
        rcases List.mem_cons.mp hx with e1 | e1
        · rw [e1, hg] at hxe; exact absurd hxe (by simp)
        · exact ⟨x, e1, hxe⟩
      by_cases hn : n > st.1
      · simp [look, hg, bind, Except.bind, if_pos hn, pure, Except.pure, ih _ h']
      · simp [look, hg, bind, Except.bind, if_neg hn, pure, Except.pure, ih _ h']

theorem pdiv_ok (a b : ℚ) (h : 0 < b) : pdiv a b = .ok (a / b) := by
  rw [pdiv, if_neg (ne_of_gt h)]

theorem report_ok (i warmup : Int) (p : ℚ) (hp : 0 < p) (h : warmup ≤ i) :
    report i warmup p = .ok (((i + 1 - warmup : Int) : ℚ) / p) := by
  have h1 : (0 : ℚ) < ((i + 1 - warmup : Int) : ℚ) := by
    exact_mod_cast (by omega : (0 : Int) < i + 1 - warmup)
  simp only [report, pdiv_ok _ _ hp, bind, Except.bind, pdiv_ok _ _ (div_pos h1 hp),
    pure, Except.pure]

theorem timed_ok (warmup logInterval i : Int) (e : ℚ) (st : ℚ × ℚ) (he : 0 < e)
    (hst : 0 ≤ st.1) (hlog : logInterval ≠ 0) :
    ∃ f, timed warmup logInterval i e st =
      .ok ((if i ≥ warmup then st.1 + e else st.1), f) := by
  by_cases h : i ≥ warmup
  · have hp : 0 < st.1 + e := by linarith
    by_cases hl : (i + 1) % logInterval = 0
    · exact ⟨_, by simp [timed, h, logs, hlog, hl, bind, Except.bind, pure, Except.pure,
        report_ok i warmup _ hp h]; rfl⟩
    · exact ⟨st.2, by simp [timed, h, logs, hlog, hl, bind, Except.bind, pure, Except.pure]⟩
  · exact ⟨st.2, by simp [timed, h]⟩

theorem timed_sum (elapsed : Nat → ℚ) (warmup : Int) (n : Nat) :
    (((List.range' 1 (n + 1)).filter fun (i : Nat) => decide ((i : Int) ≥ warmup)).map elapsed).sum =
    (((List.range' 1 n).filter fun (i : Nat) => decide ((i : Int) ≥ warmup)).map elapsed).sum +
      (if ((n + 1 : Nat) : Int) ≥ warmup then elapsed (n + 1) else 0) := by
  rw [List.range'_concat, List.filter_append, List.map_append, List.sum_append]
  congr 1
  rw [show 1 + 1 * n = n + 1 by omega]
  by_cases h : ((n + 1 : Nat) : Int) ≥ warmup
  · rw [if_pos h, List.filter_cons_of_pos (by simpa using h)]; simp
  · rw [if_neg h, List.filter_cons_of_neg (by simpa using h)]; simp

theorem timed_sum_nonneg (elapsed : Nat → ℚ) (warmup : Int) (n : Nat) (he : ∀ i, 0 < elapsed i) :
    0 ≤ (((List.range' 1 n).filter fun (i : Nat) => decide ((i : Int) ≥ warmup)).map elapsed).sum := by
  apply List.sum_nonneg
  intro x hx
  obtain ⟨i, _, rfl⟩ := List.mem_map.mp hx
  exact le_of_lt (he i)

theorem rounds (maxIter warmup logInterval : Int) (elapsed : Nat → ℚ)
    (he : ∀ i, 0 < elapsed i) (hlog : logInterval ≠ 0) (n : Nat) (hn : (n : Int) + 1 < maxIter) :
    ∃ f, (List.range' 1 n).foldlM (round maxIter warmup logInterval elapsed) (0, 0) =
      .ok ((((List.range' 1 n).filter fun (i : Nat) => decide ((i : Int) ≥ warmup)).map elapsed).sum, f) := by
  induction n with
  | zero => exact ⟨0, rfl⟩
  | succ n ih =>
    obtain ⟨f, hf⟩ := ih (by omega)
    obtain ⟨f', hf'⟩ := timed_ok warmup logInterval ((n + 1 : Nat) : Int) (elapsed (n + 1))
      ((((List.range' 1 n).filter fun (i : Nat) => decide ((i : Int) ≥ warmup)).map elapsed).sum, f)
      (he _) (timed_sum_nonneg elapsed warmup n he) hlog
    refine ⟨f', ?_⟩
    have hne : ¬ (((n + 1 : Nat) : Int) + 1 = maxIter) := by omega
    rw [timed_sum, List.range'_concat, List.foldlM_append, hf]
    rw [show 1 + 1 * n = n + 1 by omega]
    simp only [bind, Except.bind, List.foldlM_cons, List.foldlM_nil, round, hf', if_neg hne,
      pure, Except.pure]
    congr 2
    split <;> simp

theorem length_timed (warmup : Int) (n : Nat) :
    ((((List.range' 1 n).filter fun (i : Nat) => decide ((i : Int) ≥ warmup)).length : Nat) : Int) =
      max 0 ((n : Int) + 1 - max 1 warmup) := by
  induction n with
  | zero => simp
  | succ n ih =>
    rw [List.range'_concat, List.filter_append, List.length_append]
    rw [show 1 + 1 * n = n + 1 by omega]
    by_cases h : ((n + 1 : Nat) : Int) ≥ warmup
    · rw [List.filter_cons_of_pos (by simpa using h)]
      push_cast [ih] at h ⊢
      simp only [List.filter_nil, List.length_cons, List.length_nil]
      push_cast
      omega
    · rw [List.filter_cons_of_neg (by simpa using h)]
      push_cast [ih] at h ⊢
      simp only [List.filter_nil, List.length_nil]
      push_cast
      omega

theorem timed_pos (elapsed : Nat → ℚ) (warmup : Int) (n : Nat) (he : ∀ i, 0 < elapsed i)
    (hn : 0 < n) (hw : warmup ≤ n) :
    0 < (((List.range' 1 n).filter fun (i : Nat) => decide ((i : Int) ≥ warmup)).map elapsed).sum := by
  obtain ⟨m, rfl⟩ : ∃ m, n = m + 1 := ⟨n - 1, by omega⟩
  rw [timed_sum, if_pos hw]
  have := timed_sum_nonneg elapsed warmup m he
  have := he (m + 1)
  linarith

theorem fps_eq (maxIter warmup logInterval : Int) (elapsed : Nat → ℚ)
    (he : ∀ i, 0 < elapsed i) (hlog : logInterval ≠ 0) (h2 : 2 ≤ maxIter)
    (hw : warmup < maxIter) :
    fps true maxIter warmup logInterval elapsed =
      .ok (((maxIter - warmup : Int) : ℚ) / ((timedRounds maxIter warmup).map elapsed).sum) := by
  obtain ⟨m, rfl⟩ : ∃ m : Nat, maxIter = (m : Int) + 2 := ⟨(maxIter - 2).toNat, by omega⟩
  have hr : (((m : Int) + 2).toNat - 1) = m + 1 := by omega
  obtain ⟨f, hf⟩ := rounds ((m : Int) + 2) warmup logInterval elapsed he hlog m (by omega)
  obtain ⟨f', hf'⟩ := timed_ok warmup logInterval ((m + 1 : Nat) : Int) (elapsed (m + 1))
      ((((List.range' 1 m).filter fun (i : Nat) => decide ((i : Int) ≥ warmup)).map elapsed).sum, f)
      (he _) (timed_sum_nonneg elapsed warmup m he) hlog
  have hcast : ((m + 1 : Nat) : Int) ≥ warmup := by push_cast; omega
  rw [if_pos hcast] at hf'
  have hp : 0 < (((List.range' 1 m).filter fun (i : Nat) => decide ((i : Int) ≥ warmup)).map elapsed).sum
      + elapsed (m + 1) := by
    have := timed_sum_nonneg elapsed warmup m he
    have := he (m + 1)
    linarith
  have hend : (((m + 1 : Nat) : Int) + 1 = (m : Int) + 2) := by push_cast; ring
  have hrep := report_ok ((m + 1 : Nat) : Int) warmup _ hp hcast
  simp only [fps, Bool.not_true, Bool.false_eq_true, if_false, timedRounds, hr]
  rw [timed_sum, if_pos hcast, List.range'_concat, List.foldlM_append, hf]
  rw [show 1 + 1 * m = m + 1 by omega]
  simp only [bind, Except.bind, List.foldlM_cons, List.foldlM_nil, round, hf', if_pos hend,
    pure, Except.pure, hrep]
  congr 3

theorem count_negative (suffix pre : Name) (n : Nat) (hs : '_' ∉ suffix) :
    count (negativeName suffix pre n) = .ok (-(n : Int)) := by
  have h1 : '_' ∉ '-' :: (Nat.toDigits 10 n ++ '.' :: suffix) := by
    simp only [List.mem_append, List.mem_cons, not_or]
    exact ⟨by decide, Nat.underscore_not_in_toDigits, by decide, hs⟩
  have hd : ∀ c ∈ Nat.toDigits 10 n, c.isDigit = true := fun c hc =>
    Nat.isDigit_of_mem_toDigits (by decide) (by decide) hc
  have h2 : '.' ∉ '-' :: Nat.toDigits 10 n := by
    rw [List.mem_cons, not_or]
    exact ⟨by decide, fun h => absurd (hd _ h) (by decide)⟩
  have hp : parseInt ('-' :: Nat.toDigits 10 n) = some (-(n : Int)) := by
    have hne : Nat.toDigits 10 n ≠ [] := Nat.toDigits_ne_nil
    rw [parseInt, parseNat, if_pos ⟨hne, by rw [List.all_eq_true]; exact hd⟩,
      Nat.ofDigitChars_toDigits (by decide) (by decide)]
    rfl
  rw [count, negativeName, lastPiece_stop _ _ _ h1, firstPiece, ← List.cons_append, takeWhile_stop _ _ _ h2, hp]

end Verif.Latest
