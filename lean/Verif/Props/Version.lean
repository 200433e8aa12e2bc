import Verif.Lemmas.Version

/-! Property C119: parsed versions. -/

namespace Verif.Version
open Verif Latest

/-- The parsed form of a release consists of its numbers, that of a release candidate of the numbers and `rc` with the
number of the candidate. -/
theorem C119_parsed (v : List ℕ) (h : v ≠ []) :
    parseVersion (dotted v) = .ok (v.map fun (n : ℕ) => Part.num n) ∧
      ∀ k, parseVersion (candidate v k) = .ok ((v.map fun (n : ℕ) => Part.num n) ++ [.tag ("rc".toList ++ Nat.toDigits 10 k)]) :=
  ⟨parse_dotted v h, fun k => parse_candidate v k h⟩

example : dotted [1, 3, 0] = "1.3.0".toList ∧ candidate [2, 0, 0] 1 = "2.0.0rc1".toList ∧
    (parseVersion "2.0.10rc1".toList).toOption = some [.num 2, .num 0, .num 10, .tag "rc1".toList] := by decide +kernel

/-- Different releases and candidates have different parsed forms. -/
theorem C119_distinct (v w : List ℕ) (o o' : Option ℕ) (hv : v ≠ []) (hw : w ≠ [])
    (h : parseVersion (written v o) = parseVersion (written w o')) : v = w ∧ o = o' := by
  rw [parse_written v o hv, parse_written w o' hw] at h
  injection h with h
  obtain ⟨h1, h2⟩ := nums_front v w o o' h
  exact ⟨h1, suffix_inj h2⟩

example : written [1, 0] (some 12) = "1.0rc12".toList ∧ written [1, 0] none = "1.0".toList := by decide +kernel

/-- Versions of as many numbers that differ in a number compare, as tuples, by the first number that differs, with or
without candidates. -/
theorem C119_order (v w : List ℕ) (o o' : Option ℕ) (hv : v ≠ []) (hl : v.length = w.length) (hne : v ≠ w) :
    ∃ p q, parseVersion (written v o) = .ok p ∧ parseVersion (written w o') = .ok q ∧ less p q = .ok (earlier v w) := by
  have hw : w ≠ [] := by rintro rfl; exact hv (List.length_eq_zero_iff.1 hl)
  exact ⟨_, _, parse_written v o hv, parse_written w o' hw, less_different v w hl hne _ _⟩

example : earlier [1, 9, 0] [1, 10, 0] = true ∧ earlier [2, 0] [1, 10] = false := by decide

/-- Releases compare by their numbers, whatever their lengths; a release that begins with all numbers of another one is
later. -/
theorem C119_releases (v w : List ℕ) (hv : v ≠ []) (hw : w ≠ []) :
    ∃ p q, parseVersion (dotted v) = .ok p ∧ parseVersion (dotted w) = .ok q ∧ less p q = .ok (earlier v w) :=
  ⟨_, _, parse_dotted v hv, parse_dotted w hw, less_nums v w⟩

example : earlier [1, 0] [1, 0, 0] = true := by decide

/-- DISAGREEMENT: a release candidate comes before its release. As tuples every release is smaller than each of its
candidates, so a check for at least `2.0.0` accepts `2.0.0rc1`. -/
theorem C119_candidate_violated (v : List ℕ) (hv : v ≠ []) (k : ℕ) :
    ∃ p q, parseVersion (dotted v) = .ok p ∧ parseVersion (candidate v k) = .ok q ∧ less p q = .ok true ∧ less q p = .ok false := by
  refine ⟨_, _, parse_dotted v hv, parse_candidate v k hv, less_self_append v _ _, ?_⟩
  have := less_common v [.tag ('r' :: 'c' :: Nat.toDigits 10 k)] []
  rw [List.append_nil] at this
  rw [this]
  rfl

example : less [.num 2, .num 0, .num 0] [.num 2, .num 0, .num 0, .tag "rc1".toList] = .ok true := by rfl

/-- Candidates of a release whose numbers have as many digits compare by their numbers. Missing: numbers with different
numbers of digits, which compare as text, see `C119_text_violated`. -/
theorem C119_candidates_partial (v : List ℕ) (hv : v ≠ []) (k l : ℕ) (hkl : (Nat.toDigits 10 k).length = (Nat.toDigits 10 l).length) :
    ∃ p q, parseVersion (candidate v k) = .ok p ∧ parseVersion (candidate v l) = .ok q ∧ less p q = .ok (decide (k < l)) := by
  refine ⟨_, _, parse_candidate v k hv, parse_candidate v l hv, ?_⟩
  rw [less_common]
  by_cases h : k = l
  · subst h
    rw [less, if_pos rfl]
    simp [less]
  · have hne : Part.tag ('r' :: 'c' :: Nat.toDigits 10 k) ≠ Part.tag ('r' :: 'c' :: Nat.toDigits 10 l) := by
      intro e
      have := suffix_inj (o := some k) (o' := some l) (by rw [suffix, suffix, e])
      exact h (Option.some.inj this)
    rw [less, if_neg hne, lessPart, lessText, if_pos rfl, lessText, if_pos rfl,
      less_digits _ _ (digit_all k) (digit_all l) hkl 0, Nat.ofDigitChars_toDigits (by decide) (by decide),
      Nat.ofDigitChars_toDigits (by decide) (by decide)]

example : less [.num 1, .tag "rc3".toList] [.num 1, .tag "rc5".toList] = .ok true := by rfl

/-- DISAGREEMENT: candidate 10 of every release is smaller than its candidates 2 to 9. -/
theorem C119_text_violated (v : List ℕ) (hv : v ≠ []) (k : ℕ) (h2 : 2 ≤ k) (hk : k < 10) :
    ∃ p q, parseVersion (candidate v 10) = .ok p ∧ parseVersion (candidate v k) = .ok q ∧ less p q = .ok true := by
  refine ⟨_, _, parse_candidate v 10 hv, parse_candidate v k hv, ?_⟩
  rw [less_common]
  interval_cases k <;> rfl

example : less [.num 1, .tag "rc10".toList] [.num 1, .tag "rc9".toList] = .ok true := by rfl

/-- DISAGREEMENT: other parts are dropped without an error: with a part behind the last dot that is neither a number nor a
candidate (a development or post release, say) a version has the parsed form of the release itself. -/
theorem C119_dropped_violated (v : List ℕ) (hv : v ≠ []) (x : Name) (hd : '.' ∉ x) (hr : 'r' ∉ x) (hn : ∃ c ∈ x, c.isDigit = false) :
    parseVersion (dotted v ++ '.' :: x) = parseVersion (dotted v) := by
  have hx : parsePiece x = .ok [] := by
    have h1 : parseNat x = none := by
      rw [parseNat, if_neg]
      rintro ⟨-, h⟩
      rw [List.all_eq_true] at h
      obtain ⟨c, hc, hf⟩ := hn
      rw [h c hc] at hf
      cases hf
    rw [parsePiece, h1]
    simp only
    rw [splitRc_back x hr]
  have := version_append _ _ _ _ (parse_dotted v hv) (version_piece hd hx)
  rw [this, parse_dotted v hv, List.append_nil]

example : parseVersion "1.0.0.dev3".toList = .ok [.num 1, .num 0, .num 0] ∧
    parseVersion "1.0.0+cu118".toList = .ok [.num 1, .num 0] := ⟨by rfl, by rfl⟩

/-- A part with `rc` behind something that is no number is refused. -/
theorem C119_refused (v : List ℕ) (hv : v ≠ []) (x y : Name) (hd : '.' ∉ x ++ y) (hx : 'r' ∉ x) (hy : 'r' ∉ y) (hn : parseInt x = none) :
    parseVersion (dotted v ++ '.' :: (x ++ 'r' :: 'c' :: y)) = .error .value := by
  have h1 : parseNat (x ++ 'r' :: 'c' :: y) = none := by
    rw [parseNat, if_neg]
    rintro ⟨-, h⟩
    rw [List.all_eq_true] at h
    exact absurd (h 'r' (by simp)) (by decide)
  have hp : parsePiece (x ++ 'r' :: 'c' :: y) = .error .value := by
    rw [parsePiece, h1]
    simp only
    rw [splitRc_front x y hx hy]
    simp only
    rw [hn]
  have hfree : '.' ∉ x ++ 'r' :: 'c' :: y := by
    simp only [List.mem_append, List.mem_cons, not_or] at hd ⊢
    exact ⟨hd.1, by decide, by decide, hd.2⟩
  rw [parseVersion, splitOn_append, splitOn_free hfree]
  have hq := parse_dotted v hv
  rw [parseVersion] at hq
  generalize splitOn '.' (dotted v) = l at hq
  generalize nums v = q at hq
  clear hv
  induction l generalizing q with
  | nil => rw [List.nil_append, parsePieces, hp]; rfl
  | cons a l ih =>
    rw [parsePieces] at hq
    rw [List.cons_append, parsePieces]
    cases ha : parsePiece a with
    | error e => rw [ha] at hq; cases hq
    | ok b =>
      cases hl : parsePieces l with
      | error e => rw [ha, hl] at hq; cases hq
      | ok c => rw [ih c hl]; rfl

example : parseVersion "1.0.src1".toList = .error .value ∧ parseVersion "1.0.rc1".toList = .error .value := ⟨by rfl, by rfl⟩

/-- DISAGREEMENT: a second `rc` and all that follows it up to the next dot is dropped without an error. -/
theorem C119_second_violated (v : List ℕ) (hv : v ≠ []) (k : ℕ) (x : Name) (hx : '.' ∉ x) :
    parseVersion (candidate v k ++ "rc".toList ++ x) = parseVersion (candidate v k) := by
  have e : candidate v k ++ "rc".toList ++ x = candidate v k ++ 'r' :: 'c' :: x := by
    rw [List.append_assoc]; rfl
  rw [e, parse_two v k x hx hv, parse_candidate v k hv]

example : parseVersion "1.0rc1rc2".toList = .ok [.num 1, .num 0, .tag "rc1".toList] := by rfl

/-- A candidate is smaller than those whose number continues its own with further digits (10 to 19 for candidate 1). -/
theorem C119_continued (v : List ℕ) (hv : v ≠ []) (k d : ℕ) (hk : 0 < k) (hd : d < 10) :
    ∃ p q, parseVersion (candidate v k) = .ok p ∧ parseVersion (candidate v (10 * k + d)) = .ok q ∧ less p q = .ok true := by
  refine ⟨_, _, parse_candidate v k hv, parse_candidate v _ hv, ?_⟩
  rw [less_common, ← Nat.toDigits_append_toDigits (by decide) hk hd]
  obtain ⟨c, t, hc⟩ := List.exists_cons_of_ne_nil (Nat.toDigits_ne_nil (n := d) (b := 10))
  rw [hc, less, if_neg (by simp), lessPart, lessText, if_pos rfl, lessText, if_pos rfl, lessText_prefix]

example : less [.num 1, .tag "rc1".toList] [.num 1, .tag "rc17".toList] = .ok true := by rfl

/-- The comparison of two versions fails exactly if the first entries that differ are a number and a tag, and then with a
`TypeError`. -/
theorem C119_incomparable (v w : List Part) (e : Err) :
    less v w = .error e ↔ e = .type ∧ ∃ p v' w' a t, (v = p ++ .num a :: v' ∧ w = p ++ .tag t :: w') ∨
      (v = p ++ .tag t :: v' ∧ w = p ++ .num a :: w') := by
  induction v generalizing w with
  | nil =>
    cases w <;> simp [less]
  | cons x v ih =>
    cases w with
    | nil => simp [less]
    | cons y w =>
      rw [less]
      by_cases h : x = y
      · subst h
        rw [if_pos rfl, ih]
        constructor
        · rintro ⟨he, p, v', w', a, t, h⟩
          exact ⟨he, x :: p, v', w', a, t, by simpa using h⟩
        · rintro ⟨he, p, v', w', a, t, h⟩
          refine ⟨he, ?_⟩
          cases p with
          | nil => rcases h with ⟨h1, h2⟩ | ⟨h1, h2⟩ <;> simp at h1 h2 <;> simp [h1.1] at h2
          | cons z p =>
            refine ⟨p, v', w', a, t, ?_⟩
            rcases h with ⟨h1, h2⟩ | ⟨h1, h2⟩
            · simp at h1 h2; exact .inl ⟨h1.2, h2.2⟩
            · simp at h1 h2; exact .inr ⟨h1.2, h2.2⟩
      · rw [if_neg h]
        have key : (∃ p v' w' a t, (x :: v = p ++ Part.num a :: v' ∧ y :: w = p ++ Part.tag t :: w') ∨
            (x :: v = p ++ .tag t :: v' ∧ y :: w = p ++ .num a :: w')) ↔
            (∃ a t, (x = .num a ∧ y = .tag t) ∨ (x = .tag t ∧ y = .num a)) := by
          constructor
          · rintro ⟨p, v', w', a, t, h1⟩
            cases p with
            | nil =>
              refine ⟨a, t, ?_⟩
              rcases h1 with ⟨h1, h2⟩ | ⟨h1, h2⟩
              · simp at h1 h2; exact .inl ⟨h1.1, h2.1⟩
              · simp at h1 h2; exact .inr ⟨h1.1, h2.1⟩
            | cons z p =>
              exfalso
              rcases h1 with ⟨h1, h2⟩ | ⟨h1, h2⟩ <;> simp at h1 h2 <;> exact h (h1.1.trans h2.1.symm)
          · rintro ⟨a, t, ⟨rfl, rfl⟩ | ⟨rfl, rfl⟩⟩
            · exact ⟨[], v, w, a, t, .inl ⟨rfl, rfl⟩⟩
            · exact ⟨[], v, w, a, t, .inr ⟨rfl, rfl⟩⟩
        rw [key]
        cases x <;> cases y <;> simp [lessPart, eq_comm]

example : less [.num 1, .num 0] [.num 1, .tag ['r', 'c', '1']] = .error .type := by rfl

end Verif.Version
