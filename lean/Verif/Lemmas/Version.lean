import Verif.Spec.Version
import Verif.Lemmas.Latest
import Mathlib.Tactic.Ring
import Mathlib.Tactic.Linarith
import Mathlib.Tactic.IntervalCases

/-! Helper lemmas for `Verif/Props/Version.lean`. -/

namespace Verif.Version
open Verif Latest

theorem digit_all (n : ℕ) : ∀ c ∈ Nat.toDigits 10 n, c.isDigit = true := fun _ hc =>
  Nat.isDigit_of_mem_toDigits (by decide) (by decide) hc

theorem digit_not {c : Char} (h : c.isDigit = false) (n : ℕ) : c ∉ Nat.toDigits 10 n := fun hc => by
  rw [digit_all n c hc] at h; cases h

theorem parseNat_digits (n : ℕ) : parseNat (Nat.toDigits 10 n) = some n := by
  rw [parseNat, if_pos ⟨Nat.toDigits_ne_nil, by rw [List.all_eq_true]; exact digit_all n⟩,
    Nat.ofDigitChars_toDigits (by decide) (by decide)]

theorem parseInt_nat (n : ℕ) : parseInt (Nat.toDigits 10 n) = some (n : ℤ) := by
  rw [parseInt_digits _ Nat.toDigits_ne_nil (digit_all n), Nat.ofDigitChars_toDigits (by decide) (by decide)]

theorem splitOn_ne (c : Char) (s : Name) : splitOn c s ≠ [] := by
  cases s with
  | nil => simp [splitOn]
  | cons x s =>
    rw [splitOn]
    split
    · simp
    · split <;> simp

theorem splitOn_free {c : Char} {s : Name} (h : c ∉ s) : splitOn c s = [s] := by
  induction s with
  | nil => rfl
  | cons x s ih =>
    rw [List.mem_cons, not_or] at h
    rw [splitOn, if_neg (fun e => h.1 e.symm), ih h.2]

theorem splitOn_append (c : Char) (s t : Name) : splitOn c (s ++ c :: t) = splitOn c s ++ splitOn c t := by
  induction s with
  | nil => simp [splitOn]
  | cons x s ih =>
    rw [List.cons_append, splitOn, splitOn, ih]
    split
    · rfl
    · have := splitOn_ne c s
      cases hq : splitOn c s with
      | nil => exact absurd hq this
      | cons p ps => rfl

theorem pieces_append (xs ys : List Name) (p q : List Part) (hp : parsePieces xs = .ok p) (hq : parsePieces ys = .ok q) :
    parsePieces (xs ++ ys) = .ok (p ++ q) := by
  induction xs generalizing p with
  | nil => cases hp; exact hq
  | cons x xs ih =>
    rw [parsePieces] at hp
    rw [List.cons_append, parsePieces]
    cases h1 : parsePiece x with
    | error e => rw [h1] at hp; cases hp
    | ok a =>
      cases h2 : parsePieces xs with
      | error e => rw [h1, h2] at hp; cases hp
      | ok b =>
        rw [h1, h2] at hp
        cases hp
        rw [ih b h2]
        change Except.ok (a ++ (b ++ q)) = Except.ok (a ++ b ++ q)
        rw [List.append_assoc]

theorem version_append (s t : Name) (p q : List Part) (hp : parseVersion s = .ok p) (hq : parseVersion t = .ok q) :
    parseVersion (s ++ '.' :: t) = .ok (p ++ q) := by
  rw [parseVersion, splitOn_append]
  exact pieces_append _ _ _ _ hp hq

theorem version_piece {s : Name} (h : '.' ∉ s) {p : List Part} (hp : parsePiece s = .ok p) : parseVersion s = .ok p := by
  rw [parseVersion, splitOn_free h, parsePieces, hp]
  change Except.ok (p ++ []) = _
  rw [List.append_nil]

theorem version_num (n : ℕ) : parseVersion (Nat.toDigits 10 n) = .ok [.num n] :=
  version_piece (digit_not (by decide) n) (by rw [parsePiece, parseNat_digits])

theorem splitRc_back (s : Name) (h : 'r' ∉ s) : splitRc s = (s, none) := by
  induction s with
  | nil => rfl
  | cons x s ih =>
    rw [List.mem_cons, not_or] at h
    rw [splitRc, ih h.2]
    rintro s' rfl
    exact absurd rfl h.1

theorem splitRc_front (s t : Name) (h : 'r' ∉ s) (ht : 'r' ∉ t) : splitRc (s ++ 'r' :: 'c' :: t) = (s, some t) := by
  induction s with
  | nil => simp only [List.nil_append, splitRc, splitRc_back t ht]
  | cons x s ih =>
    rw [List.mem_cons, not_or] at h
    rw [List.cons_append, splitRc, ih h.2]
    rintro s' rfl
    exact absurd rfl h.1

theorem piece_candidate (n k : ℕ) : parsePiece (Nat.toDigits 10 n ++ 'r' :: 'c' :: Nat.toDigits 10 k) =
    .ok [.num n, .tag ('r' :: 'c' :: Nat.toDigits 10 k)] := by
  have h1 : parseNat (Nat.toDigits 10 n ++ 'r' :: 'c' :: Nat.toDigits 10 k) = none := by
    rw [parseNat, if_neg]
    rintro ⟨-, h⟩
    rw [List.all_eq_true] at h
    exact absurd (h 'r' (by simp)) (by decide)
  rw [parsePiece, h1]
  simp only
  rw [splitRc_front _ _ (digit_not (by decide) n) (digit_not (by decide) k)]
  simp only
  rw [parseInt_nat]

theorem version_candidate (n k : ℕ) : parseVersion (Nat.toDigits 10 n ++ 'r' :: 'c' :: Nat.toDigits 10 k) =
    .ok [.num n, .tag ('r' :: 'c' :: Nat.toDigits 10 k)] := by
  refine version_piece ?_ (piece_candidate n k)
  simp only [List.mem_append, List.mem_cons, not_or]
  exact ⟨digit_not (by decide) n, by decide, by decide, digit_not (by decide) k⟩

theorem dotted_cons (n m : ℕ) (ns : List ℕ) : dotted (n :: m :: ns) = Nat.toDigits 10 n ++ '.' :: dotted (m :: ns) := rfl

theorem parse_dotted (ns : List ℕ) (h : ns ≠ []) : parseVersion (dotted ns) = .ok (nums ns) := by
  induction ns with
  | nil => exact absurd rfl h
  | cons n ns ih =>
    cases ns with
    | nil => exact version_num n
    | cons m ns =>
      rw [dotted_cons, version_append _ _ _ _ (version_num n) (ih (by simp))]
      rfl

theorem parse_candidate (ns : List ℕ) (k : ℕ) (h : ns ≠ []) :
    parseVersion (candidate ns k) = .ok (nums ns ++ [.tag ('r' :: 'c' :: Nat.toDigits 10 k)]) := by
  induction ns with
  | nil => exact absurd rfl h
  | cons n ns ih =>
    cases ns with
    | nil => exact version_candidate n k
    | cons m ns =>
      rw [candidate, dotted_cons, List.append_assoc, List.cons_append]
      have := version_append _ _ _ _ (version_num n) (ih (by simp))
      exact this

theorem less_nums (v w : List ℕ) : less (nums v) (nums w) = .ok (earlier v w) := by
  induction v generalizing w with
  | nil => cases w <;> rfl
  | cons a v ih =>
    cases w with
    | nil => rfl
    | cons b w =>
      have e : less (nums (a :: v)) (nums (b :: w)) = if (Part.num a) = Part.num b then less (nums v) (nums w) else
        lessPart (.num a) (.num b) := rfl
      rw [e, earlier, ih]
      by_cases hab : a = b
      · rw [if_pos (by rw [hab]), if_pos hab]
      · rw [if_neg (by intro h; injection h with h; omega), if_neg hab, lessPart]
        simp

theorem less_self_append (v : List ℕ) (p : Part) (q : List Part) : less (nums v) (nums v ++ p :: q) = .ok true := by
  induction v with
  | nil => rfl
  | cons a v ih =>
    have e : less (nums (a :: v)) (nums (a :: v) ++ p :: q) = if (Part.num a) = Part.num a then less (nums v) (nums v ++ p :: q) else
        lessPart (.num a) (.num a) := rfl
    rw [e, if_pos rfl, ih]

theorem less_common (v : List ℕ) (p q : List Part) : less (nums v ++ p) (nums v ++ q) = less p q := by
  induction v with
  | nil => rfl
  | cons a v ih =>
    have e : less (nums (a :: v) ++ p) (nums (a :: v) ++ q) = if (Part.num a) = Part.num a then less (nums v ++ p) (nums v ++ q) else
        lessPart (.num a) (.num a) := rfl
    rw [e, if_pos rfl, ih]

theorem less_different (v w : List ℕ) (hl : v.length = w.length) (hne : v ≠ w) (p q : List Part) :
    less (nums v ++ p) (nums w ++ q) = .ok (earlier v w) := by
  induction v generalizing w with
  | nil => cases w with
    | nil => exact absurd rfl hne
    | cons b w => simp at hl
  | cons a v ih =>
    cases w with
    | nil => simp at hl
    | cons b w =>
      have e : less (nums (a :: v) ++ p) (nums (b :: w) ++ q) = if (Part.num a) = Part.num b then less (nums v ++ p) (nums w ++ q) else
        lessPart (.num a) (.num b) := rfl
      rw [e, earlier]
      by_cases hab : a = b
      · subst hab
        rw [if_pos rfl, if_pos rfl]
        exact ih w (by simpa using hl) (fun h => hne (by rw [h]))
      · rw [if_neg (by intro h; injection h with h; omega), if_neg hab, lessPart]
        simp

theorem parse_written (v : List ℕ) (o : Option ℕ) (h : v ≠ []) : parseVersion (written v o) = .ok (nums v ++ suffix o) := by
  cases o with
  | none => rw [written, parse_dotted v h, suffix, List.append_nil]
  | some k => exact parse_candidate v k h

theorem nums_front (v w : List ℕ) (o o' : Option ℕ) (h : nums v ++ suffix o = nums w ++ suffix o') : v = w ∧ suffix o = suffix o' := by
  induction v generalizing w with
  | nil =>
    cases w with
    | nil => exact ⟨rfl, h⟩
    | cons b w => cases o <;> simp [nums, suffix] at h
  | cons a v ih =>
    cases w with
    | nil => cases o' <;> simp [nums, suffix] at h
    | cons b w =>
      have h' : Part.num a :: (nums v ++ suffix o) = Part.num b :: (nums w ++ suffix o') := h
      injection h' with h1 h2
      injection h1 with h1
      obtain ⟨e1, e2⟩ := ih w h2
      refine ⟨?_, e2⟩
      rw [e1, show a = b by omega]

theorem suffix_inj {o o' : Option ℕ} (h : suffix o = suffix o') : o = o' := by
  cases o with
  | none => cases o' with
    | none => rfl
    | some k => simp [suffix] at h
  | some k => cases o' with
    | none => simp [suffix] at h
    | some k' =>
      simp only [suffix, List.cons.injEq, Part.tag.injEq, and_true, true_and] at h
      have := congrArg (fun s => Nat.ofDigitChars 10 s 0) h
      simp only [Nat.ofDigitChars_toDigits (b := 10) (by decide) (by decide)] at this
      rw [this]

theorem digits_bounds (s : Name) (h : ∀ c ∈ s, c.isDigit = true) (a : ℕ) :
    a * 10 ^ s.length ≤ Nat.ofDigitChars 10 s a ∧ Nat.ofDigitChars 10 s a < (a + 1) * 10 ^ s.length := by
  induction s generalizing a with
  | nil => simp
  | cons c s ih =>
    rw [Nat.ofDigitChars_cons]
    have hc := h c (by simp)
    have h9 : c.toNat - '0'.toNat ≤ 9 := by
      simp only [Char.isDigit, Bool.and_eq_true, decide_eq_true_eq] at hc
      have h2 : c.toNat ≤ 57 := hc.2
      have : '0'.toNat = 48 := rfl
      omega
    obtain ⟨h1, h2⟩ := ih (fun c hc => h c (by simp [hc])) (10 * a + (c.toNat - '0'.toNat))
    generalize c.toNat - '0'.toNat = d at h9 h1 h2 ⊢
    rw [List.length_cons, pow_succ]
    constructor
    · refine le_trans ?_ h1
      nlinarith [Nat.zero_le (d * 10 ^ s.length)]
    · refine lt_of_lt_of_le h2 ?_
      have : (10 * a + d + 1) * 10 ^ s.length ≤ (10 * a + 10) * 10 ^ s.length := Nat.mul_le_mul_right _ (by omega)
      nlinarith

theorem less_digits (s t : Name) (hs : ∀ c ∈ s, c.isDigit = true) (ht : ∀ c ∈ t, c.isDigit = true) (hl : s.length = t.length) (a : ℕ) :
    lessText s t = decide (Nat.ofDigitChars 10 s a < Nat.ofDigitChars 10 t a) := by
  induction s generalizing t a with
  | nil =>
    cases t with
    | nil => simp [lessText]
    | cons c t => simp at hl
  | cons c s ih =>
    cases t with
    | nil => simp at hl
    | cons e t =>
      have hl' : s.length = t.length := by simpa using hl
      have hs' : ∀ c ∈ s, c.isDigit = true := fun c hc => hs c (by simp [hc])
      have ht' : ∀ c ∈ t, c.isDigit = true := fun c hc => ht c (by simp [hc])
      have hc := hs c (by simp)
      have he := ht e (by simp)
      rw [lessText, Nat.ofDigitChars_cons, Nat.ofDigitChars_cons]
      by_cases hce : c = e
      · subst hce
        rw [if_pos rfl]
        exact ih t hs' ht' hl' _
      · rw [if_neg hce]
        have h0 : '0'.toNat = 48 := rfl
        simp only [Char.isDigit, Bool.and_eq_true, decide_eq_true_eq] at hc he
        have hc1 : 48 ≤ c.toNat := hc.1
        have he1 : 48 ≤ e.toNat := he.1
        have hne : c.toNat ≠ e.toNat := fun h => hce (Char.toNat_inj.1 h)
        obtain ⟨b1, b2⟩ := digits_bounds s hs' (10 * a + (c.toNat - '0'.toNat))
        obtain ⟨b3, b4⟩ := digits_bounds t ht' (10 * a + (e.toNat - '0'.toNat))
        rw [hl'] at b1 b2
        congr 1
        rw [eq_iff_iff]
        constructor
        · intro h
          refine lt_of_lt_of_le b2 (le_trans ?_ b3)
          exact Nat.mul_le_mul_right _ (by omega)
        · intro h
          by_contra hn
          have : (10 * a + (e.toNat - '0'.toNat) + 1) * 10 ^ t.length ≤ (10 * a + (c.toNat - '0'.toNat)) * 10 ^ t.length :=
            Nat.mul_le_mul_right _ (by omega)
          omega

theorem splitRc_first (s t : Name) (h : 'r' ∉ s) : (splitRc (s ++ 'r' :: 'c' :: t)).1 = s := by
  induction s with
  | nil => simp only [List.nil_append, splitRc]
  | cons x s ih =>
    rw [List.mem_cons, not_or] at h
    rw [List.cons_append, splitRc, ih h.2]
    rintro s' rfl
    exact absurd rfl h.1

theorem splitRc_two (s t u : Name) (h : 'r' ∉ s) (ht : 'r' ∉ t) :
    splitRc (s ++ 'r' :: 'c' :: (t ++ 'r' :: 'c' :: u)) = (s, some t) := by
  induction s with
  | nil => simp only [List.nil_append, splitRc, splitRc_first t u ht]
  | cons x s ih =>
    rw [List.mem_cons, not_or] at h
    rw [List.cons_append, splitRc, ih h.2]
    rintro s' rfl
    exact absurd rfl h.1

theorem version_two (n k : ℕ) (x : Name) (hx : '.' ∉ x) :
    parseVersion (Nat.toDigits 10 n ++ 'r' :: 'c' :: (Nat.toDigits 10 k ++ 'r' :: 'c' :: x)) =
      .ok [.num n, .tag ('r' :: 'c' :: Nat.toDigits 10 k)] := by
  refine version_piece ?_ ?_
  · simp only [List.mem_append, List.mem_cons, not_or]
    exact ⟨digit_not (by decide) n, by decide, by decide, digit_not (by decide) k, by decide, by decide, hx⟩
  have h1 : parseNat (Nat.toDigits 10 n ++ 'r' :: 'c' :: (Nat.toDigits 10 k ++ 'r' :: 'c' :: x)) = none := by
    rw [parseNat, if_neg]
    rintro ⟨-, h⟩
    rw [List.all_eq_true] at h
    exact absurd (h 'r' (by simp)) (by decide)
  rw [parsePiece, h1]
  simp only
  rw [splitRc_two _ _ _ (digit_not (by decide) n) (digit_not (by decide) k)]
  simp only
  rw [parseInt_nat]

theorem parse_two (ns : List ℕ) (k : ℕ) (x : Name) (hx : '.' ∉ x) (h : ns ≠ []) :
    parseVersion (candidate ns k ++ 'r' :: 'c' :: x) = .ok (nums ns ++ [.tag ('r' :: 'c' :: Nat.toDigits 10 k)]) := by
  induction ns with
  | nil => exact absurd rfl h
  | cons n ns ih =>
    cases ns with
    | nil =>
      have := version_two n k x hx
      simp only [candidate, dotted, List.append_assoc, List.cons_append] at this ⊢
      exact this
    | cons m ns =>
      have := version_append _ _ _ _ (version_num n) (ih (by simp))
      simp only [candidate, dotted_cons, List.append_assoc, List.cons_append] at this ⊢
      exact this

theorem lessText_prefix (s : Name) (c : Char) (t : Name) : lessText s (s ++ c :: t) = true := by
  induction s with
  | nil => rfl
  | cons x s ih => rw [List.cons_append, lessText, if_pos rfl, ih]

end Verif.Version
