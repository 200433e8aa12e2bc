import Verif.Lemmas.SeqChannel

/-! C05: sequential channel choices. -/

namespace Verif.SeqChannel
open Verif

/-- C05: choosing the integer `k` in `0..n` activates exactly the channels
`0..k-1`, and reading back gives `k`. -/
theorem C05_set_number (s : Seq) (k : Int) (h0 : 0 ≤ k) (hk : k ≤ s.n) :
    (setChoice s (.num k)).mask.length = s.n ∧
    (∀ i : Nat, i < s.n → (setChoice s (.num k)).mask[i]? = some (decide ((i : Int) < k))) ∧
    (s.ratioMode = false → getChoice (setChoice s (.num k)) = .ok (.num k)) := by
  refine ⟨prefixMask_length _ _, fun i hi => prefixMask_get _ _ h0 i hi, fun hm => ?_⟩
  simp only [getChoice, setChoice, hm, popcount_prefixMask _ _ h0]
  simp; omega

example : (setChoice (init 5 false) (.num 3)).mask = [true, true, true, false, false] := by decide

/-- C05: a ratio in `(0, 1]` activates the leading `max(1, floor(ratio*n))`
channels, which is a legal number of channels for every width of at least one. -/
theorem C05_set_ratio (s : Seq) (q : ℚ) (h0 : 0 < q) (h1 : q ≤ 1) (hn : 1 ≤ s.n) :
    let k := max 1 ⌊(s.n : ℚ) * q⌋
    1 ≤ k ∧ k ≤ s.n ∧
    (∀ i : Nat, i < s.n → (setChoice s (.ratio q)).mask[i]? = some (decide ((i : Int) < k))) ∧
    (popcount (setChoice s (.ratio q)).mask : Int) = k := by
  intro k
  have hnq : (0 : ℚ) ≤ (s.n : ℚ) * q := by positivity
  have hk : ratio2num s.n q = k := by simp [ratio2num, pyInt, hnq, k]
  have hle : k ≤ s.n := by
    refine max_le (by omega) ?_
    have h1' : (⌊(s.n : ℚ) * q⌋ : ℚ) ≤ s.n := by
      have := Int.floor_le ((s.n : ℚ) * q)
      have hnn : (0 : ℚ) ≤ s.n := by positivity
      nlinarith
    exact_mod_cast h1'
  have hk1 : 1 ≤ k := le_max_left _ _
  refine ⟨hk1, hle, fun i hi => ?_, ?_⟩
  · simp only [setChoice, hk]; exact prefixMask_get _ _ (by omega) i hi
  · simp only [setChoice, hk, popcount_prefixMask _ _ (show 0 ≤ k by omega)]; omega

example : (setChoice (init 7 true) (.ratio (1/2))).mask =
    [true, true, true, false, false, false, false] := by decide +kernel

/-- C05: after any history of sets and fixes with any arguments the mask still has
one entry per channel and is a run of active channels followed by inactive
ones; the choice read back is the length of that run. -/
theorem C05_history (n : Nat) (mode : Bool) (ops : List Op) :
    (run (init n mode) ops).n = n ∧ (run (init n mode) ops).ratioMode = mode ∧
    ∃ k : Nat, k ≤ n ∧
      (run (init n mode) ops).mask = List.replicate k true ++ List.replicate (n - k) false ∧
      popcount (run (init n mode) ops).mask = k := by
  have key : ∀ (ops : List Op) (s : Seq), s.n = n → s.ratioMode = mode →
      (∃ k : Nat, k ≤ n ∧ s.mask = List.replicate k true ++ List.replicate (n - k) false) →
      (run s ops).n = n ∧ (run s ops).ratioMode = mode ∧
      ∃ k : Nat, k ≤ n ∧
        (run s ops).mask = List.replicate k true ++ List.replicate (n - k) false := by
    intro ops
    unfold run
    induction ops with
    | nil => intro s h1 h2 h3; exact ⟨h1, h2, h3⟩
    | cons o os ih =>
      intro s h1 h2 h3
      have hset : ∀ c, (setChoice s c).n = n ∧ (setChoice s c).ratioMode = mode ∧
          ∃ k : Nat, k ≤ n ∧ (setChoice s c).mask =
            List.replicate k true ++ List.replicate (n - k) false := by
        intro c
        have : ∀ k : Int, ∃ j : Nat, j ≤ n ∧ prefixMask n k =
            List.replicate j true ++ List.replicate (n - j) false := by
          intro k
          unfold prefixMask
          split
          · exact ⟨_, by omega, rfl⟩
          · exact ⟨_, by omega, rfl⟩
        cases c <;> (simp only [setChoice, h1]; exact ⟨trivial, h2, this _⟩)
      rw [List.foldl_cons]
      cases o with
      | set c => exact ih _ (hset c).1 (hset c).2.1 (hset c).2.2
      | fix c =>
        have hgo : ∀ c : Choice, (({ setChoice s c with fixed := true } : Seq).n = n) ∧
          (({ setChoice s c with fixed := true } : Seq).ratioMode = mode) := fun c =>
            ⟨(hset c).1, (hset c).2.1⟩
        have hcase : (step s (.fix c)) = s ∨ ∃ c', step s (.fix c) = { setChoice s c' with fixed := true } := by
          simp only [step, fixChosen]
          cases c with
          | some c => by_cases hf : s.fixed = true <;> simp [hf]
                      exact Or.inr ⟨c, rfl, rfl, rfl⟩
          | none =>
            cases hg : getChoice s with
            | error e => simp
            | ok c => by_cases hf : s.fixed = true <;> simp [hf]
                      exact Or.inr ⟨c, rfl, rfl, rfl⟩
        rcases hcase with h | ⟨c', h⟩
        · rw [h]; exact ih _ h1 h2 h3
        · rw [h]; exact ih _ (hset c').1 (hset c').2.1 (hset c').2.2
  obtain ⟨a, b, k, hk, hm⟩ := key ops (init n mode) rfl rfl ⟨n, le_refl _, by simp [init]⟩
  refine ⟨a, b, k, hk, hm, ?_⟩
  rw [hm, popcount]
  simp [List.countP_append, List.countP_replicate]

/-- C05: in ratio mode, after setting a ratio, the ratio of the active channels is read back:
`max 1 ⌊n q⌋` channels out of `n`. Reading the choice of a channel without any units fails. -/
theorem C05_read_ratio (s : Seq) (q : ℚ) (hm : s.ratioMode = true) (hq : 0 ≤ q) (hq1 : q ≤ 1) :
    (0 < s.n → getChoice (setChoice s (.ratio q)) = .ok (.ratio ((max 1 ⌊s.n * q⌋ : Int) / s.n))) ∧
    (s.n = 0 → getChoice (setChoice s (.ratio q)) = .error .zeroDivision) := by
  constructor
  · intro hn
    have h0 : (0 : ℚ) ≤ s.n * q := by positivity
    have hle : max 1 ⌊(s.n : ℚ) * q⌋ ≤ (s.n : Int) := by
      apply max_le (by omega)
      have : ((⌊(s.n : ℚ) * q⌋ : Int) : ℚ) ≤ s.n :=
        (Int.floor_le _).trans (mul_le_of_le_one_right (by positivity) hq1)
      exact_mod_cast this
    obtain ⟨k, hk⟩ := Int.eq_ofNat_of_zero_le (show 0 ≤ max 1 ⌊(s.n : ℚ) * q⌋ by omega)
    have hkn : k ≤ s.n := by omega
    have hset : setChoice s (.ratio q) = { s with mask := prefixMask s.n (k : Int) } := by
      simp only [setChoice, ratio2num, pyInt, if_pos h0, hk]
    rw [hset, hk]
    have hp : popcount (prefixMask s.n (k : Int)) = k := by
      rw [popcount_prefixMask _ _ (by omega)]; omega
    simp [getChoice, hm, hp, hn.ne']
  · intro hn
    simp [getChoice, setChoice, hm, hn]

example : getChoice (setChoice (init 8 true) (.ratio (1 / 3))) = .ok (.ratio (2 / 8)) := by decide +kernel

/-- C05: on a fixed sequential channel a further fix is rejected and changes
nothing; on an unfixed one it stores the given choice. -/
theorem C05_fix (s : Seq) (c : Choice) :
    (s.fixed = true → fixChosen s (some c) = (s, some .assertion)) ∧
    (s.fixed = false → fixChosen s (some c) = ({ setChoice s c with fixed := true }, none)) := by
  constructor <;> intro h <;> simp [fixChosen, h]

/-- C05: fixing without an argument in number mode keeps the mask. -/
theorem C05_fix_default_keeps (n : Nat) (ops : List Op)
    (hf : (run (init n false) ops).fixed = false) :
    (fixChosen (run (init n false) ops) none) =
      ({ run (init n false) ops with fixed := true }, none) := by
  obtain ⟨h1, h2, k, hk, hm, hp⟩ := C05_history n false ops
  generalize run (init n false) ops = s at *
  have hset : prefixMask s.n (k : Int) = s.mask := by
    rw [hm, h1]; unfold prefixMask
    rw [if_neg (by omega)]
    simp [hk]
  simp [fixChosen, getChoice, h2, hf, setChoice, hp, hset]

example : (run (init 4 false) [.set (.num 2)]).fixed = false := by decide

/-- C05 violated (ratio mode): with every channel switched off, fixing the current
choice switches one channel back on. -/
theorem C05_fix_default_ratio_violated :
    (setChoice (init 4 true) (.num 0)).mask = [false, false, false, false] ∧
    (fixChosen (setChoice (init 4 true) (.num 0)) none).1.mask = [true, false, false, false] := by
  decide +kernel

/-- C05 violated (mask-valued channels): the second, rejected fix of a
`SimpleMutableChannel` still replaces its mask. -/
theorem C05_rejected_fix_changes_mask_violated :
    let s := (simpleFix ⟨[true, true], false⟩ (some [true, false])).1
    s = ⟨[true, false], true⟩ ∧
    simpleFix s (some [false, true]) = (⟨[false, true], true⟩, some .attribute) := by
  decide

/-- C05 (guard needed): a negative integer choice is accepted and counts from the
back instead of being rejected. -/
theorem C05_negative_choice_accepted :
    (setChoice (init 4 false) (.num (-1))).mask = [true, true, true, false] := by decide

/-- Fixing the current choice of a channel of width zero in ratio mode raises and changes
nothing: the ratio of no channels cannot be computed. -/
theorem C05_fix_empty (s : Seq) (h : s.n = 0) (hr : s.ratioMode = true) :
    fixChosen s none = (s, some .zeroDivision) ∧ getChoice s = .error .zeroDivision := by
  simp [fixChosen, getChoice, h, hr]

example : fixChosen ⟨0, [], true, false⟩ none = (⟨0, [], true, false⟩, some .zeroDivision) := (C05_fix_empty _ rfl rfl).1

end Verif.SeqChannel
