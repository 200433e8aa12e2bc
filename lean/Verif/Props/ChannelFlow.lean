import Verif.Lemmas.ChannelFlow

namespace Verif.ChannelFlow
open Verif

/-- Whatever tensors are tied and expanded, and however often roots are looked up in
between, two channels end in the same group exactly when the ties connect them; as
long as fewer channel pairs are tied than the recursion limit, nothing is raised. -/
theorem C22_groups (limit : Nat) (ops : List Op) (hfit : ∀ o ∈ ops, Fits o)
    (hlim : (ops.map pairs).sum < limit) :
    ∃ st, run limit ops St.init = .ok st ∧
      ∀ x y, Same st x y ↔ Relation.EqvGen (TiedIn ops) x y := by
  obtain ⟨st, d, e, _, hG⟩ := run_ok ops St.init _ 0 _ init_inv init_groups hfit (by simpa using hlim)
  refine ⟨st, e, ?_⟩
  have : (fun u v => False ∨ TiedIn ops u v) = TiedIn ops := by funext u v; simp
  rw [this] at hG; exact hG

/-- The group reported for a channel contains exactly the channels connected to it, and
asking for it changes no group. -/
theorem C22_members (limit : Nat) (ops : List Op) (hfit : ∀ o ∈ ops, Fits o)
    (hlim : (ops.map pairs).sum < limit) :
    ∃ st, run limit ops St.init = .ok st ∧
      ∀ x, ∃ l st', elemSet limit st x = .ok (l, st') ∧
        (∀ y, y ∈ l ↔ Relation.EqvGen (TiedIn ops) x y) ∧ (∀ u v, Same st' u v ↔ Same st u v) := by
  obtain ⟨st, d, e, hI, hG⟩ := run_ok ops St.init _ 0 _ init_inv init_groups hfit (by simpa using hlim)
  refine ⟨st, e, ?_⟩
  have : (fun u v => False ∨ TiedIn ops u v) = TiedIn ops := by funext u v; simp
  rw [this] at hG
  intro x
  have hlt : (0 + (ops.map pairs).sum) < limit := by simpa using hlim
  obtain ⟨r, st', e', hr, hI', hs⟩ := root_ok limit st x hI (lt_of_le_of_lt (hI.le x) hlt)
  obtain ⟨l, el, hl⟩ := subsOf_ok hI' limit r (by omega)
  have hrn := rootOf_none ((hs x r).2 hr)
  refine ⟨l, st', ?_, ?_, ?_⟩
  · simp only [elemSet, e', el]
  · intro y
    rw [hl, rootOf_iff_reach hrn, hs, ← hG x y]
    constructor
    · intro h; exact ⟨r, hr, h⟩
    · rintro ⟨s, h1, h2⟩; rw [rootOf_unique hr h1]; exact h2
  · intro u v
    constructor
    · rintro ⟨r, h, h'⟩; exact ⟨r, (hs _ _).1 h, (hs _ _).1 h'⟩
    · rintro ⟨r, h, h'⟩; exact ⟨r, (hs _ _).2 h, (hs _ _).2 h'⟩

/-- Tensors of different lengths are refused, with an `AssertionError`. -/
theorem C22_mismatch (limit : Nat) (st : St) (t1 t2 : List Nat) (h : t1.length ≠ t2.length) :
    step limit st (.tie t1 t2) = .error .assertion := by
  simp only [step]; rw [if_neg h]

/-- Without the bound on the number of ties the statement fails: a chain of ties as
deep as the recursion limit makes the root lookup raise. Shown for limit 2; the code
uses 2^20. -/
theorem C22_recursion_limit_fails :
    (match run 2 [.tie [1] [0], .tie [2] [1], .tie [3] [2], .find 0] St.init with
      | .ok _ => false | .error e => e == .runtime) = true := by decide

/-- A tensor with at least one channel is cut into consecutive nonempty ranges covering
it; within a range all channels belong to groups with the same tensors and the smallest
index never drops; and a cut is made only where one of the two changes. -/
theorem C22_ranges {H : Type} [DecidableEq H] (hs : List (H × Nat)) (hne : hs ≠ []) :
    ∃ rs, hashRanges hs = .ok rs ∧ Tiles 0 hs.length rs ∧
      ∀ r ∈ rs,
        (∀ i, r.1.1 ≤ i → i < r.1.2 → ∃ x, hs[i]? = some (r.2, x)) ∧
        (∀ i x y, r.1.1 ≤ i → i + 1 < r.1.2 → hs[i]? = some x → hs[i + 1]? = some y → x.2 ≤ y.2) ∧
        (r.1.1 = 0 ∨ ∃ x y, hs[r.1.1 - 1]? = some x ∧ hs[r.1.1]? = some y ∧
          (y.1 ≠ x.1 ∨ y.2 < x.2)) := by
  cases hs with
  | nil => exact absurd rfl hne
  | cons x rest =>
    refine ⟨_, rfl, rangeLoop_spec (x :: rest) rest 0 1 x.1 x (by omega) (by simp; omega) rfl rfl ?_ ?_ (Or.inl rfl)⟩
    · intro i _ hi
      have : i = 0 := by omega
      subst this; exact ⟨x.2, rfl⟩
    · intro i _ _ _ hi; omega

/-! Concrete cases. -/

-- two tensors of two channels tied, the first expanded by two, then one root lookup
example : ∃ st, run 100 [.tie [0, 1] [2, 3], .expand [0, 1] 2 4, .find 7] St.init = .ok st ∧
    ∀ x y, Same st x y ↔ Relation.EqvGen (TiedIn [.tie [0, 1] [2, 3], .expand [0, 1] 2 4, .find 7]) x y :=
  C22_groups 100 _ (by simp [Fits]) (by decide)

-- channel 3 is grouped with 1, 6 and 7, and not with 0
example : (match run 100 [.tie [0, 1] [2, 3], .expand [0, 1] 2 4, .find 7] St.init with
    | .ok st => (match elemSet 100 st 3 with | .ok (l, _) => l.dedup.insertionSort (· ≤ ·) | .error _ => [])
    | .error _ => []) = [1, 3, 6, 7] := by decide

-- a concatenation of a tensor with itself is cut in two, by the drop of the index
example : (match hashRanges [("a", 0), ("a", 1), ("a", 0), ("a", 1), ("b", 0)] with
    | .ok rs => rs | .error _ => []) = [((0, 2), "a"), ((2, 4), "a"), ((4, 5), "b")] := by decide +kernel

/-- C22, only a tensor without channels is refused, with an IndexError. -/
theorem C22_ranges_refused {H : Type} [DecidableEq H] (hs : List (H × Nat)) (e : Verif.Err) :
    hashRanges hs = .error e ↔ hs = [] ∧ e = .index := by
  cases hs <;> simp [hashRanges, eq_comm]

end Verif.ChannelFlow
