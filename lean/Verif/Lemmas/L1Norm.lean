import Verif.Spec.L1Norm
import Verif.Props.ChannelUnit

/-! Helper lemmas for `Verif/Props/L1Norm.lean`. -/

namespace Verif.L1Norm
open Verif ChannelUnit SeqChannel

theorem l1Norm_eq {rows : List (List ℚ)} {a b n : ℕ} (h : b = a + n) (hb : b ≤ rows.length) :
    l1Norm rows a b = (List.range n).map fun i => meanAbs (rows.getD (a + i) []) := by
  apply List.ext_getElem?
  intro i
  unfold l1Norm
  rw [List.getElem?_map, List.getElem?_drop, List.getElem?_take, List.getElem?_map]
  by_cases hi : i < n
  · have h1 : a + i < rows.length := by omega
    rw [if_pos (by omega), List.getElem?_range hi, List.getElem?_eq_getElem h1]
    simp [List.getD_eq_getElem?_getD, List.getElem?_eq_getElem h1, meanAbs, rowNorm]
  · rw [if_neg (by omega), List.getElem?_eq_none (by simpa using hi)]
    rfl

/-- The sum of the importances, before the division. -/
def total (outs : List Out) (i : ℕ) : ℚ := ((weights outs).map fun p => meanAbs (p.1.getD (p.2 + i) [])).sum

theorem sumNorms_some {n : ℕ} : ∀ {outs : List Out}, Fits n outs → ∀ (f : ℕ → ℚ) (m : ℕ),
    sumNorms outs (some ((List.range n).map f), m) =
      .ok (some ((List.range n).map fun i => f i + total outs i), m + (weights outs).length)
  | [], _, f, m => by simp [sumNorms, total, weights]
  | o :: l, hf, f, m => by
    have hl : Fits n l := fun x hx => hf x (List.mem_cons_of_mem _ hx)
    unfold sumNorms
    cases hw : o.weight with
    | none =>
      dsimp only
      rw [sumNorms_some hl f m]
      have : weights (o :: l) = weights l := by simp [weights, hw]
      simp only [total, this]
    | some rows =>
      obtain ⟨h1, h2⟩ := hf o List.mem_cons_self rows hw
      have : weights (o :: l) = (rows, o.start) :: weights l := by simp [weights, hw]
      dsimp only
      rw [l1Norm_eq h1 h2]
      unfold addNorm
      dsimp only
      rw [if_pos (by simp), List.zipWith_map, List.zipWith_self]
      dsimp only
      rw [sumNorms_some hl]
      simp only [total, this, List.map_cons, List.sum_cons, List.length_cons]
      have e1 : ∀ a b c : ℚ, a + b + c = a + (b + c) := fun a b c => by ring
      have e2 : m + 1 + (weights l).length = m + ((weights l).length + 1) := by omega
      simp only [e1, e2]

theorem sumNorms_none {n : ℕ} : ∀ {outs : List Out}, Fits n outs → weights outs ≠ [] →
    sumNorms outs (none, 0) = .ok (some ((List.range n).map fun i => total outs i), (weights outs).length)
  | [], _, h => absurd rfl h
  | o :: l, hf, h => by
    have hl : Fits n l := fun x hx => hf x (List.mem_cons_of_mem _ hx)
    unfold sumNorms
    cases hw : o.weight with
    | none =>
      have : weights (o :: l) = weights l := by simp [weights, hw]
      rw [this] at h
      dsimp only
      rw [sumNorms_none hl h]
      simp only [total, this]
    | some rows =>
      obtain ⟨h1, h2⟩ := hf o List.mem_cons_self rows hw
      have : weights (o :: l) = (rows, o.start) :: weights l := by simp [weights, hw]
      dsimp only
      rw [l1Norm_eq h1 h2]
      unfold addNorm
      dsimp only
      rw [sumNorms_some hl]
      simp only [total, this, List.map_cons, List.sum_cons, List.length_cons]
      rw [Nat.zero_add, Nat.add_comm 1]

/-- The norm of a unit is the importance of its channels. -/
theorem unitNorm_eq {n : ℕ} {outs : List Out} (hf : Fits n outs) (hw : weights outs ≠ []) :
    unitNorm outs = .ok ((List.range n).map (score outs)) := by
  unfold unitNorm
  rw [sumNorms_none hf hw]
  dsimp only
  rw [List.map_map]
  rfl

theorem weights_nil {outs : List Out} (h : ∀ o ∈ outs, o.weight = none) : ∀ s, sumNorms outs s = .ok s := by
  induction outs with
  | nil => intro s; rfl
  | cons o l ih =>
    intro s
    unfold sumNorms
    rw [h o List.mem_cons_self]
    exact ih (fun x hx => h x (List.mem_cons_of_mem _ hx)) s

theorem count_popcount (mask : List Bool) : mask.count true = popcount mask := by
  unfold popcount List.count
  congr 1
  funext b
  cases b <;> rfl

theorem count_le : ∀ {a b : List Bool}, a.length = b.length → (∀ j : ℕ, a[j]? = some true → b[j]? = some true) →
    a.count true ≤ b.count true
  | [], b, _, _ => by simp
  | x :: a, [], h, _ => by simp at h
  | x :: a, y :: b, hl, hs => by
    have hl : a.length = b.length := by simpa using hl
    have hs' : ∀ j : ℕ, a[j]? = some true → b[j]? = some true := fun j h => by simpa using hs (j + 1) (by simpa using h)
    have := count_le hl hs'
    have h0 := hs 0
    cases x <;> cases y <;> simp_all <;> omega

theorem count_lt : ∀ {a b : List Bool}, a.length = b.length → (∀ j : ℕ, a[j]? = some true → b[j]? = some true) →
    ∀ {i : ℕ}, b[i]? = some true → a[i]? = some false → a.count true < b.count true
  | [], b, _, _, i, _, h => by simp at h
  | x :: a, [], h, _, _, _, _ => by simp at h
  | x :: a, y :: b, hl, hs, i, hb, ha => by
    have hl2 : a.length = b.length := by simpa using hl
    have hs' : ∀ j : ℕ, a[j]? = some true → b[j]? = some true := fun j h => by simpa using hs (j + 1) (by simpa using h)
    have h0 := hs 0
    cases i with
    | zero =>
      have hx : x = false := by simpa using ha
      have hy : y = true := by simpa using hb
      subst hx hy
      have := count_le hl2 hs'
      simp
      omega
    | succ i =>
      have := count_lt hl2 hs' (i := i) (by simpa using hb) (by simpa using ha)
      cases x <;> cases y <;> simp_all <;> omega

theorem topk_lt {norm : List ℚ} {k i : ℕ} (h : i ∈ topk norm k) : i < norm.length := by
  obtain ⟨x, hx, rfl⟩ := List.mem_map.1 h
  have := (sortBy_perm _).mem_iff.1 (List.mem_of_mem_take hx)
  simpa using List.snd_lt_of_mem_zipIdx this

theorem insertBy_map {α β : Type} (f : α → β) {le : α → α → Bool} {le' : β → β → Bool} (h : ∀ a b, le' (f a) (f b) = le a b)
    (x : α) : ∀ l : List α, insertBy le' (f x) (l.map f) = (insertBy le x l).map f
  | [] => rfl
  | y :: l => by
    rw [List.map_cons]
    unfold insertBy
    rw [h]
    by_cases hc : le x y = true
    · rw [if_pos hc, if_pos hc]; rfl
    · rw [if_neg hc, if_neg hc, List.map_cons, insertBy_map f h x l]

theorem sortBy_map {α β : Type} (f : α → β) {le : α → α → Bool} {le' : β → β → Bool} (h : ∀ a b, le' (f a) (f b) = le a b) :
    ∀ l : List α, sortBy le' (l.map f) = (sortBy le l).map f
  | [] => rfl
  | x :: l => by
    rw [List.map_cons]
    show insertBy le' (f x) (sortBy le' (l.map f)) = (insertBy le x (sortBy le l)).map f
    rw [sortBy_map f h l, insertBy_map f h]

theorem topk_scaled {c : ℚ} (hc : 0 < c) (norm : List ℚ) (k : ℕ) : topk (norm.map fun x => c * x) k = topk norm k := by
  unfold topk
  rw [List.zipIdx_map, sortBy_map (le := fun a b : ℚ × Nat => decide (b.1 ≤ a.1)) _ (by
    intro a b
    simp only [Prod.map_fst, decide_eq_decide]
    exact mul_le_mul_iff_right₀ hc), ← List.map_take, List.map_map]
  rfl

theorem meanAbs_scaled (c : ℚ) (l : List ℚ) : meanAbs (l.map fun x => c * x) = |c| * meanAbs l := by
  unfold meanAbs
  rw [List.map_map, List.length_map]
  have : ((fun w : ℚ => |w|) ∘ fun x => c * x) = fun x => |c| * |x| := by
    funext x
    exact abs_mul c x
  rw [this, List.sum_map_mul_left, mul_div_assoc]

theorem weights_scaled (c : ℚ) (outs : List Out) :
    weights (scaled c outs) = (weights outs).map fun p => (p.1.map fun row => row.map fun x => c * x, p.2) := by
  induction outs with
  | nil => rfl
  | cons o l ih =>
    cases hw : o.weight <;> simp_all [weights, scaled]

theorem score_scaled (c : ℚ) (outs : List Out) (i : ℕ) : score (scaled c outs) i = |c| * score outs i := by
  unfold score
  rw [weights_scaled, List.map_map, List.length_map, ← mul_div_assoc, ← List.sum_map_mul_left]
  congr 2
  apply List.map_congr_left
  intro p _
  show meanAbs ((p.1.map _).getD (p.2 + i) []) = _
  rw [← meanAbs_scaled]
  congr 1
  rw [List.getD_eq_getElem?_getD, List.getD_eq_getElem?_getD, List.getElem?_map]
  cases p.1[p.2 + i]? <;> rfl

theorem weights_ne {outs : List Out} (hw : ∃ o ∈ outs, o.weight ≠ none) : weights outs ≠ [] := by
  obtain ⟨o, ho, h⟩ := hw
  intro hc
  obtain ⟨w, hw⟩ := Option.ne_none_iff_exists'.1 h
  have : (w, o.start) ∈ weights outs := List.mem_filterMap.2 ⟨o, ho, by simp [hw]⟩
  rw [hc] at this
  cases this

theorem generate_eq (norm : List ℚ) (k : Int) : generateMask norm.length norm k = l1Mask norm k := by
  unfold generateMask l1Mask
  by_cases h : k < 0 ∨ (norm.length : Int) < k
  · rw [if_pos h, if_pos h]
  · rw [if_neg h, if_neg h, if_pos (by
      rw [List.all_eq_true]
      intro i hi
      simpa using topk_lt hi)]
    rfl

end Verif.L1Norm
