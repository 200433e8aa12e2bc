import Verif.Lemmas.L1Norm

/-! C111: L1 pruning keeps the channels of the largest mean absolute weights. -/

namespace Verif.L1Norm
open Verif ChannelUnit SeqChannel

/-- Setting a unit keeps as many channels as the rounded choice says, none of them less important than a
dropped one, and reading it gives that number (or its share). The importance of a channel is its mean
absolute weight in the layers that produce it, on average over these layers; only the rows of the
slice of the unit count. Missing: units without convolutions and linear layers, see `C111_no_weights_violated`, and rounding
above the width, see `C111_exceeds_violated`. -/
theorem C111_set_partial (A : Arith) (u : Cfg) (outs : List Out) (hf : Fits u.n outs) (hw : ∃ o ∈ outs, o.weight ≠ none)
    (c : Choice) {k : ℕ} (hk : validInt A u c = .ok k) (hn : k ≤ u.n) :
    ∃ mask, setChoice A u outs c = .ok mask ∧ Best u.n k (score outs) mask ∧
      readChoice A u mask = toChoice A u k := by
  have hw := weights_ne hw
  have hl : ((List.range u.n).map (score outs)).length = u.n := by simp
  obtain ⟨mask, h1, h2, h3, h4⟩ := C52_l1Mask ((List.range u.n).map (score outs)) k (by rw [hl]; exact hn)
  rw [← generate_eq, hl] at h1
  have h3 : mask.count true = k := by
    rw [← h3, count_popcount]
  refine ⟨mask, ?_, ⟨by rw [h2, hl], h3, ?_⟩, ?_⟩
  · unfold setChoice
    rw [hk]
    dsimp only
    rw [unitNorm_eq hf hw]
    exact h1
  · intro i j hi hj
    have li : i < u.n := by
      have := (List.getElem?_eq_some_iff.1 hi).1
      rw [h2, hl] at this
      exact this
    have lj : j < u.n := by
      have := (List.getElem?_eq_some_iff.1 hj).1
      rw [h2, hl] at this
      exact this
    have := h4 i j (by rw [hl]; exact li) (by rw [hl]; exact lj) hi hj
    simpa using this
  · unfold readChoice
    rw [← h3, count_popcount]

example : Fits 4 exOuts ∧ (List.range 4).map (score exOuts) = [1, 2, 11/6, 3] ∧
    setChoice exact ⟨4, false, 1, 1, 9/10⟩ exOuts (.num 2) = .ok [false, true, false, true] ∧
    readChoice exact ⟨4, true, 1, 1, 9/10⟩ [false, true, false, true] = .ok (.ratio (1/2)) := by
  refine ⟨?_, by decide +kernel, by decide +kernel, by decide +kernel⟩
  intro o ho rows hr
  simp only [exOuts, List.mem_cons, List.not_mem_nil, or_false] at ho
  rcases ho with rfl | rfl | rfl <;> simp at hr <;> subst hr <;> decide

/-- The kept channels are determined: if no two channels are equally important, there is only one mask
that keeps a number of channels of which none is less important than a dropped one. -/
theorem C111_determined (n k : ℕ) (s : ℕ → ℚ) (hs : ∀ i j, i < n → j < n → s i = s j → i = j) {m m' : List Bool}
    (h : Best n k s m) (h' : Best n k s m') : m = m' := by
  have key : ∀ (m m' : List Bool), Best n k s m → Best n k s m' → ∀ (i : ℕ), m[i]? = some true → m'[i]? = some true := by
    intro m m' h h' i hi
    by_contra hc
    have li : i < n := h.length ▸ (List.getElem?_eq_some_iff.1 hi).1
    have hi' : m'[i]? = some false := by
      rw [List.getElem?_eq_getElem (by rw [h'.length]; exact li)] at hc ⊢
      simpa using hc
    by_cases hex : ∃ j : ℕ, m'[j]? = some true ∧ m[j]? = some false
    · obtain ⟨j, hj', hj⟩ := hex
      have lj : j < n := h.length ▸ (List.getElem?_eq_some_iff.1 hj).1
      have := hs i j li lj (le_antisymm (h'.best j i hj' hi') (h.best i j hi hj))
      subst this
      rw [hj] at hi
      cases hi
    · have hsub : ∀ j : ℕ, m'[j]? = some true → m[j]? = some true := by
        intro j hj
        have lj : j < n := h'.length ▸ (List.getElem?_eq_some_iff.1 hj).1
        cases hb : m[j]? with
        | none => rw [List.getElem?_eq_none_iff, h.length] at hb; omega
        | some b =>
          cases b with
          | true => rfl
          | false => exact absurd ⟨j, hj, hb⟩ hex
      have hlt : m'.count true < m.count true := count_lt (by rw [h.length, h'.length]) hsub hi hi'
      rw [h.count, h'.count] at hlt
      omega
  apply List.ext_getElem?
  intro i
  by_cases li : i < n
  · have l1 : i < m.length := by rw [h.length]; exact li
    have l2 : i < m'.length := by rw [h'.length]; exact li
    rw [List.getElem?_eq_getElem l1, List.getElem?_eq_getElem l2]
    have a := key m m' h h' i
    have b := key m' m h' h i
    rw [List.getElem?_eq_getElem l1, List.getElem?_eq_getElem l2] at a b
    cases h1 : m[i] <;> cases h2 : m'[i] <;> simp [h1, h2] at a b ⊢
  · rw [List.getElem?_eq_none (by rw [h.length]; omega), List.getElem?_eq_none (by rw [h'.length]; omega)]

/-- The scale of the weights does not matter. -/
theorem C111_scaled (A : Arith) (u : Cfg) (outs : List Out) (hf : Fits u.n outs) (hw : ∃ o ∈ outs, o.weight ≠ none)
    (c : Choice) {q : ℚ} (hq : q ≠ 0) : setChoice A u (scaled q outs) c = setChoice A u outs c := by
  have hw := weights_ne hw
  have hf' : Fits u.n (scaled q outs) := by
    intro o ho rows hr
    obtain ⟨o', ho', rfl⟩ := List.mem_map.1 ho
    dsimp only at hr ⊢
    obtain ⟨w, hw, rfl⟩ := Option.map_eq_some_iff.1 hr
    have := hf o' ho' w hw
    simpa using this
  have hw' : weights (scaled q outs) ≠ [] := by
    rw [weights_scaled]
    simpa using hw
  unfold setChoice
  rw [unitNorm_eq hf hw, unitNorm_eq hf' hw']
  have e : (List.range u.n).map (score (scaled q outs)) = ((List.range u.n).map (score outs)).map fun x => |q| * x := by
    rw [List.map_map]
    apply List.map_congr_left
    intro i _
    exact score_scaled q outs i
  rw [e]
  cases validInt A u c with
  | error e => rfl
  | ok k =>
    dsimp only
    unfold generateMask
    rw [topk_scaled (abs_pos.2 hq), List.length_map]

example : setChoice exact ⟨4, false, 1, 1, 9/10⟩ (scaled (-3) exOuts) (.num 3) = .ok [false, true, true, true] := by decide +kernel

/-- The order of the layers and other layers (normalisations) do not matter: only the convolutions and
linear layers do. -/
theorem C111_layers (A : Arith) (u : Cfg) (outs outs' : List Out) (hf : Fits u.n outs) (hf' : Fits u.n outs')
    (hp : (outs.filter fun o => o.weight.isSome).Perm (outs'.filter fun o => o.weight.isSome)) (c : Choice) :
    setChoice A u outs c = setChoice A u outs' c := by
  have hd : ∀ l : List Out, weights l = weights (l.filter fun o => o.weight.isSome) := by
    intro l
    unfold weights
    rw [List.filterMap_filter]
    congr 1
    funext o
    cases o.weight <;> rfl
  have hpw : (weights outs).Perm (weights outs') := by
    rw [hd outs, hd outs']
    exact hp.filterMap _
  have hs : ∀ i, score outs i = score outs' i := by
    intro i
    unfold score
    rw [(hpw.map _).sum_eq, hpw.length_eq]
  by_cases hw : ∃ o ∈ outs, o.weight ≠ none
  · have hw := weights_ne hw
    have hw' : weights outs' ≠ [] := fun h => hw (by rw [h] at hpw; exact hpw.eq_nil)
    unfold setChoice
    rw [unitNorm_eq hf hw, unitNorm_eq hf' hw']
    rw [funext hs]
  · have h1 : ∀ o ∈ outs, o.weight = none := fun o ho => by
      by_contra h
      exact hw ⟨o, ho, h⟩
    have h2 : ∀ o ∈ outs', o.weight = none := fun o ho => by
      by_contra h
      obtain ⟨w, hw2⟩ := Option.ne_none_iff_exists'.1 h
      have : o ∈ outs'.filter fun o => o.weight.isSome := List.mem_filter.2 ⟨ho, by simp [hw2]⟩
      have := hp.mem_iff.2 this
      rw [h1 o (List.mem_filter.1 this).1] at hw2
      cases hw2
    unfold setChoice unitNorm
    rw [weights_nil h1, weights_nil h2]

example : setChoice exact ⟨4, false, 1, 1, 9/10⟩ exOuts.reverse (.num 2) = .ok [false, true, false, true] := by decide +kernel

/-- With the same weights fewer channels are among more of them. -/
theorem C111_nested (A : Arith) (u : Cfg) (outs : List Out) (c c' : Choice) {k k' : Int} (hk : validInt A u c = .ok k)
    (hk' : validInt A u c' = .ok k') (hle : k ≤ k') {m m' : List Bool} (hm : setChoice A u outs c = .ok m)
    (hm' : setChoice A u outs c' = .ok m') : ∀ (i : ℕ), m[i]? = some true → m'[i]? = some true := by
  unfold setChoice at hm hm'
  rw [hk] at hm
  rw [hk'] at hm'
  dsimp only at hm hm'
  generalize unitNorm outs = q at hm hm'
  cases q with
  | error e => cases hm
  | ok norm =>
    dsimp only at hm hm'
    unfold generateMask at hm hm'
    split at hm
    · cases hm
    split at hm
    swap
    · cases hm
    split at hm'
    · cases hm'
    split at hm'
    swap
    · cases hm'
    injection hm with hm
    injection hm' with hm'
    subst hm hm'
    intro i hi
    rw [List.getElem?_map] at hi ⊢
    obtain ⟨j, hj, hd⟩ := Option.map_eq_some_iff.1 hi
    rw [hj]
    simp only [decide_eq_true_eq, Option.map_some, Option.some.injEq] at hd ⊢
    unfold topk at hd ⊢
    obtain ⟨x, hx, rfl⟩ := List.mem_map.1 hd
    refine List.mem_map.2 ⟨x, ?_, rfl⟩
    exact (List.take_subset_take_left _ (by omega)) hx

example : setChoice exact ⟨4, false, 1, 1, 9/10⟩ exOuts (.num 1) = .ok [false, false, false, true] ∧
    setChoice exact ⟨4, true, 1, 1, 9/10⟩ exOuts (.ratio (3/4)) = .ok [false, true, true, true] := by decide +kernel

/-- Channels without any weight are dropped first: none of them is kept as long as there are enough
others (if one is kept, all dropped ones have no weight either). Missing: units that cannot be set, see
`C111_no_weights_violated`. -/
theorem C111_dead_partial (A : Arith) (u : Cfg) (outs : List Out) (hf : Fits u.n outs) (hw : ∃ o ∈ outs, o.weight ≠ none)
    (c : Choice) {k : ℕ} (hk : validInt A u c = .ok k) {mask : List Bool} (hm : setChoice A u outs c = .ok mask)
    {i j : ℕ} (hi : mask[i]? = some true) (hj : mask[j]? = some false) (h0 : score outs i = 0) :
    ∀ o ∈ outs, ∀ rows, o.weight = some rows → ∀ w ∈ rows.getD (o.start + j) [], w = 0 := by
  have hn : k ≤ u.n := by
    by_contra hc
    unfold setChoice at hm
    rw [hk] at hm
    dsimp only at hm
    rw [unitNorm_eq hf (weights_ne hw)] at hm
    dsimp only at hm
    unfold generateMask at hm
    rw [if_pos (by right; simp; omega)] at hm
    cases hm
  obtain ⟨m, h1, h2, _⟩ := C111_set_partial A u outs hf hw c hk hn
  rw [h1] at hm
  injection hm with hm
  subst hm
  have hle := h2.best i j hi hj
  rw [h0] at hle
  have hpos : ∀ l : List ℚ, 0 ≤ meanAbs l := fun l => div_nonneg (List.sum_nonneg (by simp)) (by positivity)
  intro o ho rows hr w hwm
  have hmem : (rows, o.start) ∈ weights outs := List.mem_filterMap.2 ⟨o, ho, by simp [hr]⟩
  have hlen : 0 < (weights outs).length := List.length_pos_of_mem hmem
  have hsum : ((weights outs).map fun p => meanAbs (p.1.getD (p.2 + j) [])).sum ≤ 0 := by
    unfold score at hle
    rcases div_nonpos_iff.1 hle with h | h
    · exact absurd h.2 (by push Not; exact_mod_cast hlen)
    · exact h.1
  have h3 : meanAbs (rows.getD (o.start + j) []) ≤ 0 :=
    le_trans (List.single_le_sum (by intro x hx; obtain ⟨p, _, rfl⟩ := List.mem_map.1 hx; exact hpos _) _ (List.mem_map.2 ⟨_, hmem, rfl⟩)) hsum
  have h4 : ((rows.getD (o.start + j) []).map fun w => |w|).sum ≤ 0 := by
    unfold meanAbs at h3
    have hl : 0 < (rows.getD (o.start + j) []).length := List.length_pos_of_mem hwm
    rcases div_nonpos_iff.1 h3 with h | h
    · exact absurd h.2 (by push Not; exact_mod_cast hl)
    · exact h.1
  have h5 : |w| ≤ 0 := le_trans (List.single_le_sum (by simp) _ (List.mem_map.2 ⟨_, hwm, rfl⟩)) h4
  exact abs_nonpos_iff.1 h5

example : setChoice exact ⟨3, false, 1, 1, 9/10⟩ [⟨some [[0, 0], [1, 2], [0, 0]], 0, 3⟩] (.num 1) = .ok [false, true, false] ∧
    setChoice exact ⟨3, false, 1, 1, 9/10⟩ [⟨some [[0, 0], [1, 2], [0, 0]], 0, 3⟩] (.num 2) = .ok [true, true, false] := by
  decide +kernel

/-- DISAGREEMENT: a unit can be set to any of its choices. A unit none of whose producing layers is a
convolution or linear layer can never be set: the average of no norms is a division by zero. -/
theorem C111_no_weights_violated (A : Arith) (u : Cfg) (outs : List Out) (h : ∀ o ∈ outs, o.weight = none) (c : Choice)
    {k : Int} (hk : validInt A u c = .ok k) : setChoice A u outs c = .error .zeroDivision := by
  unfold setChoice unitNorm
  rw [hk, weights_nil h]

example : validInt exact ⟨4, false, 1, 1, 9/10⟩ (.num 4) = .ok 4 ∧
    setChoice exact ⟨4, false, 1, 1, 9/10⟩ [⟨none, 0, 4⟩] (.num 4) = .error .zeroDivision := by decide +kernel

/-- DISAGREEMENT: rounding a legal number of channels should give a legal one. With a divisor that does
not divide the width it may be larger than the width, and is then refused. -/
theorem C111_exceeds_violated (A : Arith) (u : Cfg) (outs : List Out) (hf : Fits u.n outs) (hw : ∃ o ∈ outs, o.weight ≠ none)
    (c : Choice) {k : Int} (hk : validInt A u c = .ok k) (hn : u.n < k) : setChoice A u outs c = .error .runtime := by
  unfold setChoice
  rw [hk]
  dsimp only
  rw [unitNorm_eq hf (weights_ne hw)]
  dsimp only
  unfold generateMask
  exact if_pos (by right; simpa using hn)

example : setChoice exact ⟨4, false, 3, 1, 9/10⟩ exOuts (.num 3) = .ok [false, true, true, true] ∧
    setChoice exact ⟨4, false, 8, 1, 9/10⟩ exOuts (.num 4) = .error .runtime := by decide +kernel

/-- A layer of which the unit holds a single channel is averaged in with that one value for every channel,
whichever of the two layers comes first. -/
theorem C111_single_row (rows : List (List ℚ)) (row : List ℚ) (start n : ℕ) (hn : 2 ≤ n) (hl : start + n ≤ rows.length) :
    unitNorm [⟨some rows, start, start + n⟩, ⟨some [row], 0, 1⟩] =
      .ok ((List.range n).map fun (i : ℕ) => (meanAbs (rows.getD (start + i) []) + meanAbs row) / 2) ∧
    unitNorm [⟨some [row], 0, 1⟩, ⟨some rows, start, start + n⟩] =
      .ok ((List.range n).map fun (i : ℕ) => (meanAbs (rows.getD (start + i) []) + meanAbs row) / 2) := by
  have h1 : l1Norm rows start (start + n) = (List.range n).map fun i => meanAbs (rows.getD (start + i) []) := l1Norm_eq rfl hl
  have h2 : l1Norm [row] 0 1 = [meanAbs row] := rfl
  obtain ⟨m, rfl⟩ : ∃ m, n = m + 2 := ⟨n - 2, by omega⟩
  have hl1 : ((List.range (m + 2)).map fun i => meanAbs (rows.getD (start + i) [])).length ≠ 1 := by simp
  generalize hv : ((List.range (m + 2)).map fun (i : ℕ) => meanAbs (rows.getD (start + i) [])) = v at h1 hl1
  have hr : ((List.range (m + 2)).map fun (i : ℕ) => (meanAbs (rows.getD (start + i) []) + meanAbs row) / 2)
      = v.map fun x => (x + meanAbs row) / 2 := by
    rw [← hv, List.map_map]
    rfl
  rw [hr]
  have hlen : v.length = m + 2 := by rw [← hv]; simp
  obtain ⟨a, b, l, rfl⟩ : ∃ a b l, v = a :: b :: l := by
    match v, hlen with
    | a :: b :: l, _ => exact ⟨a, b, l, rfl⟩
  constructor
  · simp [unitNorm, sumNorms, addNorm, h1, h2]
  · simp [unitNorm, sumNorms, addNorm, h1, h2, add_comm]

example : unitNorm [⟨some [[1, -1], [4, 2]], 0, 2⟩, ⟨some [[5]], 0, 1⟩] = .ok [3, 4] := by decide +kernel

end Verif.L1Norm
