import Verif.Lemmas.ChannelUnit

/-! C07: candidates of channel units. -/

namespace Verif.ChannelUnit
open Verif SeqChannel MakeDivisible

/-! ### Properties: number mode -/

/-- C07: the prepared candidates are sorted, one per request, and every one of them
is the rounded form of a request. -/
theorem C07_candidates_sorted (A : Arith) (u : Cfg) (cs l : List Choice)
    (h : prepareCandidates A u cs = .ok l) :
    l.Pairwise (fun a b => Choice.value a ≤ Choice.value b) ∧ l.length = cs.length ∧
    ∀ c ∈ l, ∃ r ∈ cs, prepareOne A u r = .ok c := by
  unfold prepareCandidates at h
  split at h
  · cases h
  · rename_i l' hl'
    injection h with h
    subst h
    obtain ⟨h1, h2⟩ := mapM_ok_mem _ _ _ hl'
    refine ⟨?_, by rw [length_sortBy, h1], fun c hc => h2 c (mem_sortBy.1 hc)⟩
    have := sortBy_sorted (le := fun a b => decide (Choice.value a ≤ Choice.value b))
      (fun a b c h1 h2 => by simp at *; linarith) (fun a b => by simp; exact le_total _ _) l'
    simpa using this

example : prepareCandidates exact ⟨32, false, 8, 1, 9/10⟩ [.num 32, .num 9, .num 20] =
    .ok [.num 16, .num 24, .num 32] := by decide +kernel

/-- C07: one request of the wrong type (a ratio in number mode, a number in ratio
mode) makes the whole list of candidates be refused. -/
theorem C07_types (A : Arith) (u : Cfg) (cs : List Choice) (c : Choice) (hc : c ∈ cs)
    (h : match c with
      | .num _ => u.ratioMode = true
      | .ratio _ => u.ratioMode = false) :
    ∃ e, prepareCandidates A u cs = .error e := by
  have h1 : prepareOne A u c = .error .assertion := by
    cases c <;> simp only at h <;> simp [prepareOne, h]
  clear h
  have h2 : ∃ e, cs.mapM (prepareOne A u) = .error e := by
    induction cs with
    | nil => cases hc
    | cons a cs ih =>
      rw [List.mapM_cons]
      rcases List.mem_cons.mp hc with e1 | e1
      · subst e1; exact ⟨_, by simp [h1, bind, Except.bind]; rfl⟩
      · obtain ⟨e, he⟩ := ih e1
        cases ha : prepareOne A u a with
        | error x => exact ⟨x, by simp [ha, bind, Except.bind]⟩
        | ok v => exact ⟨e, by simp [ha, he, bind, Except.bind]⟩
  obtain ⟨e, he⟩ := h2
  exact ⟨e, by simp [prepareCandidates, he]⟩

/-- C07 (number mode): when the divisor divides the width and the effective
minimum, and the requests lie within the width, every candidate is a multiple of
the divisor between the minimum and the width. Missing: other divisors and requests, see `C07_candidate_exceeds_width_violated`. -/
theorem C07_candidates_legal_partial (A : Arith) (u : Cfg) (hmode : u.ratioMode = false)
    (hd : 1 ≤ u.divisor) (hr0 : 0 ≤ u.minRatio) (hr1 : u.minRatio ≤ 1)
    (hdv : u.divisor ∣ effMin u) (hdn : u.divisor ∣ (u.n : Int)) (hmn : effMin u ≤ u.n)
    (cs l : List Choice) (hcs : ∀ c ∈ cs, ∃ k : Int, c = .num k ∧ 0 ≤ k ∧ k ≤ u.n)
    (h : prepareCandidates A u cs = .ok l) :
    ∀ c ∈ l, ∃ k : Int, c = .num k ∧ u.divisor ∣ k ∧ effMin u ≤ k ∧ k ≤ u.n := by
  intro c hc
  obtain ⟨r, hrm, hrc⟩ := (C07_candidates_sorted A u cs l h).2.2 c hc
  obtain ⟨k, rfl, hk0, hkn⟩ := hcs r hrm
  obtain ⟨a, ha, ham, had⟩ := mkDiv_ok u k hk0 hd
  have : c = .num a := by
    simp [prepareOne, hmode, ha, Except.map] at hrc
    exact hrc.symm
  refine ⟨a, this, had hdv, ham, ?_⟩
  exact mkDiv_mono u k u.n a u.n hk0 hkn hd hr0 hdv ha
    (mkDiv_fixpoint u u.n hd hdn hmn hr1)

/-- C07 violated: the candidates are not distinct, three requests collapse to one
number, which stays in the list three times. -/
theorem C07_candidates_duplicate_violated :
    prepareCandidates exact ⟨32, false, 8, 1, 9/10⟩ [.num 1, .num 4, .num 8] =
      .ok [.num 8, .num 8, .num 8] := by decide +kernel

/-- C07 violated: for a width that the divisor does not divide a candidate can
exceed the width (16 channels out of 10); selecting it activates 10 channels,
a number that is not a candidate. -/
theorem C07_candidate_exceeds_width_violated :
    prepareCandidates exact ⟨10, false, 8, 1, 9/10⟩ [.num 10] = .ok [.num 16] ∧
    (setOneShot exact ⟨10, false, 8, 1, 9/10⟩ [.num 16] (.num 16)).map popcount = .ok 10 ∧
    setOneShot exact ⟨10, false, 8, 1, 9/10⟩ [.num 16] (.num 10) = .error .assertion := by
  decide +kernel

/-- C07: a request that is not a candidate is rejected. -/
theorem C07_set_rejects (A : Arith) (u : Cfg) (cands : List Choice) (c : Choice)
    (h : Choice.value c ∉ cands.map Choice.value) :
    setOneShot A u cands c = .error .assertion := by
  simp only [setOneShot]; rw [if_neg h]

/-- C07 (number mode): every legal candidate can be selected, and then exactly that
many leading channels are active. Missing: candidates that are not legal, see `C07_candidate_exceeds_width_violated` and
`C07_reround_violated`. -/
theorem C07_set_number_partial (A : Arith) (u : Cfg) (cands : List Choice) (k : Int)
    (hmode : u.ratioMode = false) (hd : 1 ≤ u.divisor) (hr1 : u.minRatio ≤ 1)
    (hk : u.divisor ∣ k) (hm : effMin u ≤ k) (hkn : k ≤ u.n) (hmem : Choice.num k ∈ cands) :
    ∃ mask, setOneShot A u cands (.num k) = .ok mask ∧ mask.length = u.n ∧
      (∀ i : Nat, i < u.n → mask[i]? = some (decide ((i : Int) < k))) ∧
      (popcount mask : Int) = k := by
  have hmem' : Choice.value (.num k) ∈ cands.map Choice.value := List.mem_map_of_mem hmem
  have hk0 : 0 ≤ k := by unfold effMin at hm; omega
  refine ⟨prefixMask u.n k, ?_, prefixMask_length _ _, fun i hi => prefixMask_get _ _ hk0 i hi, ?_⟩
  · have hv : validInt A u (.num k) = .ok k := mkDiv_fixpoint u k hd hk hm hr1
    simp only [setOneShot]
    rw [if_pos hmem', hv]
    simp only [toChoice, hmode, Bool.false_eq_true, if_false]
    rw [if_pos hmem']
    rfl
  · rw [popcount_prefixMask _ _ hk0]; omega

example : setOneShot exact ⟨32, false, 8, 1, 9/10⟩ [.num 8, .num 16] (.num 16) =
    .ok (prefixMask 32 16) := by decide +kernel

/-- C07 violated: with a `min_value` above the divisor that is not a multiple of it,
a prepared candidate (17) is rounded again (to 16) when it is selected, and
the selection is rejected. -/
theorem C07_reround_violated :
    prepareCandidates exact ⟨32, false, 8, 9, 9/10⟩ [.num 11] = .ok [.num 17] ∧
    setOneShot exact ⟨32, false, 8, 9, 9/10⟩ [.num 17] (.num 17) = .error .assertion := by
  decide +kernel

/-! ### Properties: ratio mode -/

/-- C07 (ratio mode): if converting `k` channels to a ratio and back is exact, every
legal candidate ratio can be selected and activates exactly `k` channels, the
same number as selecting `k` in number mode. Missing: ratios that are not converted exactly, see
`C07_float_candidate_rejected_violated` and `C07_float_wrong_count_violated`. -/
theorem C07_set_ratio_partial (A : Arith) (u : Cfg) (cands : List Choice) (k : Int)
    (hmode : u.ratioMode = true) (hn : 1 ≤ u.n) (hd : 1 ≤ u.divisor) (hr1 : u.minRatio ≤ 1)
    (hk : u.divisor ∣ k) (hm : effMin u ≤ k) (hkn : k ≤ u.n)
    (hround : pyInt (A.mul u.n (A.div k u.n)) = k)
    (hmem : Choice.ratio (A.div k u.n) ∈ cands) :
    setOneShot A u cands (.ratio (A.div k u.n)) = .ok (prefixMask u.n k) ∧
    (popcount (prefixMask u.n k) : Int) = k := by
  have hmem' : Choice.value (.ratio (A.div k u.n)) ∈ cands.map Choice.value :=
    List.mem_map_of_mem hmem
  have hk1 : 1 ≤ k := by unfold effMin at hm; omega
  have h2 : ratio2num A u (.ratio (A.div k u.n)) = k := by
    simp only [ratio2num, hround]; omega
  refine ⟨?_, by rw [popcount_prefixMask _ _ (by omega)]; omega⟩
  have hv : validInt A u (.ratio (A.div k u.n)) = .ok k := by
    unfold validInt; rw [h2]; exact mkDiv_fixpoint u k hd hk hm hr1
  have ht : toChoice A u k = .ok (.ratio (A.div k u.n)) := by
    unfold toChoice num2ratio; rw [if_pos hmode, if_neg (by omega)]; rfl
  simp only [setOneShot]
  rw [if_pos hmem', hv]
  simp only [ht]
  rw [if_pos hmem', h2]

/-- In exact arithmetic the hypothesis of the previous theorem always holds. -/
theorem C07_exact_roundtrip (n : Nat) (k : Int) (hn : 1 ≤ n) :
    pyInt (exact.mul n (exact.div k n)) = k := by
  have : (n : ℚ) ≠ 0 := by
    have : (0 : ℚ) < n := by exact_mod_cast hn
    exact ne_of_gt this
  have : exact.mul n (exact.div k n) = (k : ℚ) := by
    simp only [exact]; field_simp
  rw [this]
  unfold pyInt
  split <;> simp

example : setOneShot exact ⟨32, true, 8, 1, 9/10⟩ [.ratio (1/4), .ratio (1/2)] (.ratio (1/2)) =
    .ok (prefixMask 32 16) := by decide +kernel

/-- C07 violated (floats): with IEEE doubles a unit of 52 channels prepares the
candidate 15/52 and then rejects its own candidate, because
`int(52 * (15 / 52))` is 14. -/
theorem C07_float_candidate_rejected_violated :
    (prepareCandidates ieee ⟨52, true, 1, 1, 9/10⟩ [.ratio (fl64 (3/10)), .ratio 1]) =
      .ok [.ratio (fl64 (15/52)), .ratio 1] ∧
    setOneShot ieee ⟨52, true, 1, 1, 9/10⟩ [.ratio (fl64 (15/52)), .ratio 1]
      (.ratio (fl64 (15/52))) = .error .assertion := by
  decide +kernel

/-- C07 violated (floats): when the neighbouring count is a candidate too, the wrong
number of channels is activated silently: asking for 15/52 activates 14. -/
theorem C07_float_wrong_count_violated :
    (setOneShot ieee ⟨52, true, 1, 1, 9/10⟩ [.ratio (fl64 (14/52)), .ratio (fl64 (15/52))]
      (.ratio (fl64 (15/52)))).map popcount = .ok 14 := by
  decide +kernel

/-- C07 (floats): converting a number of channels to a ratio and back in IEEE doubles loses at most
one channel, for every width below `2^50`. -/
theorem C07_float_roundtrip (n : Nat) (k : Int) (hk : 1 ≤ k) (hkn : k ≤ n) (hn : n < 2 ^ 50) :
    pyInt (ieee.mul n (ieee.div k n)) = k ∨ pyInt (ieee.mul n (ieee.div k n)) = k - 1 :=
  ieee_roundtrip n k hk hkn hn

example : pyInt (ieee.mul 176 (ieee.div 120 176)) = 119 ∧ pyInt (ieee.mul 176 (ieee.div 88 176)) = 88 := by
  decide +kernel

/-- C07 (floats): with a divisor of two or more every legal candidate ratio can be selected in IEEE
doubles, and activates its number of leading channels or one fewer. Missing: a divisor of one, see
`C07_float_candidate_rejected_violated`; one channel may be lost, see `C07_float_divisor_violated`. -/
theorem C07_float_set_partial (u : Cfg) (cands : List Choice) (k : Int)
    (hmode : u.ratioMode = true) (hd : 2 ≤ u.divisor) (hr1 : u.minRatio ≤ 1)
    (hk : u.divisor ∣ k) (hm : effMin u ≤ k) (hkn : k ≤ u.n) (hn : u.n < 2 ^ 50)
    (hmem : Choice.ratio (ieee.div k u.n) ∈ cands) :
    ∃ mask, setOneShot ieee u cands (.ratio (ieee.div k u.n)) = .ok mask ∧
      ((popcount mask : Int) = k ∨ (popcount mask : Int) = k - 1) :=
  ieee_set u cands k hmode hd hr1 hk hm hkn hn hmem

example : ∃ mask, setOneShot ieee ⟨176, true, 8, 1, 9/10⟩ [.ratio (ieee.div 120 176), .ratio 1]
    (.ratio (ieee.div 120 176)) = .ok mask ∧
      ((popcount mask : Int) = 120 ∨ (popcount mask : Int) = 120 - 1) :=
  C07_float_set_partial ⟨176, true, 8, 1, 9/10⟩ _ 120 rfl (by decide) (by norm_num) (by decide)
    (by decide) (by decide) (by decide) List.mem_cons_self

/-- DISAGREEMENT (floats): with divisor 8 a unit of 176 channels accepts its own candidate 120/176
and activates 119 channels, which is not a multiple of the divisor: the valid number is converted
to a ratio and back once more. -/
theorem C07_float_divisor_violated :
    prepareCandidates ieee ⟨176, true, 8, 1, 9/10⟩ [.ratio (fl64 (68/100)), .ratio 1] =
      .ok [.ratio (fl64 (120/176)), .ratio 1] ∧
    (setOneShot ieee ⟨176, true, 8, 1, 9/10⟩ [.ratio (fl64 (120/176)), .ratio 1]
      (.ratio (fl64 (120/176)))).map popcount = .ok 119 := by
  decide +kernel

/-! ### Sequential and L1 units -/

/-- A sampled number of a sequential unit is at least one, and it is within the
width when the divisor divides width and minimum. Missing: other divisors, see `C07_sample_exceeds_width_violated`. -/
theorem C07_sample_legal_partial (A : Arith) (u : Cfg) (r : Int) (h1 : 1 ≤ r) (hrn : r ≤ u.n)
    (hmode : u.ratioMode = false) (hd : 1 ≤ u.divisor) (hr0 : 0 ≤ u.minRatio) (hr1 : u.minRatio ≤ 1)
    (hdv : u.divisor ∣ effMin u) (hdn : u.divisor ∣ (u.n : Int)) (hmn : effMin u ≤ u.n) :
    ∃ k : Int, sampleSequential A u r = .ok (.num k) ∧ 1 ≤ k ∧ k ≤ u.n ∧
      (setSequential A u (.num k)).map popcount = .ok k.toNat := by
  obtain ⟨a, ha, ham, had⟩ := mkDiv_ok u r (by omega) hd
  have han : a ≤ u.n := mkDiv_mono u r u.n a u.n (by omega) hrn hd hr0 hdv ha
    (mkDiv_fixpoint u u.n hd hdn hmn hr1)
  have ha1 : 1 ≤ a := by unfold effMin at ham; omega
  refine ⟨a, by simp [sampleSequential, ha, toChoice, hmode], ha1, han, ?_⟩
  have hv : validInt A u (.num a) = .ok a := mkDiv_fixpoint u a hd (had hdv) ham hr1
  simp only [setSequential, hv, Except.map, popcount_prefixMask _ _ (show 0 ≤ a by omega)]
  congr 1; omega

/-- C07 violated: with the divisor 8 on a width of 10, drawing 10 samples 16
channels; an L1 unit cannot even apply its own sample. -/
theorem C07_sample_exceeds_width_violated :
    sampleSequential exact ⟨10, false, 8, 1, 9/10⟩ 10 = .ok (.num 16) ∧
    l1Mask [1, 2, 3, 4, 5, 6, 7, 8, 9, 10] 16 = .error .runtime := by decide +kernel

/-- C52: a number of channels below zero or above the width is refused. -/
theorem C52_refused (norm : List ℚ) (k : Int) (h : k < 0 ∨ (norm.length : Int) < k) :
    l1Mask norm k = .error .runtime := by
  rw [l1Mask, if_pos h]

/-- C52: L1 pruning keeps exactly the requested number of channels, and no dropped
channel has a larger norm than a kept one. -/
theorem C52_l1Mask (norm : List ℚ) (k : Nat) (hk : k ≤ norm.length) :
    ∃ mask, l1Mask norm k = .ok mask ∧ mask.length = norm.length ∧ popcount mask = k ∧
      ∀ (i j : Nat) (hi : i < norm.length) (hj : j < norm.length),
        mask[i]? = some true → mask[j]? = some false → norm[j] ≤ norm[i] := by
  set s := sortBy (fun a b : ℚ × Nat => decide (b.1 ≤ a.1)) norm.zipIdx with hs
  have hp : s.Perm norm.zipIdx := sortBy_perm _
  have hsorted : s.Pairwise (fun a b => b.1 ≤ a.1) := by
    have := sortBy_sorted (le := fun a b : ℚ × Nat => decide (b.1 ≤ a.1))
      (fun a b c h1 h2 => by simp at *; linarith) (fun a b => by simp; exact le_total _ _) norm.zipIdx
    simpa using this
  have hnd : (s.map (·.2)).Nodup := by
    refine (hp.map _).nodup_iff.2 ?_
    rw [List.zipIdx_map_snd]
    exact List.nodup_range'
  set idx := (s.take k).map (·.2) with hidx
  have hidxnd : idx.Nodup := by
    rw [hidx, List.map_take]; exact hnd.sublist (List.take_sublist _ _)
  have hlen : idx.length = k := by
    simp [hidx, hs, length_sortBy, hk]
  have hidxlt : ∀ i ∈ idx, i < norm.length := by
    intro i hi
    obtain ⟨x, hx, rfl⟩ := List.mem_map.1 hi
    have := hp.mem_iff.1 (List.mem_of_mem_take hx)
    have := List.snd_lt_of_mem_zipIdx this
    simpa using this
  refine ⟨(List.range norm.length).map (fun i => decide (i ∈ idx)), ?_, by simp, ?_, ?_⟩
  · unfold l1Mask
    rw [if_neg (by omega)]
    simp [hidx, hs]
  · simp only [popcount, List.countP_map]
    have : ((List.range norm.length).filter (fun i => decide (i ∈ idx))).Perm idx := by
      rw [List.perm_ext_iff_of_nodup (List.nodup_range.filter _) hidxnd]
      intro i
      simp only [List.mem_filter, List.mem_range, decide_eq_true_eq]
      exact ⟨fun h => h.2, fun h => ⟨hidxlt i h, h⟩⟩
    rw [← hlen, ← this.length_eq, List.countP_eq_length_filter]
    rfl
  · intro i j hi hj h1 h2
    simp [hi] at h1
    simp [hj] at h2
    -- the pair of `j` is in the tail
    have hmemj : (norm[j], j) ∈ s := hp.mem_iff.2 (by
      rw [List.mem_zipIdx_iff_getElem?]; simp [hj])
    obtain ⟨x, hx, hxi⟩ := List.mem_map.1 h1
    have hxn : x = (norm[i], i) := by
      have := hp.mem_iff.1 (List.mem_of_mem_take hx)
      obtain ⟨x1, x2⟩ := x
      simp only at hxi
      subst hxi
      rw [List.mem_zipIdx_iff_getElem?] at this
      simp [hi] at this
      simp [this]
    have hsplit := List.take_append_drop k s
    rw [← hsplit] at hmemj hsorted
    rcases List.mem_append.1 hmemj with h | h
    · exact absurd (List.mem_map.2 ⟨_, h, rfl⟩) h2
    · have := (List.pairwise_append.1 hsorted).2.2 x hx _ h
      rw [hxn] at this
      exact this

example : l1Mask [3, 1, 2, 5] 2 = .ok [true, false, false, true] := by decide +kernel

/-- In ratio mode a unit without channels can neither round a ratio nor draw a choice. -/
theorem C07_empty_refused (A : Arith) (u : Cfg) (h : u.n = 0) (hr : u.ratioMode = true) :
    (∀ q k, mkDiv u (ratio2num A u (.ratio q)) = .ok k → prepareOne A u (.ratio q) = .error .zeroDivision) ∧
    (∀ r k, mkDiv u r = .ok k → sampleSequential A u r = .error .zeroDivision) := by
  refine ⟨fun q k hk => ?_, fun r k hk => ?_⟩
  · simp [prepareOne, hr, hk, toChoice, num2ratio, h, Except.map]
  · simp [sampleSequential, hk, toChoice, hr, num2ratio, h, Except.map]

/-- C52: no other set of as many channels has a larger total norm than the kept ones. -/
theorem C52_best (norm : List ℚ) (k : ℕ) (mask : List Bool) (h : l1Mask norm k = .ok mask) (T : Finset (Fin norm.length))
    (hT : T.card = k) :
    ∑ i ∈ T, norm[i] ≤ ∑ i ∈ Finset.univ.filter (fun i : Fin norm.length => mask[(i : ℕ)]? = some true), norm[i] := by
  have hk : k ≤ norm.length := by
    rw [← hT]; simpa using T.card_le_univ
  obtain ⟨m, h1, h2, h3, h4⟩ := C52_l1Mask norm k hk
  rw [h] at h1
  cases h1
  have hc := popcount_card mask h2
  rw [h3] at hc
  have hmem : ∀ i : Fin norm.length, i ∈ Finset.univ.filter (fun i : Fin norm.length => mask[(i : ℕ)]? = some true) ↔
    mask[(i : ℕ)]? = some true := fun i => by simp
  generalize Finset.univ.filter (fun i : Fin norm.length => mask[(i : ℕ)]? = some true) = S at hc hmem ⊢
  have hcard : (T \ S).card = (S \ T).card := by
    have a := Finset.card_sdiff_add_card_inter T S
    have b := Finset.card_sdiff_add_card_inter S T
    rw [Finset.inter_comm] at b
    omega
  have e1 := Finset.sum_sdiff_sub_sum_sdiff (s₁ := T) (s₂ := S) (f := fun i : Fin norm.length => norm[i])
  have hle : ∀ i ∈ S \ T, ∀ j ∈ T \ S, norm[j] ≤ norm[i] := by
    intro i hi j hj
    rw [Finset.mem_sdiff] at hi hj
    refine h4 i j i.2 j.2 ((hmem i).1 hi.1) ?_
    have hj' := mt (hmem j).2 hj.2
    rw [List.getElem?_eq_getElem (by rw [h2]; exact j.2)] at hj' ⊢
    simpa using hj'
  have key : ∑ i ∈ T \ S, norm[i] ≤ ∑ i ∈ S \ T, norm[i] := by
    rcases (S \ T).eq_empty_or_nonempty with he | hne
    · rw [he, Finset.card_empty, Finset.card_eq_zero] at hcard
      rw [he, hcard]
    · obtain ⟨i0, hi0, hmin⟩ := Finset.exists_min_image (S \ T) (fun i => norm[i]) hne
      refine (Finset.sum_le_card_nsmul _ _ norm[i0] fun j hj => hle i0 hi0 j hj).trans ?_
      rw [hcard]
      exact Finset.card_nsmul_le_sum _ _ _ fun i hi => hmin i hi
  linarith
example : l1Mask [1, 4, 2, 3] (2 : ℕ) = .ok [false, true, false, true] := by decide +kernel

end Verif.ChannelUnit
