import Verif.Lemmas.Calibration

namespace Verif.Calibration
open Verif

/-- After any sequence of batches the matrix is twice the total second moment of all rows,
divided by the number of samples counted: one per sequence of a batch, and one per call for
inputs that are plain matrices. -/
theorem C41_hessian (xs : List Input) (hne : xs ≠ []) (hx : ∀ x ∈ xs, x ≠ Input.other) (hc : ∀ x ∈ xs, 0 < counted x) :
    ∃ s h, run .init xs = .ok s ∧ s.h = some h ∧ s.n = (xs.map counted).sum ∧
      ∀ a b, h a b = 2 * moment (xs.flatMap allRows) a b / ((xs.map counted).sum : Nat) := by
  obtain ⟨s', h', r1, r2, r3, r4⟩ := run_spec xs hx hc .init (fun _ _ => 0) rfl
  have e : s'.n = (xs.map counted).sum := by rw [r3]; simp [St.init]
  refine ⟨s', h', r1, r2, e, ?_⟩
  intro a b
  have hpos : 0 < (xs.map counted).sum := by
    cases xs with
    | nil => exact absurd rfl hne
    | cons x xs =>
      have := hc x (by simp)
      simp
      omega
  have h4 := r4 a b
  rw [e] at h4
  have hq : (((xs.map counted).sum : Nat) : ℚ) ≠ 0 := by exact_mod_cast hpos.ne'
  rw [eq_div_iff hq, h4]
  simp

/-- The order and the grouping into batches of sequences do not matter. -/
theorem C41_grouping (bs cs : List (List (List Vec))) (hb : ∀ l ∈ bs, l ≠ []) (hcs : ∀ l ∈ cs, l ≠ []) (hne : bs ≠ []) (hne' : cs ≠ [])
    (hp : bs.flatten.Perm cs.flatten) :
    ∃ s t h k, run .init (bs.map .seqs) = .ok s ∧ run .init (cs.map .seqs) = .ok t ∧ s.h = some h ∧ t.h = some k ∧
      s.n = t.n ∧ ∀ a b, h a b = k a b := by
  have key : ∀ (ds : List (List (List Vec))), ((ds.map Input.seqs).map counted).sum = ds.flatten.length ∧
      (ds.map Input.seqs).flatMap allRows = ds.flatten.flatten := by
    intro ds
    induction ds with
    | nil => simp
    | cons d ds ih =>
      refine ⟨?_, ?_⟩
      · rw [List.map_cons, List.map_cons, List.sum_cons, ih.1]
        simp [counted]
      · rw [List.map_cons, List.flatMap_cons, ih.2]
        simp [allRows]
  have side : ∀ (ds : List (List (List Vec))), (∀ l ∈ ds, l ≠ []) → (∀ x ∈ ds.map Input.seqs, x ≠ Input.other) ∧ ∀ x ∈ ds.map Input.seqs, 0 < counted x := by
    intro ds h
    constructor
    · intro x hx; obtain ⟨l, _, rfl⟩ := List.mem_map.1 hx; simp
    · intro x hx; obtain ⟨l, hl, rfl⟩ := List.mem_map.1 hx; exact List.length_pos_of_ne_nil (h l hl)
  obtain ⟨s, h, r1, r2, r3, r4⟩ := C41_hessian (bs.map .seqs) (by simp [hne]) (side bs hb).1 (side bs hb).2
  obtain ⟨t, k, q1, q2, q3, q4⟩ := C41_hessian (cs.map .seqs) (by simp [hne']) (side cs hcs).1 (side cs hcs).2
  have hlen : bs.flatten.length = cs.flatten.length := hp.length_eq
  refine ⟨s, t, h, k, r1, q1, r2, q2, ?_, ?_⟩
  · rw [r3, q3, (key bs).1, (key cs).1, hlen]
  · intro a b
    rw [r4, q4, (key bs).1, (key cs).1, (key bs).2, (key cs).2, hlen]
    have : moment bs.flatten.flatten a b = moment cs.flatten.flatten a b :=
      List.Perm.sum_eq (hp.flatten.map _)
    rw [this]

/-- For plain matrices the divisor is the number of calls, not of rows: the same four rows give
different matrices in one call and in two. -/
theorem C41_rows_violated :
    (∃ s h, run .init [.rows [const 1, const 1, const 1, const 1]] = .ok s ∧ s.h = some h ∧ h 0 0 = 8) ∧
    (∃ s h, run .init [.rows [const 1, const 1], .rows [const 1, const 1]] = .ok s ∧ s.h = some h ∧ h 0 0 = 4) :=
  ⟨⟨_, _, rfl, rfl, by norm_num [St.init, gram, const]⟩,
   ⟨_, _, rfl, rfl, by norm_num [St.init, St.merge, gram, const]⟩⟩

/-- Arrays with four dimensions are refused. -/
theorem C41_refused (s : St) : update s .other = .error .assertion := rfl

/-- An empty first batch makes the matrix not a number, for ever. -/
theorem C41_empty_violated (xs : List Input) : ∀ s', run .init (.seqs [] :: xs) = .ok s' → s'.h = none := by
  have key : ∀ (xs : List Input) (s s' : St), s.h = none → run s xs = .ok s' → s'.h = none := by
    intro xs
    induction xs with
    | nil => intro s s' hs h; rw [run] at h; obtain rfl := Except.ok.inj h; exact hs
    | cons x xs ih =>
      intro s s' hs h
      rw [run] at h
      cases hu : update s x with
      | error e => rw [hu] at h; cases h
      | ok t =>
        rw [hu] at h
        refine ih t s' ?_ h
        unfold update at hu
        cases hf : format x with
        | error e => rw [hf] at hu; cases hu
        | ok l =>
          rw [hf] at hu
          obtain rfl := Except.ok.inj hu
          simp [St.merge, hs]
  intro s' h
  exact key xs _ s' rfl h

/-- Several processes with batches of equal size: the same as one process with all of them. Missing: batches of different sizes,
see `C41_distributed_violated`. -/
theorem C41_distributed_partial (s : St) (own : List (List Vec)) (others : List (List (List Vec)))
    (heq : ∀ l ∈ others, l.length = own.length) :
    .ok (updateDist s own others) = update s (.seqs (own :: others).flatten) := by
  have h1 : (own :: others).flatten.length = own.length * (others.length + 1) := by
    rw [List.flatten_cons, List.length_append, List.length_flatten]
    have : others.map List.length = List.replicate others.length own.length := by
      rw [List.eq_replicate_iff]
      refine ⟨by simp, ?_⟩
      intro b hb
      obtain ⟨l, hl, rfl⟩ := List.mem_map.1 hb
      exact heq l hl
    rw [this, List.sum_replicate, smul_eq_mul]
    ring
  have h2 : ∀ ls : List (List (List Vec)), (fun a b => (ls.map fun l => gram l a b).sum) = gram ls.flatten := by
    intro ls
    funext a b
    induction ls with
    | nil => simp [gram]
    | cons l ls ih =>
      rw [List.map_cons, List.sum_cons, ih, gram_eq, gram_eq, gram_eq, List.flatten_cons, List.flatten_append, moment_append]
      ring
  show Except.ok _ = Except.ok _
  unfold updateDist
  rw [h2, h1]

/-- With unequal batches the divisor is not the number of samples. -/
theorem C41_distributed_violated :
    ∃ h, (updateDist .init [[const 1]] [[[const 1], [const 1], [const 1]]]).h = some h ∧ h 0 0 = 4 ∧
      ∃ s h', run .init [.seqs [[const 1], [const 1], [const 1], [const 1]]] = .ok s ∧ s.h = some h' ∧ h' 0 0 = 2 :=
  ⟨_, rfl, by norm_num [St.init, gram, const], _, _, rfl, rfl, by norm_num [St.init, gram, const]⟩

/-- Convolutions: the patches are the inputs of the convolution only without dilation. -/
theorem C41_dilation_violated :
    ∃ x : Int → ℚ, gram [unfold x 2 1 0 2] 0 1 ≠ gram [unfold x 2 1 0 2 (dilation := 2)] 0 1 := by
  refine ⟨fun i => i, ?_⟩
  norm_num [gram, unfold, List.range_succ]

/-- And the sizes fit exactly for ungrouped convolutions. -/
theorem C41_groups_violated (cin groups kh kw : Nat) (hc : 0 < cin) (hg : groups ∣ cin) (hk : 0 < kh) (hw : 0 < kw) :
    patchFeatures cin kh kw = weightColumns cin groups kh kw ↔ groups = 1 := by
  obtain ⟨q, rfl⟩ := hg
  have hg0 : 0 < groups := Nat.pos_of_ne_zero (by rintro rfl; simp at hc)
  have hq : 0 < q := Nat.pos_of_ne_zero (by rintro rfl; simp at hc)
  unfold patchFeatures weightColumns
  rw [Nat.mul_div_cancel_left q hg0]
  constructor
  · intro h
    have h1 := Nat.eq_of_mul_eq_mul_right hw h
    have h2 := Nat.eq_of_mul_eq_mul_right hk h1
    have h3 : groups * q = 1 * q := by omega
    exact Nat.eq_of_mul_eq_mul_right hq h3
  · rintro rfl; simp

/-! Batch norm -/

/-- The calibrated mean is the average over all samples of the mean of the sample, for any
sequence of batches of any sizes. -/
theorem C41_mean (bs : List Batch) (h : ∀ b ∈ bs, ∃ k, 0 < k ∧ ∀ s ∈ b, s.length = k) :
    (calibrateMean bs).avg = (bs.flatten.map mean).sum / bs.flatten.length := by
  unfold calibrateMean Meter.avg
  rw [calibrateMean_eq bs _ h]
  simp [Meter.init]

/-- The calibrated variance is not the variance of the samples: it ignores how the means of
the batches differ, so it depends on how the samples are grouped. -/
theorem C41_var_violated :
    (calibrateVar [[[0], [0]], [[1], [1]]]).map Meter.avg = some 0 ∧
    (calibrateVar [[[0], [0], [1], [1]]]).map Meter.avg = some (1 / 3) := by
  constructor <;> decide +kernel

/-- A batch with one pixel makes it not a number. -/
theorem C41_var_nan_violated : calibrateVar [[[3]], [[1], [2]]] = none := by decide +kernel

/-- Several processes, equal batch sizes: every rank gets what one process would get. Missing: batches of different sizes, see
`C41_meter_violated`. -/
theorem C41_meter_partial (m : Meter) (v : ℚ) (b : Nat) (others : List (ℚ × Nat)) (hb : 0 < b) (heq : ∀ o ∈ others, o.2 = b) :
    m.updateDist v b others = ((v, b) :: others).foldl (fun m o => m.update o.1 o.2) m := by
  have key : ∀ (l : List (ℚ × Nat)) (m : Meter), l.foldl (fun m o => m.update o.1 o.2) m =
      ⟨m.sum + (l.map fun o => o.1 * (o.2 : ℚ)).sum, m.count + (l.map (·.2)).sum⟩ := by
    intro l
    induction l with
    | nil => intro m; simp
    | cons o l ih =>
      intro m
      rw [List.foldl_cons, ih]
      simp only [Meter.update, List.map_cons, List.sum_cons]
      congr 1 <;> ring
  have hsum : (others.map fun o => o.1 * (o.2 : ℚ)).sum = (others.map (·.1)).sum * b := by
    clear key
    induction others with
    | nil => simp
    | cons o l ih =>
      rw [List.map_cons, List.sum_cons, ih (fun x hx => heq x (by simp [hx])), List.map_cons, List.sum_cons, heq o (by simp)]
      ring
  rw [key]
  unfold Meter.updateDist Meter.update
  dsimp only
  congr 1
  rw [List.map_cons, List.sum_cons, hsum]
  have hb' : (b : ℚ) ≠ 0 := by exact_mod_cast hb.ne'
  set S := (others.map (·.2)).sum
  have : ((b + S : Nat) : ℚ) ≠ 0 := by exact_mod_cast (by omega : b + S ≠ 0)
  field_simp

/-- Unequal batch sizes: the ranks disagree, and no rank has the average. -/
theorem C41_meter_violated :
    (Meter.updateDist .init 1 1 [(5, 3)]).avg = 3 / 2 ∧ (Meter.updateDist .init 5 3 [(1, 1)]).avg = 9 / 2 ∧
    ((Meter.init.update 1 1).update 5 3).avg = 4 := by
  refine ⟨by decide +kernel, by decide +kernel, by decide +kernel⟩

/-- Loaders of plain tensors: exactly the wanted number of samples is used, or all there are. -/
theorem C41_samples (ds : List Data) (ht : ∀ d ∈ ds, ∃ n, d = .tensor n) : ∀ (N : Nat), 0 < N →
    ∃ ks, calibrate N ds = .ok ks ∧ ks.sum = min N (ds.map Data.size).sum := by
  induction ds with
  | nil => intro N hN; exact ⟨[], rfl, by simp⟩
  | cons d ds ih =>
    intro N hN
    obtain ⟨n, rfl⟩ := ht d (by simp)
    rw [calibrate]
    by_cases hle : N ≤ n
    · refine ⟨[N], ?_, ?_⟩
      · have : sliceLen n (N : Int) = N := by simp [sliceLen]; omega
        have hle' : (N : Int) ≤ (n : Int) := by exact_mod_cast hle
        simp only [hle', if_true, this]
        simp [pure, Except.pure]
      · simp [Data.size]
        omega
    · obtain ⟨ks, h1, h2⟩ := ih (fun d hd => ht d (by simp [hd])) (N - n) (by omega)
      refine ⟨n :: ks, ?_, ?_⟩
      · have hle' : ¬ (N : Int) ≤ (n : Int) := by exact_mod_cast hle
        have e : ((N : Int) - (n : Nat)) = ((N - n : Nat) : Int) := by omega
        simp only [hle', if_false]
        rw [if_neg (by omega), e, h1]
        rfl
      · rw [List.sum_cons, h2]
        simp only [List.map_cons, List.sum_cons, Data.size]
        omega

/-- Loaders of dictionaries use whole batches, until the number is reached, provided never so
few samples remain that the number of keys covers them. Missing: the other case, see `C41_dict_violated`. -/
theorem C41_dict_partial (keys : Nat) (ns : List Nat) : ∀ (N : Int),
    (∀ k < ns.length, 0 < N - ((ns.take k).sum : Nat) → (keys : Int) < N - ((ns.take k).sum : Nat)) → 0 < N →
    ∃ ks, calibrate N (ns.map (.dict keys ·)) = .ok ks ∧ ks <+: ns ∧ (ks = ns ∨ N ≤ (ks.sum : Nat)) := by
  induction ns with
  | nil => intro N _ _; exact ⟨[], rfl, by simp, Or.inl rfl⟩
  | cons n ns ih =>
    intro N h hN
    have h0 := h 0 (by simp) (by simpa using hN)
    simp at h0
    rw [List.map_cons, calibrate, if_neg (by omega)]
    by_cases hle : N - (n : Int) ≤ 0
    · refine ⟨[n], by rw [if_pos hle]; rfl, by simp, Or.inr (by simp; omega)⟩
    · obtain ⟨ks, h1, h2, h3⟩ := ih (N - n) (by
        intro k hk hp
        have := h (k + 1) (by simpa using hk)
        simp only [List.take_succ_cons, List.sum_cons] at this
        push_cast at this hp ⊢
        have h4 := this (by omega)
        omega) (by omega)
      refine ⟨n :: ks, by rw [if_neg hle, h1]; rfl, by simpa using h2, ?_⟩
      rcases h3 with rfl | h3
      · exact Or.inl rfl
      · right; rw [List.sum_cons]; push_cast [-Nat.cast_list_sum]; omega

/-- Otherwise the calibration fails: batches of 64 with the usual two keys, 66 wanted. -/
theorem C41_dict_violated : calibrate 66 [.dict 2 64, .dict 2 64] = .error .type := by decide

example : ∃ ks, calibrate 100 [.dict 2 64, .dict 2 64, .dict 2 64] = .ok ks ∧ ks = [64, 64] := ⟨_, rfl, by decide⟩

example : (calibrateMean [[[1, 3]], [[4, 4], [0, 2]]]).avg = 7 / 3 := by decide +kernel

/-- What the matrix is for: for every weight row `w` the quadratic form of the accumulated matrix is
twice the sum of the squared responses of `w` to all rows seen, divided by the number of samples. -/
theorem C41_quadratic (k : Nat) (w : Nat → ℚ) (xs : List Input) (hne : xs ≠ []) (hx : ∀ x ∈ xs, x ≠ Input.other)
    (hc : ∀ x ∈ xs, 0 < counted x) :
    ∃ s h, run .init xs = .ok s ∧ s.h = some h ∧
      quadratic k h w = 2 * ((xs.flatMap allRows).map fun x => response k w x ^ 2).sum / ((xs.map counted).sum : Nat) := by
  obtain ⟨s, h, r1, r2, _, r4⟩ := C41_hessian xs hne hx hc
  refine ⟨s, h, r1, r2, ?_⟩
  have : h = fun a b => (2 / ((xs.map counted).sum : Nat) : ℚ) * moment (xs.flatMap allRows) a b := by
    funext a b; rw [r4]; ring
  rw [this, quadratic_smul, quadratic_moment]
  ring

/-- Convolutions without dilation: the quadratic form of the patches of a sample is twice the sum of
the squared outputs of the convolution, and no other features are touched. Missing: dilation, see `C41_dilation_violated`, and
groups, see `C41_groups_violated`. -/
theorem C41_patches_partial (x : Int → ℚ) (w : Nat → ℚ) (k stride pad count : Nat) :
    quadratic k (gram [unfold x k stride pad count]) w = 2 * ((List.range count).map fun p => convAt x w k stride pad p ^ 2).sum ∧
    ∀ a b, k ≤ a → gram [unfold x k stride pad count] a b = 0 := by
  constructor
  · have : gram [unfold x k stride pad count] = fun a b => 2 * moment (unfold x k stride pad count) a b := by
      funext a b; simp [gram, moment]
    rw [this, quadratic_smul, quadratic_moment, unfold, List.map_map]
    congr 2
    apply List.map_congr_left
    intro p _
    simp only [Function.comp_apply]
    congr 1
    unfold response convAt
    congr 1
    apply List.map_congr_left
    intro t ht
    rw [List.mem_range] at ht
    dsimp only
    rw [if_pos ht]
    push_cast
    rw [mul_one]
  · intro a b ha
    have : ¬ a < k := by omega
    simp [gram, unfold, List.map_map, Function.comp_def, this]

example : convAt (fun i => if 0 ≤ i ∧ i < 4 then (i : ℚ) + 1 else 0) (fun _ => 1) 3 2 1 1 = 9 := by decide +kernel

end Verif.Calibration
