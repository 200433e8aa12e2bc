import Verif.Lemmas.LangEval

/-! Property C101: calibration and evaluation in the examples for large models. -/

namespace Verif.LangEval
open Verif

variable {α : Type}

/-! ## Property C101 -/

/-- Folding a text gives its whole windows, one after the other; less than one window is left out. -/
theorem C101_fold (tokens : List α) {L : Nat} (hL : 0 < L) :
    ∃ rows, foldTokens tokens L = .ok rows ∧ (∀ row ∈ rows, row.length = L) ∧ rows.flatten <+: tokens ∧
      tokens.length < rows.flatten.length + L := by
  refine ⟨windows tokens L, fold_eq tokens hL, windows_length, ?_, ?_⟩
  · rw [windows_flatten]
    exact List.take_prefix _ _
  · rw [windows_flatten, List.length_take]
    have h1 := Nat.div_add_mod tokens.length L
    have h2 := Nat.mod_lt tokens.length hL
    rw [Nat.mul_comm] at h1
    omega

example : foldTokens [1, 2, 3, 4, 5, 6, 7] 3 = .ok [[1, 2, 3], [4, 5, 6]] := by rfl

/-- For every text with a whole window and every batch size: the perplexity printed by the evaluation is the exponential of the mean
cost of the predicted tokens of all whole windows. It does not depend on the batch size. -/
theorem C101_perplexity (cost : List α → Nat → ℝ) (tokens : List α) {L size : Nat} (hL : 2 ≤ L) (hs : 0 < size) (hN : L ≤ tokens.length) :
    optEval cost tokens L size = .ok (some (Real.exp
      (((List.range (tokens.length / L)).map (fun k => ((List.range (L - 1)).map (cost ((tokens.drop (k * L)).take L))).sum)).sum /
        ((tokens.length / L) * (L - 1) : Nat)))) := by
  have hne : windows tokens L ≠ [] := by
    unfold windows
    intro h
    have := congrArg List.length h
    rw [List.length_map, List.length_range] at this
    have h2 := Nat.div_pos hN (by omega)
    simp at this
    omega
  unfold optEval
  rw [fold_eq tokens (by omega)]
  dsimp only
  unfold split
  rw [if_neg (by omega)]
  dsimp only
  rw [nll_split cost hL hs _ _ hne (by omega), Option.map_some, exp_spread cost hL windows_length]
  unfold perplexity windows
  rw [List.map_map, List.length_map, List.length_range]
  rfl

/-- Seven tokens, windows of three, batches of one. -/
example : optEval (fun row i => ((row.getD i 0 : Nat) : ℝ)) [1, 2, 3, 4, 5, 6, 7] 3 1 = .ok (some (Real.exp ((1 + 2 + 4 + 5) / 4))) := by
  rw [C101_perplexity _ _ (by norm_num) (by norm_num) (by decide)]
  congr 2
  norm_num [List.range_succ]

/-- DISAGREEMENT: a text shorter than a window has no perplexity, the result is not a number. -/
theorem C101_short_fails (cost : List α → Nat → ℝ) (tokens : List α) {L size : Nat} (hN : tokens.length < L) :
    optEval cost tokens L size = .ok none := by
  have hw : windows tokens L = [] := by
    unfold windows
    rw [Nat.div_eq_of_lt hN]
    rfl
  unfold optEval
  rw [fold_eq tokens (by omega), hw]
  dsimp only
  unfold split
  rw [if_neg (by simp)]
  simp [splitLoop, nllSum, batchLoss]

example : ([1, 2] : List Nat).length < 3 := by decide

/-- With several processes: every row is evaluated exactly once exactly when the number of rows is a multiple of the number of
processes times the batch size. -/
theorem C101_fsdp_rows {len world size : Nat} (hw : 0 < world) (hs : 0 < size) (h : size ≤ len / world) :
    (evaluated len world size).Perm (List.range len) ↔ world * size ∣ len := by
  have hl : 0 < len := by
    rcases Nat.eq_zero_or_pos len with rfl | h'
    · simp at h; omega
    · exact h'
  constructor
  · intro hp
    have := hp.length_eq
    rw [evaluated_length, List.length_range] at this
    refine ⟨perRank len world / size, this.symm.trans ?_⟩
    ring
  · exact evaluated_perm hw hs hl

/-- With several processes: the perplexity is that of the rows that are evaluated, and if the number of rows is a multiple of the number
of processes times the batch size it is that of all rows, as with one process. Partial: for other numbers see
`C101_fsdp_dropped_violated` and `C101_fsdp_twice_violated`. -/
theorem C101_fsdp_partial (cost : List α → Nat → ℝ) {L : Nat} (hL : 2 ≤ L) {rows : List (List α)} (hr : ∀ row ∈ rows, row.length = L)
    {world batchSize : Nat} (hw : 0 < world) (hs : 0 < min (rows.length / world) batchSize) :
    optEvalFsdp cost L rows world batchSize = .ok (some (perplexity cost L
      ((evaluated rows.length world (min (rows.length / world) batchSize)).map (fun i => rows.getD i [])))) ∧
    (world * min (rows.length / world) batchSize ∣ rows.length →
      optEvalFsdp cost L rows world batchSize = .ok (some (perplexity cost L rows))) := by
  refine ⟨fsdp_eq cost hL hr hw hs, fun hd => ?_⟩
  have hpos : 0 < rows.length := by
    by_contra h
    have : rows.length = 0 := by omega
    rw [this] at hs
    simp at hs
  rw [fsdp_eq cost hL hr hw hs, perplexity_perm cost L ((evaluated_perm hw hs hpos hd).map _), map_getD]

/-- Four rows on two processes in batches of two. -/
example : min ([[1, 2], [3, 4], [5, 6], [7, 8]] : List (List Nat)).length 2 = 2 ∧ 2 * 2 ∣ 4 ∧ evaluated 4 2 2 = [0, 2, 1, 3] := by decide

/-- DISAGREEMENT: incomplete batches are dropped. If the rows of a process are not a multiple of the batch size, there is a row that can be
replaced by any other without changing the perplexity. -/
theorem C101_fsdp_dropped_violated (cost : List α → Nat → ℝ) {L : Nat} (hL : 2 ≤ L) {rows : List (List α)} (hr : ∀ row ∈ rows, row.length = L)
    {world batchSize : Nat} (hw : 0 < world) (hs : 0 < min (rows.length / world) batchSize)
    (hd : ¬ min (rows.length / world) batchSize ∣ (rows.length + world - 1) / world) :
    ∃ j, j < rows.length ∧ ∀ row : List α, row.length = L →
      optEvalFsdp cost L (rows.set j row) world batchSize = optEvalFsdp cost L rows world batchSize := by
  have hpos : 0 < rows.length := by
    by_contra h
    have : rows.length = 0 := by omega
    rw [this] at hs
    simp at hs
  have hn2 : perRank rows.length world * world < rows.length + world := by
    unfold perRank
    have := Nat.div_mul_le_self (rows.length + world - 1) world
    omega
  have hlt : perRank rows.length world / min (rows.length / world) batchSize * min (rows.length / world) batchSize < perRank rows.length world := by
    have h1 := Nat.div_add_mod (perRank rows.length world) (min (rows.length / world) batchSize)
    have h2 : perRank rows.length world % min (rows.length / world) batchSize ≠ 0 := fun h => hd (Nat.dvd_of_mod_eq_zero h)
    rw [Nat.mul_comm] at h1
    omega
  refine ⟨perRank rows.length world / min (rows.length / world) batchSize * min (rows.length / world) batchSize * world, ?_, ?_⟩
  · have := Nat.mul_le_mul_right world (Nat.succ_le_of_lt hlt)
    rw [Nat.succ_mul] at this
    omega
  · intro row hrow
    generalize hsz : min (rows.length / world) batchSize = size at *
    have hj : perRank rows.length world / size * size * world < rows.length := by
      have := Nat.mul_le_mul_right world (Nat.succ_le_of_lt hlt)
      rw [Nat.succ_mul] at this
      omega
    rw [fsdp_eq cost hL hr hw (by rw [hsz]; exact hs), fsdp_eq cost hL (by
      intro x hx
      rcases List.mem_or_eq_of_mem_set hx with hx | rfl
      · exact hr x hx
      · exact hrow) hw (by rw [List.length_set, hsz]; exact hs), List.length_set, hsz]
    congr 3
    refine List.map_congr_left fun i hi => ?_
    obtain ⟨r, hr', hi⟩ := List.mem_flatMap.1 hi
    obtain ⟨q, hq, rfl⟩ := List.mem_map.1 hi
    have hq' := List.mem_range.1 hq
    have h1 : r + q * world < perRank rows.length world / size * size * world := by
      have := Nat.mul_le_mul_right world (Nat.succ_le_of_lt hq')
      rw [Nat.succ_mul] at this
      have := List.mem_range.1 hr'
      omega
    rw [Nat.mod_eq_of_lt (by omega), List.getD_eq_getElem?_getD, List.getD_eq_getElem?_getD, List.getElem?_set_ne (by omega)]

example : ¬ min (3 / 1) 2 ∣ (3 + 1 - 1) / 1 := by decide

/-- DISAGREEMENT: processes without enough rows get the first rows again. Three rows on two processes: the first one counts twice. -/
theorem C101_fsdp_twice_violated (cost : List α → Nat → ℝ) (a b c d e f : α) :
    optEvalFsdp cost 2 [[a, b], [c, d], [e, f]] 2 1 =
      .ok (some (Real.exp ((2 * cost [a, b] 0 + cost [c, d] 0 + cost [e, f] 0) / 4))) := by
  rw [(C101_fsdp_partial cost le_rfl (by simp) (by norm_num) (by show 0 < min (3 / 2) 1; decide)).1]
  have : evaluated 3 2 1 = [0, 2, 1, 0] := by decide
  simp only [List.length_cons, List.length_nil]
  rw [show min ((0 + 1 + 1 + 1) / 2) 1 = 1 by decide, this]
  unfold perplexity
  simp only [List.map_cons, List.map_nil, List.sum_cons, List.sum_nil, List.length_cons, List.length_nil, List.range_one,
    List.getD_cons_zero, List.getD_cons_succ]
  congr 3
  norm_num
  ring

/-- DISAGREEMENT: fewer rows than processes cannot be evaluated. -/
theorem C101_fsdp_few_fails (cost : List α → Nat → ℝ) (L : Nat) (rows : List (List α)) {world batchSize : Nat} (h : rows.length < world) :
    optEvalFsdp cost L rows world batchSize = .error .value := by
  have hl : ∀ r, languageLoader rows world r batchSize = .error .value := by
    intro r
    unfold languageLoader
    dsimp only
    rw [if_pos (by rw [Nat.div_eq_of_lt h]; simp)]
  have : ∀ n, allSums cost L rows world batchSize (n + 1) = .error .value := by
    intro n
    induction n with
    | zero => rw [allSums, hl, allSums]
    | succ n ih => rw [allSums, ih]
  unfold optEvalFsdp
  obtain ⟨n, rfl⟩ := Nat.exists_eq_succ_of_ne_zero (show world ≠ 0 by omega)
  rw [show n.succ = n + 1 from rfl, this n]

example : ([[1]] : List (List Nat)).length < 2 := by decide

/-- DISAGREEMENT: the data set for several processes ignores the length asked for: its rows always have 2048 tokens. -/
theorem C101_length_violated (tokens : List α) (seqLen : Nat) :
    ∃ rows, dataset tokens seqLen = .ok rows ∧ ∀ row ∈ rows, row.length = 2048 :=
  ⟨windows tokens 2048, fold_eq tokens (by norm_num), windows_length⟩

/-- Calibration uses the first rows of the text, in whole batches: as few as give the number asked for, but at least one batch. -/
theorem C101_calibration (tokens : List α) {L size : Nat} (num : Nat) (hL : 0 < L) (hs : 0 < size) :
    optInfer tokens L size num = .ok (((List.range (tokens.length / L)).map (fun k => (tokens.drop (k * L)).take L)).take
      (max 1 ((num + size - 1) / size) * size)) := by
  unfold optInfer
  rw [fold_eq tokens hL]
  dsimp only
  unfold split
  rw [if_neg (by omega)]
  dsimp only
  rw [split_flatten hs _ _ (Nat.lt_succ_self _)]
  rfl

example : optInfer [1, 2, 3, 4, 5, 6, 7, 8] 2 2 1 = .ok [[1, 2], [3, 4]] := by rfl

/-- The number of rows of a calibration is the number asked for if that is a multiple of the batch size and there are that many. Partial:
for other numbers see `C101_more_violated`. -/
theorem C101_number_partial (tokens : List α) {L size num : Nat} (hL : 0 < L) (hs : 0 < size) (hn : 0 < num) (hd : size ∣ num) :
    ∃ rows, optInfer tokens L size num = .ok rows ∧ rows.length = min num (tokens.length / L) := by
  refine ⟨_, C101_calibration tokens num hL hs, ?_⟩
  obtain ⟨c, rfl⟩ := hd
  have hc : 0 < c := by
    rcases Nat.eq_zero_or_pos c with rfl | h
    · simp at hn
    · exact h
  have : (size * c + size - 1) / size = c := by
    refine Nat.div_eq_of_lt_le ?_ ?_
    · rw [Nat.mul_comm]; omega
    · rw [Nat.add_mul, Nat.mul_comm]; omega
  rw [this, List.length_take, List.length_map, List.length_range, Nat.max_eq_right hc, Nat.mul_comm]

example : (0 : Nat) < 128 ∧ 16 ∣ 128 := by decide

/-- DISAGREEMENT: if the number asked for is not a multiple of the batch size, more rows are used, if there are more. -/
theorem C101_more_violated (tokens : List α) {L size num : Nat} (hL : 0 < L) (hs : 0 < size) (hd : ¬ size ∣ num) (hN : num < tokens.length / L) :
    ∃ rows, optInfer tokens L size num = .ok rows ∧ num < rows.length := by
  refine ⟨_, C101_calibration tokens num hL hs, ?_⟩
  rw [List.length_take, List.length_map, List.length_range]
  refine lt_min ?_ hN
  have h1 := Nat.div_add_mod (num + size - 1) size
  have h2 := Nat.mod_lt (num + size - 1) hs
  have h3 : num ≤ (num + size - 1) / size * size := by
    rw [Nat.mul_comm] at h1
    omega
  have h4 : num ≠ (num + size - 1) / size * size := fun h => hd ⟨(num + size - 1) / size, by rw [Nat.mul_comm]; exact h⟩
  have h5 := Nat.mul_le_mul_right size (Nat.le_max_right 1 ((num + size - 1) / size))
  omega

example : ¬ 64 ∣ 100 := by decide

/-- DISAGREEMENT: for image classifiers more images than asked for are always used, if there are enough: also if the number is a multiple
of the batch size, then a whole batch more. -/
theorem C101_images_violated {X : Type} {size num : Nat} (hs : 0 < size) (bs : List (List X)) (hb : ∀ b ∈ bs, b.length = size)
    (hn : num < bs.flatten.length) : num < (inferImages num 0 bs).flatten.length ∧
      (size ∣ num → (inferImages num 0 bs).flatten.length = num + size) := by
  have hlen : ∀ l : List (List X), (∀ b ∈ l, b.length = size) → l.flatten.length = l.length * size := by
    intro l hl
    induction l with
    | nil => simp
    | cons b l ih =>
      rw [List.flatten_cons, List.length_append, hl b (by simp), ih fun c hc => hl c (by simp [hc]), List.length_cons, Nat.add_mul]
      omega
  rw [hlen bs hb] at hn
  have hk : num / size + 1 ≤ bs.length := by
    rw [Nat.add_one_le_iff, Nat.div_lt_iff_lt_mul hs]
    exact hn
  have := images_taken (num := num) hs bs 0 hb (by omega) (by rw [Nat.sub_zero]; exact hk)
  rw [Nat.sub_zero] at this
  rw [List.length_flatten, this]
  have h1 := Nat.div_add_mod num size
  have h2 := Nat.mod_lt num hs
  rw [Nat.mul_comm] at h1
  refine ⟨by rw [Nat.add_mul]; omega, ?_⟩
  rintro ⟨c, rfl⟩
  rw [Nat.mul_div_cancel_left _ hs, Nat.add_mul, Nat.mul_comm, Nat.one_mul]

example : (inferImages 4 0 [[1, 2], [3, 4], [5, 6], [7, 8]]).flatten = [1, 2, 3, 4, 5, 6] := by decide

/-- DISAGREEMENT: the scripts calibrate on the test data. The samples drawn for calibration do not matter, and every row that calibrates
is a row that the compressed model is evaluated on. -/
theorem C101_test_data_violated (l l' : Loaders α) (h : l.test = l'.test) {L size num : Nat} (hL : 0 < L) (hs : 0 < size) :
    script l L size num = script l' L size num ∧
      ∃ cal rows, script l L size num = .ok (cal, rows) ∧ cal <+: rows := by
  refine ⟨by unfold script; rw [h], ?_⟩
  refine ⟨_, _, by unfold script; rw [C101_calibration l.test num hL hs, fold_eq l.test hL], ?_⟩
  exact List.take_prefix _ _

example : script ⟨[[9, 9]], [1, 2, 3, 4, 5, 6]⟩ 2 1 1 = .ok ([[1, 2]], [[1, 2], [3, 4], [5, 6]]) := by rfl

/-- A sample for calibration is a window of the text, and only its last token is a target. -/
theorem C101_sample (tokens : List α) {L : Nat} (draw : Nat) (hL : 0 < L) (hN : L < tokens.length) :
    ∃ i inp tar, i + L < tokens.length ∧ sample tokens L draw = .ok (inp, tar) ∧ inp = (tokens.drop i).take L ∧ inp.length = L ∧
      tar.length = L ∧ ∀ k < L, tar[k]? = some (if k + 1 = L then inp[k]? else none) := by
  have hi := Nat.mod_lt draw (show 0 < ((tokens.length : Int) - L - 1).toNat + 1 by omega)
  generalize hg : draw % (((tokens.length : Int) - L - 1).toNat + 1) = i at hi
  have hlen : ((tokens.drop i).take L).length = L := by
    rw [List.length_take, List.length_drop]; omega
  refine ⟨i, (tokens.drop i).take L, List.replicate (L - 1) none ++ (((tokens.drop i).take L).drop (L - 1)).map some, by omega, ?_, rfl, hlen, ?_, ?_⟩
  · unfold sample randint
    rw [if_neg (by omega), hg]
    dsimp only
    rw [hlen]
  · rw [List.length_append, List.length_replicate, List.length_map, List.length_drop, hlen]
    omega
  · intro k hk
    by_cases h : k + 1 = L
    · rw [if_pos h, List.getElem?_append_right (by simp; omega), List.length_replicate, List.getElem?_map, List.getElem?_drop,
        show L - 1 + (k - (L - 1)) = k by omega, List.getElem?_eq_getElem (by rw [hlen]; exact hk)]
      rfl
    · rw [if_neg h, List.getElem?_append_left (by simp; omega), List.getElem?_replicate, if_pos (by omega)]

example : sample [1, 2, 3, 4, 5] 2 1 = .ok ([2, 3], [none, some 3]) := by rfl

/-- DISAGREEMENT: the last token of a text is never part of a sample. -/
theorem C101_last_token_violated (t : List α) (a b : α) (L draw : Nat) : sample (t ++ [a]) L draw = sample (t ++ [b]) L draw := by
  unfold sample randint
  by_cases h : ((t ++ [a]).length : Int) - L - 1 < 0
  · have h' : ((t ++ [b]).length : Int) - L - 1 < 0 := by simpa using h
    rw [if_pos h, if_pos h']
  · have h' : ¬ ((t ++ [b]).length : Int) - L - 1 < 0 := by simpa using h
    rw [if_neg h, if_neg h']
    dsimp only
    have hlen : (t ++ [b]).length = (t ++ [a]).length := by simp
    rw [hlen]
    have hi := Nat.mod_lt draw (show 0 < (((t ++ [a]).length : Int) - L - 1).toNat + 1 by omega)
    generalize draw % ((((t ++ [a]).length : Int) - L - 1).toNat + 1) = i at hi
    simp only [List.length_append, List.length_cons, List.length_nil] at hi h
    have key : ∀ c : α, ((t ++ [c]).drop i).take L = (t.drop i).take L := by
      intro c
      rw [List.drop_append_of_le_length (by omega), List.take_append_of_le_length (by rw [List.length_drop]; omega)]
    rw [key a, key b]

/-- DISAGREEMENT: a document of C4 with exactly as many tokens as asked for is accepted, and drawing a sample from it fails. -/
theorem C101_c4_fails (short : List (List α)) (doc : List α) (rest : List (List α)) {L : Nat} (draw : Nat) (hs : ∀ d ∈ short, d.length < L)
    (hd : doc.length = L) : sampleC4 L draw (short ++ doc :: rest) = some (.error .value) := by
  induction short with
  | nil =>
    rw [List.nil_append, sampleC4, if_pos (by omega)]
    unfold sample randint
    rw [if_pos (by omega)]
  | cons d short ih =>
    have := hs d (by simp)
    rw [List.cons_append, sampleC4, if_neg (by omega), ih fun x hx => hs x (by simp [hx])]

/-- One more token is enough. -/
example : sampleC4 2 0 [[1], [1, 2]] = some (.error .value) ∧ sampleC4 2 0 [[1], [1, 2, 3]] = some (.ok ([1, 2], [none, some 2])) := ⟨rfl, rfl⟩

/-- DISAGREEMENT: after calibrating an OPT model its configuration, which is saved with it, says that it has no cache, whatever it said
before; for LLaMA it is as before. -/
theorem C101_cache_violated (before : Bool) : cacheAfterInfer false before = false ∧ cacheAfterInfer true before = before ∧
    cacheAfterEval (cacheAfterInfer false before) = false := ⟨rfl, rfl, rfl⟩

/-- DISAGREEMENT: giving the options for memory efficient runs and for half precision a value switches them on, also the value `False`. -/
theorem C101_option_violated : boolOption none = false ∧ ∀ s : String, s ≠ "" → boolOption (some s) = true := by
  refine ⟨rfl, fun s hs => ?_⟩
  unfold boolOption
  simp [hs]

example : "False" ≠ "" := by decide

/-- The accuracy of an image classifier is the share of the images with the right class, for every way to split them into batches; in half
precision for labels up to 2048. Partial: for other labels see `C101_half_violated`. -/
theorem C101_accuracy_partial (isHalf : Bool) (bs : List (List (Nat × Nat))) (h : bs.flatten ≠ [])
    (hc : isHalf = true → ∀ p ∈ bs.flatten, p.1 ≤ 2048 ∧ p.2 ≤ 2048) :
    accuracy isHalf bs = .ok ((bs.flatten.countP (fun p => p.1 == p.2) : ℚ) / bs.flatten.length) := by
  have hpos : 0 < bs.flatten.length := List.length_pos_iff.2 h
  unfold accuracy
  dsimp only
  rw [eval_loop, Nat.zero_add, Nat.zero_add, if_neg (by dsimp only; omega)]
  congr 3
  refine List.countP_congr fun p hp => ?_
  unfold agrees
  cases isHalf with
  | false => rfl
  | true =>
    obtain ⟨h1, h2⟩ := hc rfl p hp
    rw [if_pos rfl, half_small h1, half_small h2]

example : accuracy true [[(1, 1), (2, 3)], [(999, 999)]] = .ok (2 / 3) := by decide +kernel

/-- Half precision never lowers the accuracy. -/
theorem C101_half_accuracy (bs : List (List (Nat × Nat))) (x y : ℚ) (hx : accuracy false bs = .ok x) (hy : accuracy true bs = .ok y) : x ≤ y := by
  unfold accuracy at hx hy
  dsimp only at hx hy
  rw [eval_loop, Nat.zero_add, Nat.zero_add] at hx hy
  dsimp only at hx hy
  by_cases h : bs.flatten.length = 0
  · rw [if_pos h] at hx; cases hx
  · rw [if_neg h] at hx hy
    simp only [Except.ok.injEq] at hx hy
    rw [← hx, ← hy]
    refine div_le_div_of_nonneg_right ?_ (Nat.cast_nonneg _)
    refine Nat.cast_le.2 (List.countP_mono_left fun p _ hp => ?_)
    unfold agrees at hp ⊢
    have : p.1 = p.2 := by simpa using hp
    rw [this]
    simp

/-- DISAGREEMENT: in half precision a wrong class can count as right: from 2048 on (up to 4096) every fourth label and the next one are the
same. -/
theorem C101_half_violated (m : Nat) (h1 : 512 ≤ m) (h2 : m < 1024) : agrees true (4 * m) (4 * m + 1) = true := by
  have hk : ∀ n, 2048 ≤ n → n < 4096 → Nat.log2 n - 10 = 1 := by
    intro n ha hb
    have h3 : Nat.log2 n < 12 := (Nat.log2_lt (by omega)).2 hb
    have h4 : ¬ Nat.log2 n < 11 := fun h => by
      have := (Nat.log2_lt (show n ≠ 0 by omega)).1 h
      omega
    omega
  have e1 : half (4 * m) = 4 * m := by
    unfold half
    dsimp only
    rw [hk _ (by omega) (by omega)]
    unfold roundHalfEven
    dsimp only
    rw [if_pos (by omega)]
    omega
  have e2 : half (4 * m + 1) = 4 * m := by
    unfold half
    dsimp only
    rw [hk _ (by omega) (by omega)]
    unfold roundHalfEven
    dsimp only
    rw [if_neg (by omega), if_neg (by omega), if_pos (by omega)]
    omega
  unfold agrees
  rw [if_pos rfl, e1, e2]
  simp

/-- The accuracy of no example at all is a `ZeroDivisionError`. -/
theorem C101_no_examples (isHalf : Bool) (bs : List (List (Nat × Nat))) :
    accuracy isHalf bs = .error .zeroDivision ↔ bs.flatten = [] := by
  have key : ∀ (bs : List (List (Nat × Nat))) (c t : Nat), (evalLoop isHalf bs c t).2 = t + bs.flatten.length := by
    intro bs
    induction bs with
    | nil => intro c t; rfl
    | cons b bs ih => intro c t; rw [evalLoop, ih]; simp; omega
  unfold accuracy
  simp only [key]
  by_cases h : bs.flatten = []
  · simp [h]
  · have : 0 + bs.flatten.length ≠ 0 := by
      rw [Nat.zero_add]; exact fun e => h (List.length_eq_zero_iff.1 e)
    rw [if_neg this]
    simp only [h, iff_false]
    simp

/-- Sequences of length zero are refused, every other length is accepted. -/
theorem C101_fold_refused {α : Type} (tokens : List α) (L : Nat) (e : Err) :
    foldTokens tokens L = .error e ↔ L = 0 ∧ e = .zeroDivision := by
  unfold foldTokens
  by_cases h : L = 0 <;> simp [h, eq_comm]

example : accuracy true [[], []] = .error .zeroDivision ∧ foldTokens [1, 2, 3] 0 = .error .zeroDivision :=
  ⟨(C101_no_examples _ _).2 rfl, (C101_fold_refused _ _ _).2 ⟨rfl, rfl⟩⟩

/-- No sample for calibration can be drawn exactly from texts of at most as many tokens as asked for. -/
theorem C101_sample_refused {α : Type} (tokens : List α) (L draw : Nat) (e : Err) :
    sample tokens L draw = .error e ↔ tokens.length ≤ L ∧ e = .value := by
  unfold sample randint
  by_cases h : (tokens.length : Int) - L - 1 < 0
  · rw [if_pos h]
    have : tokens.length ≤ L := by omega
    simp [this, eq_comm (a := e)]
  · rw [if_neg h]
    have : ¬ tokens.length ≤ L := by omega
    simp [this]

/-- The perplexity is refused exactly for sequences of length zero, and for batches of size zero if there is a full sequence. -/
theorem C101_perplexity_refused {α : Type} (cost : List α → Nat → ℝ) (tokens : List α) (L size : Nat) (e : Err) :
    optEval cost tokens L size = .error e ↔
      (L = 0 ∧ e = .zeroDivision) ∨ (0 < L ∧ L ≤ tokens.length ∧ size = 0 ∧ e = .runtime) := by
  unfold optEval
  by_cases h : L = 0
  · simp [foldTokens, h, eq_comm (a := e)]
  · have hp : 0 < L := Nat.pos_of_ne_zero h
    have hr : ∀ n (t : List α), reshape L n t ≠ [] ↔ 0 < n := by
      intro n t; cases n <;> simp [reshape]
    obtain ⟨rows, hf, hne⟩ : ∃ rows, foldTokens tokens L = .ok rows ∧ (rows ≠ [] ↔ L ≤ tokens.length) := by
      refine ⟨_, by unfold foldTokens; rw [if_neg h], ?_⟩
      rw [hr, Nat.div_pos_iff]
      have h1 := Nat.mod_lt tokens.length hp
      have h2 := Nat.mod_le tokens.length L
      split
      · rw [List.length_take]
        constructor
        · rintro ⟨-, h3⟩; omega
        · intro h3
          refine ⟨hp, ?_⟩
          have h4 := Nat.div_add_mod tokens.length L
          have h5 : 1 ≤ tokens.length / L := Nat.div_pos h3 hp
          have h6 : L * 1 ≤ L * (tokens.length / L) := Nat.mul_le_mul_left L h5
          omega
      · exact ⟨fun h3 => h3.2, fun h3 => ⟨hp, h3⟩⟩
    rw [hf]
    dsimp only
    unfold split
    by_cases hs : size = 0 ∧ rows ≠ []
    · rw [if_pos hs]
      have := hne.1 hs.2
      simp [h, hp, this, hs.1, eq_comm (a := e)]
    · rw [if_neg hs]
      rw [hne] at hs
      simp only [h, false_and, false_or, reduceCtorEq, false_iff]
      exact fun x => hs ⟨x.2.2.1, x.2.1⟩

example : sample [1, 2] 2 0 = .error .value ∧ optEval (fun _ _ => 0) [1, 2, 3] 2 0 = .error .runtime :=
  ⟨(C101_sample_refused _ _ _ _).2 (by simp), (C101_perplexity_refused _ _ _ _ _).2 (by simp)⟩

end Verif.LangEval
