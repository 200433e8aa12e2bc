import Verif.Lemmas.Triton

/-! Property C97: multiplying with packed weights. -/

namespace Verif.Triton
open Verif

/-! ## Property C97 -/

/-- The programs of a launch work on all blocks, each program on a different one. -/
theorem C97_schedule (nm nn gm : Nat) (hg : 0 < gm) :
    (∀ pid < nm * nn, (tileOf nm nn gm pid).1 < nm ∧ (tileOf nm nn gm pid).2 < nn) ∧
    ∀ m < nm, ∀ n < nn, ∃! pid, pid < nm * nn ∧ tileOf nm nn gm pid = (m, n) := by
  refine ⟨fun pid h => tile_bounds nm nn gm pid hg h, fun m hm n hn => ?_⟩
  obtain ⟨p, h1, h2⟩ := tile_surj nm nn gm m n hg hm hn
  exact ⟨p, ⟨h1, h2⟩, fun q hq => tile_inj nm nn gm q p hg hq.1 h1 (hq.2.trans h2.symm)⟩

example : (List.range 6).map (tileOf 3 2 2) = [(0, 0), (1, 0), (0, 1), (1, 1), (2, 0), (2, 1)] := by decide

/-- Every element of the output is stored once and nothing else is stored, for every size of blocks and
groups; what is stored does not depend on the blocks of rows and columns. -/
theorem C97_stored (mem : Mem) (s : Strides) (bits M N K bk : Nat) (hs : s.cm = N ∧ s.cn = 1) :
    ∃ f, ∀ c : Config, c.bk = bk → 0 < c.bm → 0 < c.bn → 0 < c.gm → Writes (matmul mem s bits M N K c) M N f := by
  refine ⟨fwdAcc mem s bits (2 ^ bits - 1) K bk, fun c hbk hm hn hg => ?_⟩
  unfold matmul
  rw [hs.1, hs.2, hbk]
  exact launch_writes M N c.bm c.bn c.gm _ hm hn hg

/-- The product is the product with the weights that the packed tensors stand for, if the block along
the inputs divides their number and all tensors are contiguous. Missing: other blocks and tensors, see `C97_product_violated`
and `C97_strided_violated`. -/
theorem C97_product_partial (mem : Mem) (bits M N K : Nat) (c : Config) (hb : bits ∈ [2, 4, 8]) (hd : 32 / bits ∣ c.bk)
    (hk : 0 < c.bk) (hm : 0 < c.bm) (hn : 0 < c.bn) (hg : 0 < c.gm) (hK : c.bk ∣ K) :
    Writes (matmul mem (contiguous bits N K N) bits M N K c) M N
      (fun m n => ∑ k ∈ Finset.range K, mem.a (m * K + k) * weightAt mem bits N k n) := by
  have h := fwd_writes mem bits M N K c hb hd hm hn hg
  obtain ⟨q, rfl⟩ := hK
  rw [cdiv_exact q c.bk hk] at h
  exact h

example : (matmul (ones 8 0) (contiguous 8 2 4 2) 8 2 2 4 ⟨1, 1, 4, 2, 1, 1⟩) = [(0, 4), (2, 4), (1, 4), (3, 4)] := by
  decide +kernel

/-- DISAGREEMENT: the loads along the inputs have no mask, so for a block that does not divide the number
of inputs the product also contains what is stored behind the tensors. -/
theorem C97_product_violated (bits M N K groups : Nat) (c : Config) (hb : bits ∈ [2, 4, 8]) (hd : 32 / bits ∣ c.bk)
    (hk : 0 < c.bk) (hm : 0 < c.bm) (hn : 0 < c.bn) (hg : 0 < c.gm) (hM : 0 < M) (hN : 0 < N) (hK : ¬ c.bk ∣ K) :
    ∃ mem mem' : Mem, Agree M K K N bits groups mem mem' ∧
      matmul mem (contiguous bits N K N) bits M N K c ≠ matmul mem' (contiguous bits N K N) bits M N K c := by
  refine ⟨_, _, ones_agree M K K N bits groups, fun he => ?_⟩
  have h0 := fwd_writes (ones (M * K) 0) bits M N K c hb hd hm hn hg
  have h1 := fwd_writes (ones (M * K) 1) bits M N K c hb hd hm hn hg
  rw [← he] at h1
  have h := writes_unique _ M N _ _ h0 h1 (M - 1) 0 (by omega) hN
  simp only [ones_weight, mul_one] at h
  exact absurd h (ne_of_lt (ones_sum M K _ hM (cdiv_ragged K c.bk hk hK)))

/-- DISAGREEMENT: the input is read with steps of one element from block to block, whatever its strides
are, so the product with a transposed input is wrong. -/
theorem C97_strided_violated :
    ∃ (mem : Mem) (c : Config), c ∈ fwdConfigs ∧ c.bk ∣ 64 ∧
      ¬ Writes (matmul mem { contiguous 4 32 64 32 with am := 1, ak := 2 } 4 2 32 64 c) 2 32
        (fun m n => ∑ k ∈ Finset.range 64, mem.a (m + k * 2) * weightAt mem 4 32 k n) := by
  refine ⟨transposedOnes, ⟨64, 256, 32, 8, 4, 4⟩, by decide, by decide, fun h => ?_⟩
  have h0 := launch_writes 2 32 64 256 8
    (fwdAcc transposedOnes { contiguous 4 32 64 32 with am := 1, ak := 2 } 4 (2 ^ 4 - 1) 64 32) (by decide) (by decide) (by decide)
  have he := writes_unique _ 2 32 _ _ h0 h 0 0 (by decide) (by decide)
  dsimp only at he
  rw [← sum_range_list] at he
  revert he
  decide +kernel

/-- The gradient of the input is the product with the transposed weights, if the block along the
outputs divides their number and all tensors are contiguous. Missing: other blocks and tensors, see `C97_gradient_violated` and
`C97_expanded_violated`. -/
theorem C97_gradient_partial (mem : Mem) (bits M N K : Nat) (c : Config) (hb : bits ∈ [2, 4, 8]) (h32 : 32 ∣ K)
    (hd : 32 / bits ∣ c.bn) (hn : 0 < c.bn) (hm : 0 < c.bm) (hk : 0 < c.bk) (hg : 0 < c.gm) (hN : c.bn ∣ N) :
    Writes (transposeMatmul mem (contiguous bits N N K) bits M N (K / 32 * bits) c) M K
      (fun m k => ∑ n ∈ Finset.range N, mem.a (m * N + n) * weightAt mem bits N k n) := by
  have h := bwd_writes mem bits M N K c hb h32 hd hm hk hg
  obtain ⟨q, rfl⟩ := hN
  rw [cdiv_exact q c.bn hn] at h
  exact h

example : ((transposeMatmul (ones 8 0) (contiguous 8 4 4 32) 8 2 4 8 ⟨1, 4, 16, 2, 1, 1⟩).filter (·.1 = 33)) = [(33, 4)] := by
  decide +kernel

/-- DISAGREEMENT: the same lack of masks in the gradient. -/
theorem C97_gradient_violated (bits M N K groups : Nat) (c : Config) (hb : bits ∈ [2, 4, 8]) (h32 : 32 ∣ K)
    (hd : 32 / bits ∣ c.bn) (hn : 0 < c.bn) (hm : 0 < c.bm) (hk : 0 < c.bk) (hg : 0 < c.gm) (hM : 0 < M) (hK : 0 < K)
    (hN : ¬ c.bn ∣ N) :
    ∃ mem mem' : Mem, Agree M N K N bits groups mem mem' ∧
      transposeMatmul mem (contiguous bits N N K) bits M N (K / 32 * bits) c ≠
        transposeMatmul mem' (contiguous bits N N K) bits M N (K / 32 * bits) c := by
  refine ⟨_, _, ones_agree M N K N bits groups, fun he => ?_⟩
  have h0 := bwd_writes (ones (M * N) 0) bits M N K c hb h32 hd hm hk hg
  have h1 := bwd_writes (ones (M * N) 1) bits M N K c hb h32 hd hm hk hg
  rw [← he] at h1
  have h := writes_unique _ M K _ _ h0 h1 (M - 1) 0 (by omega) hK
  simp only [ones_weight, mul_one] at h
  exact absurd h (ne_of_lt (ones_sum M N _ hM (cdiv_ragged N c.bn hn hN)))

/-- DISAGREEMENT: a gradient of strides 0, as of `output.sum()`, has one element in memory; the kernel
reads others, as soon as there is more than one block. -/
theorem C97_expanded_violated (bits M N K : Nat) (c : Config) (hb : bits ∈ [2, 4, 8]) (h32 : 32 ∣ K) (hd : 32 / bits ∣ c.bn)
    (hn : 0 < c.bn) (hm : 0 < c.bm) (hk : 0 < c.bk) (hg : 0 < c.gm) (hM : 0 < M) (hK : 0 < K) (hN : c.bn < N) :
    ∃ mem mem' : Mem, mem.a 0 = mem'.a 0 ∧ mem' = { mem with a := mem'.a } ∧
      transposeMatmul mem { contiguous bits N N K with am := 0, ak := 0 } bits M N (K / 32 * bits) c ≠
        transposeMatmul mem' { contiguous bits N N K with am := 0, ak := 0 } bits M N (K / 32 * bits) c := by
  refine ⟨ones 1 0, ones 1 1, rfl, rfl, fun he => ?_⟩
  unfold transposeMatmul at he
  rw [words_eq bits K hb h32] at he
  have h0 := launch_writes M K c.bm c.bk c.gm
    (bwdAcc (ones 1 0) { contiguous bits N N K with am := 0, ak := 0 } bits (2 ^ bits - 1) N c.bn) hm hk hg
  have h1 := launch_writes M K c.bm c.bk c.gm
    (bwdAcc (ones 1 1) { contiguous bits N N K with am := 0, ak := 0 } bits (2 ^ bits - 1) N c.bn) hm hk hg
  rw [show launch M K c.bm c.bk c.gm K 1 (bwdAcc (ones 1 0) { contiguous bits N N K with am := 0, ak := 0 } bits (2 ^ bits - 1) N c.bn) =
    launch M K c.bm c.bk c.gm K 1 (bwdAcc (ones 1 1) { contiguous bits N N K with am := 0, ak := 0 } bits (2 ^ bits - 1) N c.bn)
    from he] at h0
  have h := writes_unique _ M K _ _ h0 h1 0 0 hM hK
  rw [bwd_expanded 0 bits N K c.bn 0 0 (per_pos hb) hd, bwd_expanded 1 bits N K c.bn 0 0 (per_pos hb) hd] at h
  have hq : 1 < cdiv N c.bn := by
    have := cdiv_cover N c.bn c.bn hn hN
    rwa [Nat.div_self hn] at this
  refine absurd h (ne_of_lt (Finset.sum_lt_sum ?_ ⟨1, Finset.mem_range.2 hq, ?_⟩))
  · intro t _
    refine Finset.sum_le_sum fun i _ => ?_
    unfold ones
    dsimp only
    split_ifs <;> norm_num
  · refine Finset.sum_lt_sum_of_nonempty ⟨0, Finset.mem_range.2 hn⟩ fun i _ => ?_
    unfold ones
    dsimp only
    rw [if_neg (by omega), if_neg (by omega)]
    norm_num

/-- The weights of the kernels are those that were packed: codes below `2 ^ bits` and zero points from
1 to `2 ^ bits`, with numbers of inputs and outputs that are multiples of 32. Missing: the zero point 0 and other numbers of
inputs and outputs, see `C40_zeros_violated` and `C40_weights_violated`. -/
theorem C97_weights_partial (mem : Mem) (bits K N groups : Nat) (hb : bits ∈ [2, 4, 8]) (hK : 32 ∣ K) (hN : 32 ∣ N)
    (codes zeros words zwords : Nat → List Nat)
    (hc : ∀ n < N, (codes n).length = K ∧ (∀ c ∈ codes n, c < 2 ^ bits) ∧ GptqPack.pack bits (codes n) = .ok (words n))
    (hz : ∀ g < groups, (zeros g).length = N ∧ (∀ z ∈ zeros g, 1 ≤ z ∧ z ≤ 2 ^ bits) ∧
      GptqPack.packZeros bits (zeros g) = .ok (zwords g))
    (hmb : ∀ n < N, ∀ r w, (words n)[r]? = some w → mem.b (r * N + n) = w)
    (hmz : ∀ g < groups, ∀ r w, (zwords g)[r]? = some w → mem.zeros (g * (N / (32 / bits)) + r) = w)
    (k n : Nat) (hk : k < K) (hn : n < N) (hg : mem.g k < groups) :
    weightAt mem bits N k n =
      (((codes n).getD k 0 : ℚ) - (zeros (mem.g k)).getD n 0) * mem.scales (mem.g k * N + n) := by
  obtain ⟨c1, c2, c3⟩ := hc n hn
  obtain ⟨z1, z2, z3⟩ := hz _ hg
  unfold weightAt
  rw [unpack_code mem.b bits N n k hb (codes n) (words n) hn c2 c3 (by rw [c1]; exact hK) (by omega) (hmb n hn)]
  have hzero : zeroAt mem.zeros bits (N / (32 / bits)) (mem.g k) n = (zeros (mem.g k)).getD n 0 := by
    have hstore : ∀ z ∈ zeros (mem.g k), GptqPack.storeZero z = z - 1 := by
      intro z hm
      obtain ⟨h1, h2⟩ := z2 z hm
      have : 2 ^ bits ≤ 2 ^ 8 := Nat.pow_le_pow_right (by norm_num) (by simp at hb; omega)
      unfold GptqPack.storeZero
      omega
    have hlt : ∀ c ∈ (zeros (mem.g k)).map GptqPack.storeZero, c < 2 ^ bits := by
      intro c hcm
      obtain ⟨z, hm, rfl⟩ := List.mem_map.1 hcm
      rw [hstore z hm]
      have := z2 z hm
      omega
    have h := GptqPack.unpack_pack hb _ hlt _ z3 n (by rw [List.length_map, z1]; omega)
    unfold GptqPack.unpack at h
    have hln : n < (zeros (mem.g k)).length := by omega
    rw [List.getElem?_map, List.getElem?_eq_getElem hln, Option.map_some, Option.map_eq_some_iff] at h
    obtain ⟨w, h1, h2⟩ := h
    unfold zeroAt
    rw [hmz _ hg _ w h1, ← Nat.shiftRight_eq_div_pow, h2, hstore _ (List.getElem_mem _), List.getD_eq_getElem?_getD,
      List.getElem?_eq_getElem hln]
    have := (z2 _ (List.getElem_mem hln)).1
    simp only [Option.getD_some]
    omega
  rw [hzero]

example : GptqPack.pack 8 (List.replicate 32 3) = .ok (List.replicate 8 0x03030303) ∧
    GptqPack.packZeros 8 (List.replicate 32 1) = .ok (List.replicate 8 0) := by decide

/-- Tuning finds a configuration for every size, unless one of the sizes is 0. -/
theorem C97_tunes (cache : Cache) (shape : Nat × Nat × Nat) (time : Config → ℚ) :
    ((∃ r, tune fwdConfigs true cache shape time = .ok r) ↔ 0 < shape.1 ∧ 0 < shape.2.1 ∧ 0 < shape.2.2) ∧
    ((∃ r, tune bwdConfigs false cache shape time = .ok r) ↔ 0 < shape.1 ∧ 0 < shape.2.1 ∧ 0 < shape.2.2) := by
  obtain ⟨M, N, K⟩ := shape
  dsimp only
  have hpos : ∀ key, keyOf (M, N, K) = .ok key → 0 < M ∧ 0 < N ∧ 0 < K := by
    intro key h
    refine ⟨Nat.pos_of_ne_zero fun h0 => ?_, Nat.pos_of_ne_zero fun h0 => ?_, Nat.pos_of_ne_zero fun h0 => ?_⟩
    · subst h0; cases h
    · subst h0
      unfold keyOf at h
      cases hm : nearest M with
      | error e => simp only [hm, bind, Except.bind] at h; cases h
      | ok m => simp only [hm, bind, Except.bind] at h; cases h
    · subst h0
      unfold keyOf at h
      cases hm : nearest M with
      | error e => simp only [hm, bind, Except.bind] at h; cases h
      | ok m =>
        cases hn : nearest N with
        | error e => simp only [hm, hn, bind, Except.bind] at h; cases h
        | ok n => simp only [hm, hn, bind, Except.bind] at h; cases h
  have hgen : ∀ configs early, configs ≠ [] → (0 < M ∧ 0 < N ∧ 0 < K → ∃ l, candidates configs early none (M, N, K) = .ok l ∧ l ≠ []) →
      ((∃ r, tune configs early cache (M, N, K) time = .ok r) ↔ 0 < M ∧ 0 < N ∧ 0 < K) := by
    intro configs early _ hl
    constructor
    · rintro ⟨⟨c, cache'⟩, h⟩
      obtain ⟨key, hk, _⟩ := tune_eq _ _ _ _ _ _ _ h
      exact hpos key hk
    · intro h
      obtain ⟨key, hk⟩ := keyOf_ok M N K h.1 h.2.1 h.2.2
      cases hlk : cache.lookup key with
      | some c => exact ⟨(c, cache), by unfold tune; rw [hk]; simp only [bind, Except.bind, hlk]⟩
      | none =>
        obtain ⟨l, h1, h2⟩ := hl h
        obtain ⟨_, c, _, hf, _⟩ := fastest_spec time l h2
        exact ⟨_, tune_fresh configs early _ key time l hk h1 c hf cache hlk⟩
  refine ⟨hgen _ _ (by decide) fun h => ?_, hgen _ _ (by decide) fun h => ⟨_, rfl, by decide⟩⟩
  refine ⟨_, (show _ = Except.ok (shrink (max (2 ^ Nat.clog 2 M) 16) (max (2 ^ Nat.clog 2 N) 16) (max (2 ^ Nat.clog 2 K) 16) fwdConfigs []) from ?_), ?_⟩
  · unfold candidates
    dsimp only
    rw [if_pos rfl]
    unfold pruner ceilPow
    rw [if_neg (by omega), if_neg (by omega), if_neg (by omega)]
    rfl
  · exact List.ne_nil_of_mem ((shrink_mem ..).2 ⟨⟨_, List.mem_cons_self, rfl⟩, by simp⟩)

/-- DISAGREEMENT: an input without rows, for which there is nothing to compute, is a `ValueError`, after
every history of calls. -/
theorem C97_empty_fails (configs : List Config) (early : Bool) (cache : Cache) (N K : Nat) (time : Config → ℚ) :
    tune configs early cache (0, N, K) time = .error .value := rfl

/-- After all calls of all sizes, with whatever times, the product is right, if the number of inputs is
a multiple of 128. Missing: other numbers of inputs, see `C97_forward_violated`. -/
theorem C97_forward_partial (bits : Nat) (hb : bits ∈ [2, 4, 8]) (calls : List ((Nat × Nat × Nat) × (Config → ℚ))) (cache cache' : Cache)
    (h : tuneAll fwdConfigs true calls [] = .ok cache) (M N K : Nat) (hK : 128 ∣ K) (time : Config → ℚ) (c : Config)
    (ht : tune fwdConfigs true cache (M, N, K) time = .ok (c, cache')) (mem : Mem) :
    Writes (matmul mem (contiguous bits N K N) bits M N K c) M N
      (fun m n => ∑ k ∈ Finset.range K, mem.a (m * K + k) * weightAt mem bits N k n) := by
  have h0 := tuneAll_inv GoodK fwdConfigs true fwd_cands calls [] cache (by simp) h
  obtain ⟨⟨g1, g2, g3, g4, g5⟩, _⟩ := tune_inv GoodK fwdConfigs true fwd_cands cache h0 _ time c cache' ht
  exact C97_product_partial mem bits M N K c hb (dvd_trans (per_dvd hb) g2) (Nat.pos_of_dvd_of_pos g1 (by norm_num)) g3 g4 g5
    (dvd_trans g1 hK)

example : ∃ r, tune fwdConfigs true [] (2, 32, 128) (fun _ => 1) = .ok r := ⟨_, rfl⟩

/-- DISAGREEMENT: for more than 64 inputs, not a multiple of 128, it depends on the times measured whether
the product is right: there are times for which the block chosen does not divide the number of inputs and
the product contains what is stored behind the tensors. -/
theorem C97_forward_violated (bits M N K groups : Nat) (hb : bits ∈ [2, 4, 8]) (hM : 0 < M) (hN : 0 < N) (hK : 64 < K)
    (hK2 : ¬ 128 ∣ K) :
    ∃ (time : Config → ℚ) (c : Config) (cache : Cache), tune fwdConfigs true [] (M, N, K) time = .ok (c, cache) ∧
      ∃ mem mem' : Mem, Agree M K K N bits groups mem mem' ∧
        matmul mem (contiguous bits N K N) bits M N K c ≠ matmul mem' (contiguous bits N K N) bits M N K c := by
  obtain ⟨⟨c, cache'⟩, hr⟩ := ((C97_tunes [] (M, N, K) (timeFor fun c => c.bk == 128)).1).2 ⟨hM, hN, by dsimp only; omega⟩
  refine ⟨_, c, cache', hr, ?_⟩
  obtain ⟨key, _, h | ⟨_, _, l, hl, hf⟩⟩ := tune_eq _ _ _ _ _ _ _ hr
  · cases h.1
  · have hgood := fwd_cands _ _ hl c (fastest_mem _ _ _ hf)
    obtain ⟨m, n, k, h1, h2, h3, rfl⟩ := pruner_ok _ _ _ _ _ hl
    obtain ⟨e1, ⟨e, rfl⟩, e3⟩ := ceilPow_ok _ _ h3
    dsimp only at e3
    have he : 7 ≤ e := by
      by_contra hc
      have : 2 ^ e ≤ 2 ^ 6 := Nat.pow_le_pow_right (by norm_num) (by omega)
      omega
    have h128 : 128 ≤ 2 ^ e := le_trans (by norm_num) (Nat.pow_le_pow_right (n := 2) (by norm_num) he)
    have hmem : cap m n (2 ^ e) ⟨32, 32, 128, 8, 2, 4⟩ ∈ shrink m n (2 ^ e) fwdConfigs [] :=
      (shrink_mem ..).2 ⟨⟨_, by decide, rfl⟩, by simp⟩
    obtain ⟨d, hd1, hd2⟩ := fastest_for (fun c => c.bk == 128) _ _ hmem (by
      show (min (2 ^ e) 128 == 128) = true
      rw [Nat.min_eq_right h128]; rfl)
    rw [hd1] at hf
    obtain rfl := Option.some.inj hf
    have hbk : d.bk = 128 := by simpa using hd2
    exact C97_product_violated bits M N K groups d hb (dvd_trans (per_dvd hb) hgood.2.1) (by omega) hgood.2.2.1 hgood.2.2.2.1
      hgood.2.2.2.2 hM hN (by rw [hbk]; exact hK2)

/-- DISAGREEMENT: the configuration is remembered for the sizes rounded to powers of two, and sizes that
are rounded alike may need different ones: after a product with 128 inputs, one with 96 inputs takes the
block of 128, whatever the times are then. -/
theorem C97_remembered_violated :
    ∃ (calls : List ((Nat × Nat × Nat) × (Config → ℚ))) (cache : Cache), tuneAll fwdConfigs true calls [] = .ok cache ∧
      (∀ call ∈ calls, 128 ∣ call.1.2.2) ∧
      ∀ time, ∃ c, tune fwdConfigs true cache (1, 32, 96) time = .ok (c, cache) ∧ c.bk = 128 :=
  ⟨[((1, 32, 128), timeFor fun c => c.bk == 128)], [((1, 32, 128), ⟨16, 32, 128, 8, 2, 4⟩)], by decide +kernel, by simp,
    fun _ => ⟨⟨16, 32, 128, 8, 2, 4⟩, rfl, rfl⟩⟩

/-- After all calls of all sizes, with whatever times, the gradient is right, if the number of outputs
is a multiple of 128. Missing: other numbers of outputs, see `C97_backward_violated`. -/
theorem C97_backward_partial (bits : Nat) (hb : bits ∈ [2, 4, 8]) (calls : List ((Nat × Nat × Nat) × (Config → ℚ))) (cache cache' : Cache)
    (h : tuneAll bwdConfigs false calls [] = .ok cache) (M N K : Nat) (hN : 128 ∣ N) (hK : 32 ∣ K) (time : Config → ℚ) (c : Config)
    (ht : tune bwdConfigs false cache (M, N, K) time = .ok (c, cache')) (mem : Mem) :
    Writes (transposeMatmul mem (contiguous bits N N K) bits M N (K / 32 * bits) c) M K
      (fun m k => ∑ n ∈ Finset.range N, mem.a (m * N + n) * weightAt mem bits N k n) := by
  have h0 := tuneAll_inv _ bwdConfigs false bwd_cands calls [] cache (by simp) h
  obtain ⟨⟨g1, g2, g3, g4, g5⟩, _⟩ := tune_inv _ bwdConfigs false bwd_cands cache h0 _ time c cache' ht
  exact C97_gradient_partial mem bits M N K c hb hK (dvd_trans (per_dvd hb) g2) (Nat.pos_of_dvd_of_pos g1 (by norm_num)) g3 g4 g5
    (dvd_trans g1 hN)

/-- DISAGREEMENT: for every number of outputs that is not a multiple of 128, also for 32 and 64, there
are times for which the gradient contains what is stored behind the tensors: the blocks of this kernel are
not shrunk. -/
theorem C97_backward_violated (bits M N K groups : Nat) (hb : bits ∈ [2, 4, 8]) (hM : 0 < M) (hN : 0 < N) (hK : 0 < K) (h32 : 32 ∣ K)
    (hN2 : ¬ 128 ∣ N) :
    ∃ (time : Config → ℚ) (c : Config) (cache : Cache), tune bwdConfigs false [] (M, N, K) time = .ok (c, cache) ∧
      ∃ mem mem' : Mem, Agree M N K N bits groups mem mem' ∧
        transposeMatmul mem (contiguous bits N N K) bits M N (K / 32 * bits) c ≠
          transposeMatmul mem' (contiguous bits N N K) bits M N (K / 32 * bits) c := by
  obtain ⟨key, hk⟩ := keyOf_ok M N K hM hN hK
  refine ⟨timeFor fun c => c.bn == 128, ⟨32, 128, 32, 8, 2, 4⟩, _,
    tune_fresh bwdConfigs false (M, N, K) key _ bwdConfigs hk rfl _ (by decide +kernel) [] rfl, ?_⟩
  exact C97_gradient_violated bits M N K groups _ hb h32 (dvd_trans (per_dvd hb) (by norm_num)) (by norm_num) (by norm_num)
    (by norm_num) (by norm_num) hM hK hN2

/-- A size is rounded to the power of two that is nearest in ratio. -/
theorem C97_rounded (x : Nat) (hx : 0 < x) :
    ∃ e, nearest x = .ok (2 ^ e) ∧ 2 ^ e * 2 ^ e ≤ 2 * (x * x) ∧ 2 * (x * x) < 4 * (2 ^ e * 2 ^ e) := by
  refine ⟨Nat.log 2 (2 * x * x) / 2, if_neg (by omega), ?_⟩
  have hpos : 2 * x * x ≠ 0 := by positivity
  have h1 := Nat.pow_log_le_self 2 hpos
  have h2 := Nat.lt_pow_succ_log_self (b := 2) (by norm_num) (2 * x * x)
  generalize Nat.log 2 (2 * x * x) = L at *
  rw [show 2 * (x * x) = 2 * x * x by ring, ← pow_add]
  constructor
  · exact le_trans (Nat.pow_le_pow_right (by norm_num) (by omega)) h1
  · rw [show 4 = 2 ^ 2 by norm_num, ← pow_add]
    exact lt_of_lt_of_le h2 (Nat.pow_le_pow_right (by norm_num) (by omega))

example : nearest 96 = .ok 128 ∧ nearest 90 = .ok 64 ∧ nearest 1 = .ok 1 := by decide +kernel

/-- The first of the fastest configurations is taken. -/
theorem C97_fastest (time : Config → ℚ) (l : List Config) (h : l ≠ []) :
    ∃ pre c post, fastest time l = some c ∧ l = pre ++ c :: post ∧ (∀ d ∈ pre, time c < time d) ∧ ∀ d ∈ post, time c ≤ time d :=
  fastest_spec time l h

/-- What is measured: every configuration with blocks cut to the size, rounded up to a power of two and
at least 16; each once. -/
theorem C97_measured (configs : List Config) (M N K : Nat) (hM : 0 < M) (hN : 0 < N) (hK : 0 < K) :
    ∃ m n k l, pruner configs M N K = .ok l ∧ l.Nodup ∧ (∀ d, d ∈ l ↔ ∃ c ∈ configs, d = cap m n k c) ∧
      IsCeil M m ∧ IsCeil N n ∧ IsCeil K k := by
  have hceil : ∀ x, 0 < x → IsCeil x (max (2 ^ Nat.clog 2 x) 16) := by
    intro x hx
    rcases Nat.le_total (2 ^ Nat.clog 2 x) 16 with h | h
    · rw [Nat.max_eq_right h]
      exact ⟨⟨4, rfl⟩, le_refl _, le_trans (Nat.le_pow_clog (by norm_num) x) h, fun _ _ _ h16 => h16⟩
    · rw [Nat.max_eq_left h]
      refine ⟨⟨_, rfl⟩, h, Nat.le_pow_clog (by norm_num) x, ?_⟩
      rintro y ⟨e, rfl⟩ hy h16
      exact Nat.pow_le_pow_right (by norm_num) ((Nat.clog_le_iff_le_pow (by norm_num)).2 hy)
  refine ⟨_, _, _, shrink (max (2 ^ Nat.clog 2 M) 16) (max (2 ^ Nat.clog 2 N) 16) (max (2 ^ Nat.clog 2 K) 16) configs [], ?_,
    shrink_nodup .., fun d => ?_, hceil M hM, hceil N hN, hceil K hK⟩
  · unfold pruner ceilPow
    rw [if_neg (by omega), if_neg (by omega), if_neg (by omega)]
    rfl
  · rw [shrink_mem]; simp

example : pruner fwdConfigs 1 32 32 = .ok [⟨16, 32, 32, 8, 4, 4⟩, ⟨16, 32, 32, 8, 2, 8⟩, ⟨16, 32, 32, 8, 3, 8⟩, ⟨16, 32, 32, 8, 2, 4⟩] := by
  decide +kernel

/-- With a model of the running time and no pruner, the configurations with the smallest estimates are
measured. -/
theorem C97_estimated (configs : List Config) (f : Config → ℚ) (k : Nat) (shape : Nat × Nat × Nat) :
    ∃ l rest, candidates configs false (some (f, k)) shape = .ok l ∧ List.Perm (l ++ rest) configs ∧
      l.length = min k configs.length ∧ ∀ a ∈ l, ∀ b ∈ rest, f a ≤ f b := by
  unfold candidates
  dsimp only
  rw [if_neg (by simp)]
  by_cases h : configs.length > k
  · rw [if_pos h]
    have hp := sortBy_perm (le := fun a b => decide (f a ≤ f b)) configs
    have hs := sortBy_sorted (le := fun a b => decide (f a ≤ f b))
      (by intro a b c h1 h2; simp only [decide_eq_true_eq] at *; exact le_trans h1 h2)
      (by intro a b; simp only [Bool.or_eq_true, decide_eq_true_eq]; exact le_total _ _) configs
    generalize sortBy (fun a b => decide (f a ≤ f b)) configs = s at *
    refine ⟨s.take k, s.drop k, rfl, by rw [List.take_append_drop]; exact hp, ?_, ?_⟩
    · rw [List.length_take, hp.length_eq]
    · rw [← List.take_append_drop k s] at hs
      intro a ha b hb
      simpa using (List.pairwise_append.1 hs).2.2 a ha b hb
  · rw [if_neg h]
    exact ⟨configs, [], rfl, by simp, by omega, by simp⟩

/-- DISAGREEMENT: a model of the running time cannot be used together with the pruner of the kernels,
and leaving the pruner out of the options is an error too. -/
theorem C97_estimates_fails (configs : List Config) (f : Config → ℚ) (k : Nat) (shape : Nat × Nat × Nat) :
    candidates configs true (some (f, k)) shape = .error .type ∧ initPrune (some ⟨none, some (f, k)⟩) = .error .name ∧
      initPrune (some ⟨some false, some (f, k)⟩) = .ok (false, some (f, k)) := ⟨rfl, rfl, rfl⟩

/-- Blocks and warps are powers of two, which Triton asks for: for every configuration either kernel is started with, after all calls
of all sizes and with whatever times. -/
theorem C97_powers (calls : List ((Nat × Nat × Nat) × (Config → ℚ))) (cache cache' : Cache) (shape : Nat × Nat × Nat) (time : Config → ℚ)
    (c : Config)
    (h : (tuneAll fwdConfigs true calls [] = .ok cache ∧ tune fwdConfigs true cache shape time = .ok (c, cache')) ∨
      (tuneAll bwdConfigs false calls [] = .ok cache ∧ tune bwdConfigs false cache shape time = .ok (c, cache'))) :
    Powers c := by
  rcases h with ⟨h1, h2⟩ | ⟨h1, h2⟩
  · have h0 := tuneAll_inv Powers fwdConfigs true fwd_powers calls [] cache (by simp) h1
    exact (tune_inv Powers fwdConfigs true fwd_powers cache h0 _ time c cache' h2).1
  · have h0 := tuneAll_inv Powers bwdConfigs false bwd_powers calls [] cache (by simp) h1
    exact (tune_inv Powers bwdConfigs false bwd_powers cache h0 _ time c cache' h2).1

example : (tune fwdConfigs true [] (2, 40, 128) (fun c => c.bn)).toOption.map (fun r => r.1) = some ⟨16, 32, 32, 8, 4, 4⟩ := by
  decide +kernel

/-- Sizes of zero have no nearest power of two: the search for a configuration fails with a `ValueError`, and only for them. -/
theorem C97_zero_refused (x : Nat) (e : Err) :
    (nearest x = .error e ↔ x = 0 ∧ e = .value) ∧ (ceilPow x = .error e ↔ x = 0 ∧ e = .value) := by
  unfold nearest ceilPow
  by_cases h : x = 0 <;> simp [h, eq_comm (a := e)]

end Verif.Triton
