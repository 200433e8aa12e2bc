import Verif.Spec.GptqLayer

/-! Helper lemmas for `Verif/Props/GptqLayer.lean`. -/

/-! C54: quantising a layer with GPTQ. -/
namespace Verif.GptqLayer
open Verif Verif.GptqQuantizer

/-- The parameters that belong to the column treated as number `col`: with groups those found for the
columns of its group, of the weights as they are at the start of the block in which the group
starts. -/
def paramsAt (c : Cfg) (w q : Mat) (col : Nat) : Params :=
  match c.groupsize with
  | none => c.init.getD (find c w 0 c.cols)
  | some gs => find c (comp c.hinv (ordered c w) q (col / gs * gs / c.blocksize * c.blocksize)) (col / gs * gs) gs

/-- The quantiser after `n` columns. -/
def Inv (c : Cfg) (w q : Mat) (n : Nat) (z : Quant) : Prop :=
  match c.groupsize with
  | none => z = ⟨c.init.getD (find c w 0 c.cols), [], 1⟩
  | some gs => z.now = z.groups.length + 1 ∧ z.groups.length = (n + gs - 1) / gs ∧
      (∀ g (h : g < z.groups.length), z.groups[g] = paramsAt c w q (g * gs)) ∧ (0 < n → z.cur = paramsAt c w q (n - 1))

/-- The loss of the columns from `i` on. -/
def lossOf (c : Cfg) (w q : Mat) (i k : Nat) : ℚ :=
  ((List.range k).map fun t => ((List.range c.rows).map fun r =>
    (comp c.hinv (ordered c w) q (i + t) r (i + t) - q r (i + t)) ^ 2 / c.hinv (i + t) (i + t) ^ 2 / 2).sum).sum

theorem comp_succ (u w q : Mat) (k r j : Nat) :
    comp u w q (k + 1) r j = comp u w q k r j - (comp u w q k r k - q r k) / u k k * u k j := rfl

theorem comp_add (u w q : Mat) (i r j : Nat) : ∀ k, comp u w q (i + k) r j = comp u w q i r j -
    ((List.range k).map fun t => (comp u w q (i + t) r (i + t) - q r (i + t)) / u (i + t) (i + t) * u (i + t) j).sum
  | 0 => by simp
  | k + 1 => by
    rw [← Nat.add_assoc, comp_succ, comp_add u w q i r j k, List.range_succ, List.map_append, List.sum_append]
    simp only [List.map_cons, List.map_nil, List.sum_cons, List.sum_nil]
    ring

theorem comp_congr (u w q q' : Mat) : ∀ k, (∀ r j, j < k → q r j = q' r j) → comp u w q k = comp u w q' k
  | 0, _ => rfl
  | k + 1, h => by
    rw [comp, comp, comp_congr u w q q' k fun r j hj => h r j (by omega)]
    funext r j
    rw [h r k (by omega)]

theorem find_congr (c : Cfg) (w w' : Mat) (start width : Nat) (h : ∀ r j, start ≤ j → w r j = w' r j) :
    find c w start width = find c w' start width := by
  have hp : ∀ r, ((List.range c.cols).drop start |>.take width).map (w r) = ((List.range c.cols).drop start |>.take width).map (w' r) := by
    intro r
    apply List.map_congr_left
    intro j hj
    apply h
    have := List.mem_of_mem_take hj
    rw [List.mem_drop_iff_getElem] at this
    obtain ⟨i, hi, e⟩ := this
    rw [List.getElem_range] at e
    omega
  unfold find
  simp only [hp]

theorem paramsAt_group (c : Cfg) (w q : Mat) (gs : Nat) (h : c.groupsize = some gs) (hg : 0 < gs) (a b : Nat) (e : a / gs = b / gs) :
    paramsAt c w q a = paramsAt c w q b := by
  unfold paramsAt
  rw [h]
  dsimp only
  rw [e]

theorem group_step (c : Cfg) (w q w' : Mat) (n : Nat) (z : Quant) (hgs : c.groupsize ≠ some 0) (hz : Inv c w q n z)
    (hw : ∀ r j, n ≤ j → w' r j = comp c.hinv (ordered c w) q (n / c.blocksize * c.blocksize) r j) :
    ∃ z', z.group c w' n = .ok z' ∧ Inv c w q (n + 1) z' ∧ z'.cur = paramsAt c w q n := by
  cases hg : c.groupsize with
  | none =>
    unfold Inv at hz ⊢
    rw [hg] at hz ⊢
    dsimp only at hz ⊢
    refine ⟨z, by unfold Quant.group; rw [hg], hz, ?_⟩
    rw [hz]
    unfold paramsAt
    rw [hg]
  | some gs =>
    have hpos : 0 < gs := Nat.pos_of_ne_zero (by rintro rfl; exact hgs hg)
    unfold Inv at hz ⊢
    rw [hg] at hz ⊢
    dsimp only at hz ⊢
    obtain ⟨h1, h2, h3, h4⟩ := hz
    by_cases hm : n % gs = 0
    · have hn : n / gs * gs = n := Nat.div_mul_cancel (Nat.dvd_of_mod_eq_zero hm)
      have hlen : z.groups.length = n / gs := by
        rw [h2, ← hn, Nat.mul_div_cancel _ hpos, Nat.add_sub_assoc hpos, Nat.add_comm, Nat.add_mul_div_right _ _ hpos,
          Nat.div_eq_of_lt (by omega), Nat.zero_add]
      have hfind : find c w' n gs = paramsAt c w q n := by
        unfold paramsAt
        rw [hg]
        dsimp only
        rw [hn]
        exact find_congr c _ _ _ _ hw
      refine ⟨⟨find c w' n gs, z.groups ++ [find c w' n gs], z.now + 1⟩, ?_, ⟨?_, ?_, ?_, ?_⟩, hfind⟩
      · unfold Quant.group
        rw [hg]
        obtain ⟨g, rfl⟩ : ∃ g, gs = g + 1 := ⟨gs - 1, by omega⟩
        simp only [hm, ↓reduceIte]
        rw [if_pos]
        rw [h1, hlen]
        push_cast
        omega
      · simp [h1]
      · have e : n + 1 + gs - 1 = gs * (n / gs + 1) := by
          rw [Nat.mul_add, Nat.mul_comm gs, hn]; omega
        rw [e, Nat.mul_div_cancel_left _ hpos]
        simp [hlen]
      · intro g hgl
        simp only [List.length_append, List.length_singleton] at hgl
        by_cases hlt : g < z.groups.length
        · rw [List.getElem_append_left hlt]
          exact h3 g hlt
        · rw [List.getElem_append_right (by omega)]
          have : g = n / gs := by omega
          simp only [List.getElem_singleton]
          rw [hfind, this, hn]
      · intro _
        exact hfind
    · have hlen : z.groups.length = n / gs + 1 := by
        rw [h2]
        have e := Nat.div_add_mod n gs
        have : n + gs - 1 = (n % gs - 1) + gs * (n / gs + 1) := by
          rw [Nat.mul_add]; omega
        rw [this, Nat.add_mul_div_left _ _ hpos, Nat.div_eq_of_lt (by have := Nat.mod_lt n hpos; omega), Nat.zero_add]
      have hnp : 0 < n := Nat.pos_of_ne_zero (by rintro rfl; simp at hm)
      have hdiv : (n - 1) / gs = n / gs := by
        have e := Nat.div_add_mod n gs
        have hl := Nat.mod_lt n hpos
        have : n - 1 = (n % gs - 1) + gs * (n / gs) := by omega
        rw [this, Nat.add_mul_div_left _ _ hpos, Nat.div_eq_of_lt (by omega), Nat.zero_add]
      have hcur : z.cur = paramsAt c w q n := by
        rw [h4 hnp]
        exact paramsAt_group c w q gs hg hpos _ _ hdiv
      refine ⟨z, ?_, ⟨h1, ?_, h3, fun _ => by rw [hcur]; rfl⟩, hcur⟩
      · unfold Quant.group
        rw [hg]
        obtain ⟨g, rfl⟩ : ∃ g, gs = g + 1 := ⟨gs - 1, by omega⟩
        simp only [hm, ↓reduceIte]
        rw [if_neg]
        rw [h1, hlen]
        push_cast
        omega
      · rw [hlen]
        have e := Nat.div_add_mod n gs
        have hl := Nat.mod_lt n hpos
        have : n + 1 + gs - 1 = (n % gs) + gs * (n / gs + 1) := by
          rw [Nat.mul_add]; omega
        rw [this, Nat.add_mul_div_left _ _ hpos, Nat.div_eq_of_lt hl, Nat.zero_add]

theorem cols_ok (c : Cfg) (w' : Mat) (i1 : Nat) (z : Quant) (l : ℚ) (hgs : c.groupsize ≠ some 0) : ∀ k, ∃ b, cols c w' i1 z l k = .ok b
  | 0 => ⟨_, rfl⟩
  | k + 1 => by
    obtain ⟨b, hb⟩ := cols_ok c w' i1 z l hgs k
    have : ∃ z', b.qz.group c w' (i1 + k) = .ok z' := by
      unfold Quant.group
      split
      · exact ⟨_, rfl⟩
      · rename_i h; exact absurd h hgs
      · exact ⟨_, rfl⟩
    obtain ⟨z', hz'⟩ := this
    rw [cols, hb]
    simp only [bind, Except.bind, colStep, hz', pure, Except.pure]
    exact ⟨_, rfl⟩

theorem cols_spec (c : Cfg) (w q w' : Mat) (i1 : Nat) (z : Quant) (l : ℚ) (hgs : c.groupsize ≠ some 0) (hdiv : c.blocksize ∣ i1)
    (hw : ∀ r j, i1 ≤ j → w' r j = comp c.hinv (ordered c w) q i1 r j) (hz : Inv c w q i1 z) :
    ∀ (k : Nat) (b : Blk), k ≤ c.blocksize → cols c w' i1 z l k = .ok b → (∀ r j, j < k → b.q1 r j = q r (i1 + j)) →
      (∀ r j, k ≤ j → b.w1 r j = comp c.hinv (ordered c w) q (i1 + k) r (i1 + j)) ∧
      (∀ r j, j < k → b.err1 r j =
        (comp c.hinv (ordered c w) q (i1 + j) r (i1 + j) - q r (i1 + j)) / c.hinv (i1 + j) (i1 + j)) ∧
      Inv c w q (i1 + k) b.qz ∧ b.loss = l + lossOf c w q i1 k ∧
      (∀ r j, j < k → q r (i1 + j) = quantizeCol c (paramsAt c w q (i1 + j))
        (fun r => comp c.hinv (ordered c w) q (i1 + j) r (i1 + j)) r)
  | 0, b, _, h, _ => by
    obtain rfl := Except.ok.inj h
    refine ⟨fun r j _ => hw r _ (by omega), fun r j hj => absurd hj (by omega), hz, by simp [lossOf], fun r j hj => absurd hj (by omega)⟩
  | k + 1, b, hk, h, hq => by
    rw [cols] at h
    obtain ⟨b0, h0⟩ := cols_ok c w' i1 z l hgs k
    rw [h0] at h
    simp only [bind, Except.bind, colStep] at h
    have hq0 : ∀ b', cols c w' i1 z l k = .ok b' → b.q1 = (fun r j => if j = k then b.q1 r k else b'.q1 r j) := by
      intro b' hb'
      rw [h0] at hb'
      obtain rfl := Except.ok.inj hb'
      cases hg : b0.qz.group c w' (i1 + k) with
      | error e => rw [hg] at h; cases h
      | ok z' =>
        rw [hg] at h
        obtain rfl := Except.ok.inj h
        funext r j
        by_cases hj : j = k <;> simp [hj]
    obtain ⟨i_w, i_e, i_z, i_l, i_q⟩ := cols_spec c w q w' i1 z l hgs hdiv hw hz k b0 (by omega) h0 (fun r j hj => by
      have := hq r j (by omega)
      rw [hq0 b0 h0] at this
      simpa [show j ≠ k by omega] using this)
    have hblock : (i1 + k) / c.blocksize * c.blocksize = i1 := by
      obtain ⟨m, rfl⟩ := hdiv
      have hb0 : 0 < c.blocksize := by omega
      rw [Nat.mul_add_div hb0, Nat.div_eq_of_lt (by omega), Nat.add_zero, Nat.mul_comm]
    obtain ⟨z', hg, hz', hcur⟩ := group_step c w q w' (i1 + k) b0.qz hgs i_z (by
      intro r j hj
      rw [hblock]
      exact hw r j (by omega))
    rw [hg] at h
    obtain rfl := Except.ok.inj h
    have hwk : (fun r => b0.w1 r k) = fun r => comp c.hinv (ordered c w) q (i1 + k) r (i1 + k) := by
      funext r; exact i_w r k (le_refl _)
    have hqk : ∀ r, quantizeCol c z'.cur (fun r => b0.w1 r k) r = q r (i1 + k) := by
      intro r
      have := hq r k (by omega)
      simpa using this
    refine ⟨?_, ?_, hz', ?_, ?_⟩
    · intro r j hj
      dsimp only
      rw [if_pos (by omega), hqk, i_w r j (by omega), i_w r k (le_refl _), ← Nat.add_assoc, comp_succ]
    · intro r j hj
      dsimp only
      by_cases hjk : j = k
      · subst hjk
        rw [if_pos rfl, hqk, i_w r j (le_refl _)]
      · rw [if_neg hjk]
        exact i_e r j (by omega)
    · dsimp only
      rw [i_l, add_assoc]
      congr 1
      unfold lossOf
      rw [List.range_succ, List.map_append, List.sum_append]
      congr 1
      simp only [List.map_cons, List.map_nil, List.sum_cons, List.sum_nil, add_zero]
      congr 1
      apply List.map_congr_left
      intro r _
      rw [hqk, i_w r k (le_refl _)]
    · intro r j hj
      by_cases hjk : j = k
      · subst hjk
        rw [← hqk r, hwk, hcur]
      · exact i_q r j (by omega)

theorem blocks_ok (c : Cfg) (w : Mat) (hgs : c.groupsize ≠ some 0) : ∀ k, ∃ s, blocks c w k = .ok s
  | 0 => ⟨_, rfl⟩
  | k + 1 => by
    obtain ⟨s, hs⟩ := blocks_ok c w hgs k
    obtain ⟨b, hb⟩ := cols_ok c s.w (k * c.blocksize) s.qz s.loss hgs (min (k * c.blocksize + c.blocksize) c.cols - k * c.blocksize)
    rw [blocks, hs]
    simp only [bind, Except.bind, blockStep, hb, pure, Except.pure]
    exact ⟨_, rfl⟩

theorem lossOf_add (c : Cfg) (w q : Mat) (i k : Nat) : lossOf c w q 0 i + lossOf c w q i k = lossOf c w q 0 (i + k) := by
  unfold lossOf
  rw [List.range_add, List.map_append, List.sum_append, List.map_map]
  congr 1
  congr 1
  apply List.map_congr_left
  intro t _
  simp

theorem blocks_spec (c : Cfg) (w q : Mat) (hgs : c.groupsize ≠ some 0) : ∀ (k : Nat) (s : St), blocks c w k = .ok s →
    (∀ r j, j < min (k * c.blocksize) c.cols → s.q r j = q r j) →
    (∀ r j, min (k * c.blocksize) c.cols ≤ j → s.w r j = comp c.hinv (ordered c w) q (min (k * c.blocksize) c.cols) r j) ∧
    Inv c w q (min (k * c.blocksize) c.cols) s.qz ∧ s.loss = lossOf c w q 0 (min (k * c.blocksize) c.cols) ∧
    (∀ r j, j < min (k * c.blocksize) c.cols → q r j = quantizeCol c (paramsAt c w q j)
        (fun r => comp c.hinv (ordered c w) q j r j) r)
  | 0, s, h, _ => by
    obtain rfl := Except.ok.inj h
    simp only [Nat.zero_mul, Nat.zero_min]
    refine ⟨fun r j _ => rfl, ?_, by simp [start, lossOf], fun r j hj => absurd hj (by omega)⟩
    unfold Inv
    cases hg : c.groupsize with
    | none => rfl
    | some gs =>
      have hpos : 0 < gs := Nat.pos_of_ne_zero (by rintro rfl; exact hgs hg)
      refine ⟨rfl, ?_, ?_, fun h => absurd h (by omega)⟩
      · simp only [start, List.length_nil]
        rw [Nat.div_eq_of_lt (by omega)]
      · intro g h
        simp [start] at h
  | k + 1, s, h, hq => by
    obtain ⟨s0, hs0⟩ := blocks_ok c w hgs k
    rw [blocks, hs0] at h
    have e : (k + 1) * c.blocksize = k * c.blocksize + c.blocksize := by ring
    rw [e] at hq ⊢
    obtain ⟨b, hb⟩ := cols_ok c s0.w (k * c.blocksize) s0.qz s0.loss hgs (min (k * c.blocksize + c.blocksize) c.cols - k * c.blocksize)
    simp only [bind, Except.bind, blockStep, hb, pure, Except.pure] at h
    obtain rfl := Except.ok.inj h
    dsimp only at hq ⊢
    obtain ⟨i_w, i_z, i_l, i_q⟩ := blocks_spec c w q hgs k s0 hs0 (by
      intro r j hj
      have := hq r j (by omega)
      rwa [if_neg (by omega)] at this)
    by_cases hle : c.cols ≤ k * c.blocksize
    · have h1 : min (k * c.blocksize) c.cols = c.cols := by omega
      have h2 : min (k * c.blocksize + c.blocksize) c.cols = c.cols := by omega
      have h3 : c.cols - k * c.blocksize = 0 := by omega
      rw [h1] at i_w i_z i_l i_q
      rw [h2, h3] at hb
      obtain rfl := Except.ok.inj hb
      rw [h2, h3]
      refine ⟨?_, i_z, i_l, i_q⟩
      intro r j hj
      rw [if_neg (by omega)]
      simp [i_w r j hj]
    · have h1 : min (k * c.blocksize) c.cols = k * c.blocksize := by omega
      rw [h1] at i_w i_z i_l i_q
      obtain ⟨m, hm⟩ : ∃ m, min (k * c.blocksize + c.blocksize) c.cols = k * c.blocksize + m := ⟨_, (Nat.add_sub_of_le (by omega)).symm⟩
      rw [hm] at hq hb ⊢
      rw [Nat.add_sub_cancel_left] at hb ⊢
      obtain ⟨c_w, c_e, c_z, c_l, c_q⟩ := cols_spec c w q s0.w (k * c.blocksize) s0.qz s0.loss hgs ⟨k, Nat.mul_comm _ _⟩ i_w i_z m b (by omega) hb
        (by
          intro r j hj
          have := hq r (k * c.blocksize + j) (by omega)
          rwa [if_pos (by omega), Nat.add_sub_cancel_left] at this)
      refine ⟨?_, c_z, ?_, ?_⟩
      · intro r j hj
        rw [if_neg (by omega), i_w r j (by omega), comp_add]
        congr 2
        apply List.map_congr_left
        intro t ht
        rw [List.mem_range] at ht
        rw [c_e r t ht]
      · rw [c_l, i_l, lossOf_add]
      · intro r j hj
        by_cases hjk : j < k * c.blocksize
        · exact i_q r j hjk
        · have := c_q r (j - k * c.blocksize) (by omega)
          rwa [Nat.add_sub_cancel' (by omega)] at this

theorem perm_getD (c : Cfg) (hp : c.perm.Perm (List.range c.cols)) (j : Nat) (hj : j < c.cols) :
    c.perm.getD (invperm c j) 0 = j ∧ invperm c j < c.cols ∧ invperm c (c.perm.getD j 0) = j ∧ c.perm.getD j 0 < c.cols := by
  have hlen : c.perm.length = c.cols := by rw [hp.length_eq, List.length_range]
  have hnd : c.perm.Nodup := hp.nodup_iff.2 List.nodup_range
  have hm : j ∈ c.perm := hp.mem_iff.2 (List.mem_range.2 hj)
  have h1 : c.perm.idxOf j < c.perm.length := List.idxOf_lt_length_iff.2 hm
  have hj' : j < c.perm.length := by omega
  unfold invperm
  refine ⟨?_, by omega, ?_, ?_⟩
  · rw [List.getD_eq_getElem _ _ h1, List.getElem_idxOf]
  · rw [List.getD_eq_getElem _ _ hj', hnd.idxOf_getElem]
  · rw [List.getD_eq_getElem _ _ hj']
    exact List.mem_range.1 (hp.mem_iff.1 (List.getElem_mem hj'))

theorem enough (c : Cfg) (hb : 0 < c.blocksize) : min ((c.cols + c.blocksize - 1) / c.blocksize * c.blocksize) c.cols = c.cols := by
  have := Nat.div_add_mod (c.cols + c.blocksize - 1) c.blocksize
  have h2 := Nat.mod_lt (c.cols + c.blocksize - 1) hb
  rw [Nat.mul_comm] at this
  omega

theorem blocks_error (c : Cfg) (w : Mat) (hg : c.groupsize = some 0) (hc : 0 < c.cols) (hb : 0 < c.blocksize) :
    ∀ k, 0 < k → blocks c w k = .error .zeroDivision
  | 0, h => absurd h (by omega)
  | 1, _ => by
    obtain ⟨m, hm⟩ : ∃ m, min (0 * c.blocksize + c.blocksize) c.cols - 0 * c.blocksize = m + 1 :=
      ⟨min (0 * c.blocksize + c.blocksize) c.cols - 0 * c.blocksize - 1, by rw [Nat.zero_mul]; omega⟩
    have hcol : ∀ m, cols c (start c w).w (0 * c.blocksize) (start c w).qz (start c w).loss (m + 1) = .error .zeroDivision := by
      intro m
      induction m with
      | zero => simp [cols, colStep, Quant.group, hg, bind, Except.bind]
      | succ m ih => rw [cols, ih]; rfl
    rw [blocks, blocks]
    simp only [bind, Except.bind, blockStep]
    rw [hm, hcol]
  | k + 2, _ => by
    rw [blocks, blocks_error c w hg hc hb (k + 1) (by omega)]
    rfl

/-- What a successful quantisation leaves. -/
theorem quant_spec (c : Cfg) (w w' : Mat) (res : Result) (hc : 0 < c.cols) (hp : c.perm.Perm (List.range c.cols)) (h : quant c w = (w', .ok res)) :
    0 < c.blocksize ∧ c.groupsize ≠ some 0 ∧ w' = res.w ∧ res.gidx = (fun j => invperm c j / c.groupsize.getD c.cols) ∧
    res.loss = lossOf c w (treated c w') 0 c.cols ∧
    (∀ r j, j < c.cols → treated c w' r j = quantizeCol c (paramsAt c w (treated c w') j)
        (fun r => comp c.hinv (ordered c w) (treated c w') j r j) r) ∧
    (∃ z : Quant, Inv c w (treated c w') c.cols z ∧ res.params = if z.groups = [] then [z.cur] else z.groups) := by
  unfold quant at h
  dsimp only at h
  by_cases hb : c.blocksize = 0
  · rw [if_pos hb] at h
    cases h
  rw [if_neg hb] at h
  have hb' : 0 < c.blocksize := Nat.pos_of_ne_zero hb
  by_cases hg : c.groupsize = some 0
  · rw [blocks_error c w hg hc hb' _ (Nat.div_pos (by omega) hb')] at h
    cases h
  obtain ⟨s, hs⟩ := blocks_ok c w hg ((c.cols + c.blocksize - 1) / c.blocksize)
  rw [hs] at h
  dsimp only at h
  by_cases hcu : c.cuda = false
  · rw [if_pos hcu] at h
    cases h
  rw [if_neg hcu] at h
  obtain ⟨h1, h2⟩ := Prod.mk.inj h
  have h3 := Except.ok.inj h2
  have hq : ∀ r j, j < c.cols → s.q r j = treated c w' r j := by
    intro r j hj
    unfold treated
    rw [← h1]
    dsimp only
    rw [(perm_getD c hp j hj).2.2.1]
  have hen := enough c hb'
  obtain ⟨_, i_z, i_l, i_q⟩ := blocks_spec c w (treated c w') hg _ s hs (by rw [hen]; exact hq)
  rw [hen] at i_z i_l i_q
  refine ⟨hb', hg, by rw [← h1, ← h3], by rw [← h3], by rw [← h3]; exact i_l, i_q, s.qz, i_z, by rw [← h3]⟩

theorem find_rows (c : Cfg) (w : Mat) (a b : Nat) (r : Nat) : ∃ row, find c w a b r = findParams c.maxq c.sym c.mse row := by
  unfold find
  by_cases h : c.perchannel = true
  · simp only [h, if_true]; exact ⟨_, rfl⟩
  · simp only [h, Bool.false_eq_true, if_false]; exact ⟨_, rfl⟩

theorem find_good (c : Cfg) (hu : Usable c) (w : Mat) (a b r : Nat) : Good (find c w a b r) := by
  obtain ⟨row, e⟩ := find_rows c w a b r
  obtain ⟨⟨bits, hb, hm⟩, hs, _⟩ := hu
  rw [e, hm]
  cases h : c.mse with
  | none => exact C39_params bits hb c.sym row
  | some m => exact C39_mse_params m (hs m h) bits hb c.sym row

theorem paramsAt_good (c : Cfg) (hu : Usable c) (w q : Mat) (j r : Nat) : Good (paramsAt c w q j r) := by
  unfold paramsAt
  cases hg : c.groupsize with
  | none =>
    dsimp only
    cases hi : c.init with
    | none => exact find_good c hu w _ _ r
    | some p => exact hu.2.2 p hi r
  | some gs => exact find_good c hu _ _ _ r

theorem quantizeCol_usable (c : Cfg) (hu : Usable c) (w q : Mat) (j : Nat) (x : Nat → ℚ) (r : Nat) :
    quantizeCol c (paramsAt c w q j) x r = quantize c.maxq (paramsAt c w q j r) (x r) := by
  unfold quantizeCol
  rw [if_pos]
  rw [List.all_eq_true]
  intro r _
  simpa using ne_of_gt (paramsAt_good c hu w q j r).1

theorem params_get (c : Cfg) (w q : Mat) (z : Quant) (hc : 0 < c.cols) (hg : c.groupsize ≠ some 0) (hz : Inv c w q c.cols z) :
    let ps := if z.groups = [] then [z.cur] else z.groups
    ps.length = (match c.groupsize with | none => 1 | some gs => (c.cols + gs - 1) / gs) ∧
    ∀ j, j < c.cols → ps[j / c.groupsize.getD c.cols]? = some (paramsAt c w q j) := by
  intro ps
  unfold Inv at hz
  cases h : c.groupsize with
  | none =>
    rw [h] at hz
    dsimp only at hz
    subst hz
    refine ⟨rfl, fun j hj => ?_⟩
    simp only [Option.getD_none, Nat.div_eq_of_lt hj]
    unfold paramsAt
    rw [h]
    rfl
  | some gs =>
    rw [h] at hz
    dsimp only at hz
    obtain ⟨_, h2, h3, _⟩ := hz
    have hpos : 0 < gs := Nat.pos_of_ne_zero (by rintro rfl; exact hg h)
    have hl : 0 < z.groups.length := by
      rw [h2]
      exact Nat.div_pos (by omega) hpos
    have hps : ps = z.groups := if_neg (by intro e; rw [e] at hl; simp at hl)
    rw [hps]
    refine ⟨h2, fun j hj => ?_⟩
    simp only [Option.getD_some]
    have hlt : j / gs < z.groups.length := by
      rw [h2, Nat.div_lt_iff_lt_mul hpos]
      have := Nat.div_add_mod (c.cols + gs - 1) gs
      have h4 := Nat.mod_lt (c.cols + gs - 1) hpos
      rw [Nat.mul_comm] at this
      omega
    rw [List.getElem?_eq_getElem hlt, h3]
    rw [paramsAt_group c w q gs h hpos _ _ (Nat.mul_div_cancel _ hpos)]

theorem paramsAt_congr (c : Cfg) (w q q' : Mat) (j : Nat) (h : ∀ r i, i < j → q r i = q' r i) : paramsAt c w q j = paramsAt c w q' j := by
  unfold paramsAt
  split
  · rfl
  · rename_i gs _
    rw [comp_congr c.hinv (ordered c w) q q']
    intro r i hi
    apply h
    have h1 := Nat.div_mul_le_self (j / gs * gs) c.blocksize
    have h2 := Nat.div_mul_le_self j gs
    omega

theorem unique (c c' : Cfg) (w w' q q' : Mat) (hrows : c.rows = c'.rows) (hm : c.maxq = c'.maxq)
    (hpa : ∀ j < c.cols, (∀ r i, i < j → q r i = q' r i) → paramsAt c w q j = paramsAt c' w' q' j)
    (hh : c.hinv = c'.hinv) (ho : ordered c w = ordered c' w')
    (hq : ∀ r j, j < c.cols → q r j = quantizeCol c (paramsAt c w q j) (fun r => comp c.hinv (ordered c w) q j r j) r)
    (hq' : ∀ r j, j < c.cols → q' r j = quantizeCol c' (paramsAt c' w' q' j) (fun r => comp c'.hinv (ordered c' w') q' j r j) r) :
    ∀ j r, j < c.cols → q r j = q' r j := by
  intro j
  induction j using Nat.strong_induction_on with
  | _ j ih =>
    intro r hj
    have hl : ∀ r i, i < j → q r i = q' r i := fun r i hi => ih i hi r (by omega)
    rw [hq r j hj, hq' r j hj, hpa j hj hl, ← hh, ← ho, comp_congr c.hinv (ordered c w) q q' j hl]
    unfold quantizeCol
    rw [hrows, hm]

theorem lossOf_congr (c c' : Cfg) (w w' q q' : Mat) (hrows : c.rows = c'.rows) (hh : c.hinv = c'.hinv) (ho : ordered c w = ordered c' w')
    (n : Nat) (hq : ∀ j r, j < n → q r j = q' r j) : lossOf c w q 0 n = lossOf c' w' q' 0 n := by
  unfold lossOf
  congr 1
  apply List.map_congr_left
  intro t ht
  rw [List.mem_range] at ht
  rw [hrows]
  congr 1
  apply List.map_congr_left
  intro r _
  simp only [Nat.zero_add]
  rw [← hh, ← ho, comp_congr c.hinv (ordered c w) q q' t fun r i hi => hq i r (by omega), hq t r ht]

theorem quant_congr (c c' : Cfg) (w v w' v' : Mat) (res res' : Result) (hc : 0 < c.cols) (hp : c.perm.Perm (List.range c.cols))
    (hcols : c.cols = c'.cols) (hperm : c.perm = c'.perm) (hgs : c.groupsize = c'.groupsize) (hrows : c.rows = c'.rows) (hm : c.maxq = c'.maxq)
    (hpa : ∀ q q' : Mat, ∀ j < c.cols, (∀ r i, i < j → q r i = q' r i) → paramsAt c w q j = paramsAt c' v q' j)
    (hh : c.hinv = c'.hinv) (ho : ordered c w = ordered c' v)
    (h : quant c w = (w', .ok res)) (h' : quant c' v = (v', .ok res')) :
    (∀ r j, j < c.cols → w' r j = v' r j) ∧ res.params = res'.params ∧ res.gidx = res'.gidx ∧ res.loss = res'.loss := by
  obtain ⟨_, hg, _, h2, h3, h4, z, h5, h6⟩ := quant_spec c w w' res hc hp h
  obtain ⟨_, hg', _, h2', h3', h4', z', h5', h6'⟩ := quant_spec c' v v' res' (by omega) (by rw [← hperm, ← hcols]; exact hp) h'
  have hu := unique c c' w v (treated c w') (treated c' v') hrows hm (hpa _ _) hh ho h4 (by rw [hcols]; exact h4')
  refine ⟨?_, ?_, ?_, ?_⟩
  · intro r j hj
    obtain ⟨e1, e2, _, _⟩ := perm_getD c hp j hj
    have := hu (invperm c j) r e2
    unfold treated at this
    rw [← hperm, e1] at this
    exact this
  · have hps := params_get c w _ z hc hg h5
    have hps' := params_get c' v _ z' (by omega) hg' h5'
    rw [← h6] at hps
    rw [← h6', ← hgs, ← hcols] at hps'
    dsimp only at hps hps'
    apply List.ext_getElem?
    intro g
    by_cases hlt : g < res.params.length
    · have hj : ∃ j, j < c.cols ∧ j / c.groupsize.getD c.cols = g := by
        cases hgc : c.groupsize with
        | none =>
          rw [hgc] at hps
          refine ⟨0, hc, ?_⟩
          have := hps.1
          dsimp only at this
          simp only [Nat.zero_div]
          omega
        | some gs =>
          rw [hgc] at hps
          have hpos : 0 < gs := Nat.pos_of_ne_zero (by rintro rfl; exact hg hgc)
          have := hps.1
          dsimp only at this
          rw [this, Nat.lt_div_iff_mul_lt hpos] at hlt
          exact ⟨g * gs, by omega, Nat.mul_div_cancel _ hpos⟩
      obtain ⟨j, hj1, rfl⟩ := hj
      rw [hps.2 j hj1, hps'.2 j hj1, hpa _ _ j hj1 fun r i hi => hu i r (by omega)]
    · rw [List.getElem?_eq_none (by omega), List.getElem?_eq_none (by rw [hps'.1, ← hps.1]; omega)]
  · rw [h2, h2']
    funext j
    unfold invperm
    rw [hperm, hgs, hcols]
  · rw [h3, h3', hcols]
    exact lossOf_congr c c' w v _ _ hrows hh ho _ (by rw [← hcols]; exact hu)

end Verif.GptqLayer
