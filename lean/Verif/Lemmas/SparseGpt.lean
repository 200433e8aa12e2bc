import Verif.Spec.SparseGpt

/-! Helper lemmas for `Verif/Props/SparseGpt.lean`. -/

namespace Verif.SparseGpt
open Verif

theorem le_trans_bool (a b c : ℚ × Nat) (h1 : decide (a.1 ≤ b.1) = true) (h2 : decide (b.1 ≤ c.1) = true) : decide (a.1 ≤ c.1) = true := by
  simp at *
  exact le_trans h1 h2

theorem le_total_bool (a b : ℚ × Nat) : decide (a.1 ≤ b.1) = true ∨ decide (b.1 ≤ a.1) = true := by
  simp
  exact le_total _ _

theorem zipIdx_snd_nodup (l : List ℚ) : (l.zipIdx.map (·.2)).Nodup := by
  have : l.zipIdx.map (·.2) = List.range' 0 l.length := by simp [List.zipIdx_map_snd]
  rw [this]
  exact List.nodup_range'

theorem smallest_nodup (n : Nat) (l : List ℚ) : (smallest n l).Nodup := by
  unfold smallest
  rw [List.map_take]
  refine List.Nodup.sublist (List.take_sublist _ _) ?_
  exact ((sortBy_perm l.zipIdx).map (·.2)).nodup_iff.2 (zipIdx_snd_nodup l)

theorem smallest_length (n : Nat) (l : List ℚ) (h : n ≤ l.length) : (smallest n l).length = n := by
  simp [smallest, length_sortBy, h]

theorem smallest_lt (n : Nat) (l : List ℚ) : ∀ j ∈ smallest n l, j < l.length := by
  intro j hj
  obtain ⟨⟨x, j'⟩, hm, rfl⟩ := List.mem_map.1 hj
  have h2 := mem_sortBy.1 (List.mem_of_mem_take hm)
  rw [List.mk_mem_zipIdx_iff_getElem?] at h2
  exact (List.getElem?_eq_some_iff.1 h2).1

theorem smallest_le (n : Nat) (l : List ℚ) (i j : Nat) (x y : ℚ) (hi : i ∈ smallest n l) (hj : j ∉ smallest n l)
    (hx : l[i]? = some x) (hy : l[j]? = some y) : x ≤ y := by
  have hs := sortBy_sorted (le := fun a b : ℚ × Nat => decide (a.1 ≤ b.1)) le_trans_bool le_total_bool l.zipIdx
  set S := sortBy (fun a b : ℚ × Nat => decide (a.1 ≤ b.1)) l.zipIdx with hS
  rw [← List.take_append_drop n S, List.pairwise_append] at hs
  obtain ⟨⟨x', i'⟩, hm, hi'⟩ := List.mem_map.1 hi
  simp only at hi'
  subst hi'
  have hx' : x' = x := by
    have h2 := mem_sortBy.1 (List.mem_of_mem_take hm)
    rw [List.mk_mem_zipIdx_iff_getElem?] at h2
    rw [h2] at hx
    exact Option.some.inj hx
  have hyS : (y, j) ∈ S := by
    rw [hS, mem_sortBy, List.mk_mem_zipIdx_iff_getElem?]
    exact hy
  rw [← List.take_append_drop n S, List.mem_append] at hyS
  rcases hyS with h | h
  · exact absurd (List.mem_map.2 ⟨_, h, rfl⟩) hj
  · have := hs.2.2 _ hm _ h
    simp at this
    rwa [hx'] at this

theorem countP_contains (s : List Nat) (hs : s.Nodup) (k : Nat) (hk : ∀ j ∈ s, j < k) :
    (List.range k).countP (fun t => s.contains t) = s.length := by
  rw [List.countP_eq_length_filter]
  apply List.Perm.length_eq
  rw [List.perm_ext_iff_of_nodup (List.nodup_range.filter _) hs]
  intro a
  simp
  exact hk a

theorem cols_succ {c : Cfg} {i1 count : Nat} {w : Mat} {k : Nat} {b : Blk} (h : cols c i1 count w (k + 1) = .ok b) :
    ∃ b0 mask, cols c i1 count w k = .ok b0 ∧ groupMask c i1 count k b0.w1 b0.mask = .ok mask ∧ b.mask = mask ∧
      b.q1 = (fun r j => if j = k then (if mask r k then 0 else b0.w1 r k) else b0.q1 r j) := by
  rw [cols] at h
  cases h0 : cols c i1 count w k with
  | error e => rw [h0] at h; cases h
  | ok b0 =>
    rw [h0] at h
    simp only [bind, Except.bind, colStep] at h
    cases hm : groupMask c i1 count k b0.w1 b0.mask with
    | error e => rw [hm] at h; cases h
    | ok mask =>
      rw [hm] at h
      obtain rfl := Except.ok.inj h
      exact ⟨b0, mask, rfl, hm, rfl, rfl⟩

theorem cols_step {c : Cfg} {i1 count : Nat} {w : Mat} {k : Nat} {b0 : Blk} {mask : Mask} (h0 : cols c i1 count w k = .ok b0)
    (hg : groupMask c i1 count k b0.w1 b0.mask = .ok mask) : ∃ b, cols c i1 count w (k + 1) = .ok b ∧ b.mask = mask := by
  rw [cols, h0]
  simp only [bind, Except.bind, colStep, hg, pure, Except.pure]
  exact ⟨_, rfl, rfl⟩

/-- A new group changes the mask only from its first column on. -/
theorem groupMask_keeps {c : Cfg} {i1 count i : Nat} {w1 : Mat} {mask mask' : Mask} (h : groupMask c i1 count i w1 mask = .ok mask')
    (r j : Nat) (hj : j < i) : mask' r j = mask r j := by
  unfold groupMask at h
  split_ifs at h
  · obtain rfl := Except.ok.inj h; rfl
  · obtain rfl := Except.ok.inj h; rfl
  · obtain rfl := Except.ok.inj h
    have : ¬ i ≤ j := by omega
    simp [this]

theorem cols_zero (c : Cfg) (i1 count : Nat) (w : Mat) : ∀ (k : Nat) (b : Blk), cols c i1 count w k = .ok b →
    ∀ r j, j < k → b.mask r j = true → b.q1 r j = 0
  | 0, b, h, r, j, hj, _ => absurd hj (by omega)
  | k + 1, b, h, r, j, hj, hm => by
    obtain ⟨b0, mask, h0, hg, rfl, hq⟩ := cols_succ h
    rw [hq]
    dsimp only
    by_cases hjk : j = k
    · subst hjk; simp [hm]
    · rw [if_neg hjk]
      refine cols_zero c i1 count w k b0 h0 r j (by omega) ?_
      rw [← groupMask_keeps hg r j (by omega)]
      exact hm

theorem blockStep_ok {c : Cfg} {b : Nat} {s : St} (h : (blockStep c b s).err = none) :
    s.err = none ∧ ∃ k, cols c (b * c.blocksize) (min (b * c.blocksize + c.blocksize) c.cols - b * c.blocksize) s.w
        (min (b * c.blocksize + c.blocksize) c.cols - b * c.blocksize) = .ok k ∧
      (∀ r j, j < b * c.blocksize → (blockStep c b s).w r j = s.w r j ∧ (blockStep c b s).mask r j = s.mask r j) ∧
      (∀ r j, b * c.blocksize ≤ j → j < min (b * c.blocksize + c.blocksize) c.cols →
        (blockStep c b s).w r j = k.q1 r (j - b * c.blocksize) ∧ (blockStep c b s).mask r j = k.mask r (j - b * c.blocksize)) := by
  cases he : s.err with
  | some e => simp [blockStep, he] at h
  | none =>
    refine ⟨rfl, ?_⟩
    cases hk : cols c (b * c.blocksize) (min (b * c.blocksize + c.blocksize) c.cols - b * c.blocksize) s.w
        (min (b * c.blocksize + c.blocksize) c.cols - b * c.blocksize) with
    | error e => simp [blockStep, he, hk] at h
    | ok k =>
      refine ⟨k, rfl, ?_, ?_⟩
      · intro r j hj
        simp only [blockStep, he, hk]
        have : ¬ (b * c.blocksize ≤ j ∧ j < min (b * c.blocksize + c.blocksize) c.cols) := by omega
        rw [if_pos hj, if_neg this]
        exact ⟨rfl, rfl⟩
      · intro r j h1 h2
        simp only [blockStep, he, hk]
        rw [if_neg (by omega), if_pos h2, if_pos ⟨h1, h2⟩]
        exact ⟨rfl, rfl⟩

/-- What the blocks leave: every block's columns keep the values and the selection that the
block computed for them. -/
theorem blocks_spec (c : Cfg) (w : Mat) : ∀ (k : Nat), (blocks c w k).err = none →
    ∀ b < k, ∃ (w0 : Mat) (blk : Blk),
      cols c (b * c.blocksize) (min (b * c.blocksize + c.blocksize) c.cols - b * c.blocksize) w0
        (min (b * c.blocksize + c.blocksize) c.cols - b * c.blocksize) = .ok blk ∧
      ∀ r j, b * c.blocksize ≤ j → j < min (b * c.blocksize + c.blocksize) c.cols →
        (blocks c w k).w r j = blk.q1 r (j - b * c.blocksize) ∧ (blocks c w k).mask r j = blk.mask r (j - b * c.blocksize)
  | 0, _, b, hb => absurd hb (by omega)
  | k + 1, h, b, hb => by
    rw [blocks] at h ⊢
    obtain ⟨h0, blk, hc, hbefore, hin⟩ := blockStep_ok h
    rcases Nat.lt_succ_iff_lt_or_eq.1 hb with hlt | rfl
    · obtain ⟨w0, blk', hc', hq⟩ := blocks_spec c w k h0 b hlt
      refine ⟨w0, blk', hc', ?_⟩
      intro r j h1 h2
      have hlt2 : j < k * c.blocksize := by
        have : (b + 1) * c.blocksize ≤ k * c.blocksize := Nat.mul_le_mul_right _ hlt
        have e : (b + 1) * c.blocksize = b * c.blocksize + c.blocksize := by ring
        omega
      rw [(hbefore r j hlt2).1, (hbefore r j hlt2).2]
      exact hq r j h1 h2
    · exact ⟨_, blk, hc, hin⟩

theorem prune_ok {c : Cfg} {w : Mat} (h : (prune c w).err = none) :
    c.blocksize ≠ 0 ∧ prune c w = blocks c w ((c.cols + c.blocksize - 1) / c.blocksize) := by
  by_cases hb : c.blocksize = 0
  · rw [prune, if_pos hb] at h
    cases h
  · refine ⟨hb, ?_⟩
    rw [prune, if_neg hb] at h ⊢
    dsimp only at h ⊢
    cases he : (blocks c w ((c.cols + c.blocksize - 1) / c.blocksize)).err with
    | some e => rfl
    | none =>
      simp only [he] at h ⊢
      by_cases h24 : c.n = 2 ∧ c.m = 4
      · rw [if_pos h24] at h ⊢
        cases h2 : sparse24 c (blocks c w ((c.cols + c.blocksize - 1) / c.blocksize)).w with
        | error e => rw [h2] at h; simp at h
        | ok v =>
          cases v with
          | false => rw [h2] at h; simp at h
          | true => rfl
      · rw [if_neg h24]

theorem block_of_col (c : Cfg) (hb : c.blocksize ≠ 0) (j : Nat) (hj : j < c.cols) :
    j / c.blocksize < (c.cols + c.blocksize - 1) / c.blocksize ∧ j / c.blocksize * c.blocksize ≤ j ∧
      j < min (j / c.blocksize * c.blocksize + c.blocksize) c.cols := by
  have hpos : 0 < c.blocksize := Nat.pos_of_ne_zero hb
  have h1 := Nat.div_add_mod' j c.blocksize
  have h2 := Nat.mod_lt j hpos
  refine ⟨?_, by omega, by omega⟩
  rw [Nat.lt_iff_add_one_le, Nat.le_div_iff_mul_le hpos, Nat.add_mul]
  omega

theorem cols_group (c : Cfg) (i1 count : Nat) (w : Mat) (hn : c.n ≠ 0) (hm : c.m ≠ 0) (hnm : c.n ≤ c.m) (hd : c.m ∣ count) :
    ∀ k ≤ count, ∃ b, cols c i1 count w k = .ok b ∧
      (∀ r g, g * c.m < k → selected b.mask r (g * c.m) c.m = c.n) ∧
      (∀ r j, (∀ g, g * c.m < k → g * c.m + c.m ≤ j) → b.mask r j = false) := by
  have hmp : 0 < c.m := Nat.pos_of_ne_zero hm
  intro k
  induction k with
  | zero =>
    intro _
    refine ⟨⟨fun r j => w r (i1 + j), fun _ _ => false, fun _ _ => 0, fun _ _ => 0⟩, ?_, ?_, ?_⟩
    · rw [cols, startMask, if_neg hn]; rfl
    · intro r g hg; omega
    · intro r j _; rfl
  | succ k ih =>
    intro hk
    obtain ⟨b0, h0, hsel, hfree⟩ := ih (by omega)
    by_cases hg : k % c.m = 0
    · obtain ⟨g0, hg0⟩ : c.m ∣ k := Nat.dvd_of_mod_eq_zero hg
      have hk0 : k = g0 * c.m := by rw [hg0, Nat.mul_comm]
      have hwidth : min c.m (count - k) = c.m := by
        obtain ⟨q, rfl⟩ := hd
        have : g0 < q := by
          by_contra hcon
          have := Nat.mul_le_mul_left c.m (not_lt.1 hcon)
          omega
        have h2 : c.m * (g0 + 1) ≤ c.m * q := Nat.mul_le_mul_left _ this
        rw [Nat.mul_add] at h2
        omega
      have hgm : groupMask c i1 count k b0.w1 b0.mask = .ok fun r j => b0.mask r j ||
          (decide (k ≤ j) && (smallest c.n ((List.range c.m).map fun t => score c i1 b0.w1 r (k + t))).contains (j - k)) := by
        unfold groupMask
        rw [if_neg hn, if_neg hm, if_neg (by omega), hwidth, if_neg (by omega)]
      obtain ⟨b, hcb, hbm⟩ := cols_step h0 hgm
      refine ⟨b, hcb, ?_, ?_⟩ <;> rw [hbm]
      · intro r g hgk
        simp only [selected]
        by_cases hgg : g = g0
        · subst hgg
          have hf : ∀ t, b0.mask r (g * c.m + t) = false := by
            intro t
            apply hfree
            intro g' hg'
            have hlt : g' < g := by
              by_contra hcon
              have := Nat.mul_le_mul_right c.m (not_lt.1 hcon)
              omega
            have := Nat.mul_le_mul_right c.m hlt
            rw [Nat.succ_mul] at this
            omega
          have : (List.range c.m).countP (fun t => b0.mask r (g * c.m + t) ||
              (decide (k ≤ g * c.m + t) && (smallest c.n ((List.range c.m).map fun t => score c i1 b0.w1 r (k + t))).contains (g * c.m + t - k))) =
              (List.range c.m).countP (fun t => (smallest c.n ((List.range c.m).map fun t => score c i1 b0.w1 r (k + t))).contains t) := by
            apply List.countP_congr
            intro t _
            have e1 : k ≤ g * c.m + t := by omega
            have e2 : g * c.m + t - k = t := by omega
            simp [hf t, e1, e2]
          rw [this, countP_contains _ (smallest_nodup _ _) c.m]
          · exact smallest_length _ _ (by simpa using hnm)
          · intro j hj
            have := smallest_lt _ _ j hj
            simpa using this
        · have hlt : g < g0 := by
            rcases Nat.lt_or_ge g g0 with h | h
            · exact h
            · have h2 : g0 + 1 ≤ g := by omega
              have := Nat.mul_le_mul_right c.m h2
              rw [Nat.succ_mul] at this
              omega
          have hend : g * c.m + c.m ≤ k := by
            have := Nat.mul_le_mul_right c.m hlt
            rw [Nat.succ_mul] at this
            omega
          rw [← hsel r g (by omega)]
          apply List.countP_congr
          intro t ht
          rw [List.mem_range] at ht
          have : ¬ k ≤ g * c.m + t := by omega
          simp [this]
      · intro r j hj
        have h1 : b0.mask r j = false := hfree r j (fun g hgk => hj g (by omega))
        have h2 := hj g0 (by omega)
        have h3 : (smallest c.n ((List.range c.m).map fun t => score c i1 b0.w1 r (k + t))).contains (j - k) = false := by
          rw [Bool.eq_false_iff]
          intro hcon
          have := smallest_lt _ _ (j - k) (by simpa using hcon)
          simp at this
          omega
        simp only [h1, h3, Bool.and_false, Bool.or_false]
    · have hgm : groupMask c i1 count k b0.w1 b0.mask = .ok b0.mask := by
        unfold groupMask
        rw [if_neg hn, if_neg hm, if_pos hg]
      obtain ⟨b, hcb, hbm⟩ := cols_step h0 hgm
      refine ⟨b, hcb, ?_, ?_⟩ <;> rw [hbm]
      · intro r g hgk
        apply hsel
        rcases Nat.lt_or_ge (g * c.m) k with h | h
        · exact h
        · exfalso
          have : g * c.m = k := by omega
          exact hg (by rw [← this]; simp)
      · intro r j hj
        apply hfree
        intro g hgk
        exact hj g (by omega)

theorem blocks_ok (c : Cfg) (w : Mat) (hn : c.n ≠ 0) (hm : c.m ≠ 0) (hnm : c.n ≤ c.m) (hd : c.m ∣ c.cols) (hb : c.m ∣ c.blocksize) :
    ∀ k, k ≤ (c.cols + c.blocksize - 1) / c.blocksize → (blocks c w k).err = none
  | 0, _ => rfl
  | k + 1, hk => by
    have ih := blocks_ok c w hn hm hnm hd hb k (by omega)
    obtain ⟨p, hp⟩ := hb
    obtain ⟨q, hq⟩ := hd
    have hdiv : c.m ∣ min (k * c.blocksize + c.blocksize) c.cols - k * c.blocksize := by
      refine Nat.dvd_sub ?_ ⟨k * p, by rw [hp]; ring⟩
      rcases min_choice (k * c.blocksize + c.blocksize) c.cols with e | e <;> rw [e]
      · exact ⟨k * p + p, by rw [hp]; ring⟩
      · exact ⟨q, hq⟩
    obtain ⟨b, hb, _⟩ := cols_group c (k * c.blocksize) _ (blocks c w k).w hn hm hnm hdiv _ (le_refl _)
    rw [blocks]
    simp only [blockStep, ih, hb]

theorem blocks_selected (c : Cfg) (w : Mat) (hn : c.n ≠ 0) (hm : c.m ≠ 0) (hnm : c.n ≤ c.m) (hd : c.m ∣ c.cols) (hb : c.m ∣ c.blocksize)
    (hb0 : c.blocksize ≠ 0) (r g : Nat) (hg : g * c.m + c.m ≤ c.cols) :
    selected (blocks c w ((c.cols + c.blocksize - 1) / c.blocksize)).mask r (g * c.m) c.m = c.n ∧
    ∀ t < c.m, (blocks c w ((c.cols + c.blocksize - 1) / c.blocksize)).mask r (g * c.m + t) = true →
      (blocks c w ((c.cols + c.blocksize - 1) / c.blocksize)).w r (g * c.m + t) = 0 := by
  have hmp : 0 < c.m := Nat.pos_of_ne_zero hm
  have herr := blocks_ok c w hn hm hnm hd hb _ (le_refl _)
  obtain ⟨p, hp⟩ := hb
  obtain ⟨q, hq⟩ := hd
  obtain ⟨b1, b2, b3⟩ := block_of_col c hb0 (g * c.m) (by omega)
  obtain ⟨w0, blk, hc, hin⟩ := blocks_spec c w _ herr _ b1
  set B := g * c.m / c.blocksize with hB
  have hdiv : c.m ∣ min (B * c.blocksize + c.blocksize) c.cols := by
    rcases min_choice (B * c.blocksize + c.blocksize) c.cols with e | e <;> rw [e]
    · exact ⟨B * p + p, by rw [hp]; ring⟩
    · exact ⟨q, hq⟩
  obtain ⟨e, he⟩ := hdiv
  have hfit : g * c.m + c.m ≤ min (B * c.blocksize + c.blocksize) c.cols := by
    rw [he]
    have : g < e := by
      by_contra hcon
      have := Nat.mul_le_mul_left c.m (not_lt.1 hcon)
      rw [he, Nat.mul_comm g] at b3
      omega
    have := Nat.mul_le_mul_left c.m this
    rw [Nat.mul_succ] at this
    rw [Nat.mul_comm g]
    exact this
  have hcount : c.m ∣ min (B * c.blocksize + c.blocksize) c.cols - B * c.blocksize :=
    Nat.dvd_sub ⟨e, he⟩ ⟨B * p, by rw [hp]; ring⟩
  have hstart : g * c.m - B * c.blocksize = (g - B * p) * c.m := by
    rw [Nat.sub_mul]
    congr 1
    rw [hp]; ring
  obtain ⟨blk', hc', hsel, _⟩ := cols_group c (B * c.blocksize) _ w0 hn hm hnm hcount _ (le_refl _)
  rw [hc] at hc'
  obtain rfl := Except.ok.inj hc'
  refine ⟨?_, ?_⟩
  · rw [← hsel r (g - B * p) (by rw [← hstart]; omega)]
    apply List.countP_congr
    intro t ht
    rw [List.mem_range] at ht
    rw [(hin r (g * c.m + t) (by omega) (by omega)).2, ← hstart]
    have : g * c.m + t - B * c.blocksize = g * c.m - B * c.blocksize + t := by omega
    rw [this]
  · intro t ht hmt
    rw [(hin r (g * c.m + t) (by omega) (by omega)).2] at hmt
    rw [(hin r (g * c.m + t) (by omega) (by omega)).1]
    exact cols_zero c _ _ w0 _ blk hc r _ (by omega) hmt

theorem sparse24_true (c : Cfg) (w : Mat) (h4 : 4 ∣ c.cols)
    (h : ∀ r g, g * 4 + 4 ≤ c.cols → 2 ≤ (List.range 4).countP fun t => decide (w r (g * 4 + t) = 0)) :
    sparse24 c w = .ok true := by
  obtain ⟨q, hq⟩ := h4
  unfold sparse24
  have h0 : c.rows * c.cols % 4 = 0 := by
    rw [hq, show c.rows * (4 * q) = 4 * (c.rows * q) by ring]
    simp
  rw [if_neg (by omega)]
  congr 1
  rw [List.all_eq_true]
  intro g hg
  rw [List.mem_range, hq, show c.rows * (4 * q) = 4 * (c.rows * q) by ring, Nat.mul_div_cancel_left _ (by norm_num)] at hg
  have hq0 : 0 < q := Nat.pos_of_ne_zero (by rintro rfl; simp at hg)
  have hgq := Nat.div_add_mod g q
  have hlt := Nat.mod_lt g hq0
  have key : ∀ t < 4, (4 * g + t) / c.cols = g / q ∧ (4 * g + t) % c.cols = g % q * 4 + t := by
    intro t ht
    have e : 4 * g + t = (g % q * 4 + t) + c.cols * (g / q) := by
      rw [hq]
      nlinarith
    have hl : g % q * 4 + t < c.cols := by omega
    constructor
    · rw [e, Nat.add_mul_div_left _ _ (by omega), Nat.div_eq_of_lt hl, Nat.zero_add]
    · rw [e, Nat.add_mul_mod_self_left, Nat.mod_eq_of_lt hl]
  have := h (g / q) (g % q) (by omega)
  rw [decide_eq_true_iff]
  refine le_trans this (le_of_eq ?_)
  apply List.countP_congr
  intro t ht
  rw [List.mem_range] at ht
  rw [(key t ht).1, (key t ht).2]

theorem countP_scores (c : Cfg) (i1 count : Nat) (w1 : Mat) (t : ℚ) :
    blockSelected c (fun r j => decide (score c i1 w1 r j ≤ t)) count = (scores c i1 count w1).countP fun x => decide (x ≤ t) := by
  unfold blockSelected scores
  rw [List.countP_flatMap]
  congr 1
  apply List.map_congr_left
  intro r _
  simp only [Function.comp_apply, List.countP_map]
  rfl

theorem sorted_countP (S : List ℚ) (hs : S.Pairwise (fun a b => decide (a ≤ b) = true)) (k : Nat) (t : ℚ) (hk : S[k]? = some t) :
    k + 1 ≤ S.countP (fun x => decide (x ≤ t)) ∧ (S.Nodup → S.countP (fun x => decide (x ≤ t)) = k + 1) := by
  obtain ⟨hlt, hget⟩ := List.getElem?_eq_some_iff.1 hk
  have hsplit := List.take_append_drop (k + 1) S
  have hs' := hs
  rw [List.pairwise_iff_getElem] at hs'
  have hle : ∀ x ∈ S.take (k + 1), decide (x ≤ t) = true := by
    intro x hx
    obtain ⟨i, hi, rfl⟩ := List.getElem_of_mem hx
    rw [List.getElem_take]
    have hi' : i < k + 1 := by rw [List.length_take] at hi; omega
    rcases Nat.lt_or_ge i k with h | h
    · have := hs' i k (by omega) hlt h
      rwa [hget] at this
    · have : i = k := by omega
      subst this
      simp [hget]
  have h1 : (S.take (k + 1)).countP (fun x => decide (x ≤ t)) = k + 1 := by
    rw [List.countP_eq_length.2 hle, List.length_take]
    omega
  have hc : S.countP (fun x => decide (x ≤ t)) = (k + 1) + (S.drop (k + 1)).countP (fun x => decide (x ≤ t)) := by
    conv_lhs => rw [← hsplit, List.countP_append, h1]
  refine ⟨by omega, ?_⟩
  intro hnd
  have : (S.drop (k + 1)).countP (fun x => decide (x ≤ t)) = 0 := by
    rw [List.countP_eq_zero]
    intro x hx
    obtain ⟨i, hi, rfl⟩ := List.getElem_of_mem hx
    rw [List.getElem_drop]
    rw [List.length_drop] at hi
    have h2 := hs' k (k + 1 + i) hlt (by omega) (by omega)
    rw [hget] at h2
    simp at h2
    have hne : S[k + 1 + i] ≠ t := by
      intro heq
      have := (List.Nodup.getElem_inj_iff hnd).1 (heq.trans hget.symm)
      omega
    simp
    exact lt_of_le_of_ne h2 (Ne.symm hne)
  omega

theorem ratio_mask (c : Cfg) (i1 count : Nat) (w1 : Mat) (hn : c.n = 0) (hs : 0 ≤ c.sparsity) (hs1 : c.sparsity < 1)
    (hne : 0 < c.rows * count) :
    ∃ mask, startMask c i1 count w1 = .ok mask ∧
      pyInt ((c.rows * count : Nat) * c.sparsity) + 1 ≤ blockSelected c mask count ∧
      ((scores c i1 count w1).Nodup → (blockSelected c mask count : Int) = pyInt ((c.rows * count : Nat) * c.sparsity) + 1) := by
  have hlen : (scores c i1 count w1).length = c.rows * count := by
    simp [scores, List.length_flatMap]
  have hpos : (0 : ℚ) < ((c.rows * count : Nat) : ℚ) := by exact_mod_cast hne
  have hx0 : (0 : ℚ) ≤ ((c.rows * count : Nat) : ℚ) * c.sparsity := by positivity
  have hfl : pyInt (((c.rows * count : Nat) : ℚ) * c.sparsity) = ⌊((c.rows * count : Nat) : ℚ) * c.sparsity⌋ := by
    unfold pyInt
    rw [if_pos hx0]
  set K := pyInt (((c.rows * count : Nat) : ℚ) * c.sparsity) with hK
  have hK0 : 0 ≤ K := by rw [hfl]; exact Int.floor_nonneg.2 hx0
  have hK1 : K < (c.rows * count : Nat) := by
    rw [hfl, Int.floor_lt]
    push_cast
    push_cast at hpos
    nlinarith
  set S := sortBy (fun a b : ℚ => decide (a ≤ b)) (scores c i1 count w1) with hS
  have hSl : S.length = c.rows * count := by rw [hS, length_sortBy, hlen]
  have hlt : K.toNat < S.length := by omega
  have hth : threshold c i1 count w1 = .ok S[K.toNat] := by
    unfold threshold
    dsimp only
    rw [hlen, ← hK, ← hS, pyGet]
    simp only [if_pos hK0, List.getElem?_eq_getElem hlt]
  have hsorted := sortBy_sorted (le := fun a b : ℚ => decide (a ≤ b))
    (by intro a b c h1 h2; simp at *; exact le_trans h1 h2) (by intro a b; simp; exact le_total a b) (scores c i1 count w1)
  rw [← hS] at hsorted
  obtain ⟨k1, k2⟩ := sorted_countP S hsorted K.toNat _ (List.getElem?_eq_getElem hlt)
  have hperm : (scores c i1 count w1).countP (fun x => decide (x ≤ S[K.toNat])) = S.countP (fun x => decide (x ≤ S[K.toNat])) :=
    ((sortBy_perm _).countP_eq _).symm
  refine ⟨fun r j => decide (score c i1 w1 r j ≤ S[K.toNat]), ?_, ?_, ?_⟩
  · unfold startMask
    rw [if_pos hn, hth]
    rfl
  · rw [countP_scores, hperm]
    omega
  · intro hnd
    rw [countP_scores, hperm, k2 ((sortBy_perm _).nodup_iff.2 hnd)]
    omega

theorem cols_mask (c : Cfg) (i1 count : Nat) (w : Mat) (hn : c.n = 0) (mask : Mask) (h0 : startMask c i1 count (fun r j => w r (i1 + j)) = .ok mask) :
    ∀ k, ∃ b, cols c i1 count w k = .ok b ∧ b.mask = mask
  | 0 => ⟨⟨fun r j => w r (i1 + j), mask, fun _ _ => 0, fun _ _ => 0⟩, by rw [cols, h0]; rfl, rfl⟩
  | k + 1 => by
    obtain ⟨b, h1, h2⟩ := cols_mask c i1 count w hn mask h0 k
    obtain ⟨b', h3, h4⟩ := cols_step h1 (mask := b.mask) (by rw [groupMask, if_pos hn])
    exact ⟨b', h3, h4.trans h2⟩

theorem blocks_ratio_ok (c : Cfg) (w : Mat) (hn : c.n = 0) (hs : 0 ≤ c.sparsity) (hs1 : c.sparsity < 1) (hr : 0 < c.rows) (hb0 : 0 < c.blocksize) :
    ∀ k, k ≤ (c.cols + c.blocksize - 1) / c.blocksize → (blocks c w k).err = none
  | 0, _ => rfl
  | k + 1, hk => by
    have ih := blocks_ratio_ok c w hn hs hs1 hr hb0 k (by omega)
    have hlt : k * c.blocksize < c.cols := by
      rw [Nat.le_div_iff_mul_le hb0, Nat.succ_mul] at hk
      omega
    obtain ⟨mask, hm, _⟩ := ratio_mask c (k * c.blocksize) (min (k * c.blocksize + c.blocksize) c.cols - k * c.blocksize)
      (fun r j => (blocks c w k).w r (k * c.blocksize + j)) hn hs hs1 (Nat.mul_pos hr (by omega))
    obtain ⟨b, hb, _⟩ := cols_mask c _ _ (blocks c w k).w hn mask hm (min (k * c.blocksize + c.blocksize) c.cols - k * c.blocksize)
    rw [blocks]
    simp only [blockStep, ih, hb]

theorem cols_succ_all {c : Cfg} {i1 count : Nat} {w : Mat} {k : Nat} {b : Blk} (h : cols c i1 count w (k + 1) = .ok b) :
    ∃ b0, cols c i1 count w k = .ok b0 ∧ groupMask c i1 count k b0.w1 b0.mask = .ok b.mask ∧
      b.w1 = (fun r j => if k ≤ j then b0.w1 r j - (b0.w1 r k - (if b.mask r k then 0 else b0.w1 r k)) / c.hinv (i1 + k) (i1 + k) *
        c.hinv (i1 + k) (i1 + j) else b0.w1 r j) ∧
      b.q1 = (fun r j => if j = k then (if b.mask r k then 0 else b0.w1 r k) else b0.q1 r j) ∧
      b.err1 = (fun r j => if j = k then (b0.w1 r k - (if b.mask r k then 0 else b0.w1 r k)) / c.hinv (i1 + k) (i1 + k) else b0.err1 r j) := by
  rw [cols] at h
  cases h0 : cols c i1 count w k with
  | error e => rw [h0] at h; cases h
  | ok b0 =>
    rw [h0] at h
    simp only [bind, Except.bind, colStep] at h
    cases hm : groupMask c i1 count k b0.w1 b0.mask with
    | error e => rw [hm] at h; cases h
    | ok mask =>
      rw [hm] at h
      obtain rfl := Except.ok.inj h
      exact ⟨b0, rfl, hm, rfl, rfl, rfl⟩

theorem obs_succ (u w : Mat) (M : Mask) (k r j : Nat) :
    obs u w M (k + 1) r j = obs u w M k r j - (if M r k then obs u w M k r k / u k k else 0) * u k j := rfl

theorem cols_obs (c : Cfg) (i1 count : Nat) (w w0 : Mat) (M : Mask)
    (hw : ∀ r j, w r (i1 + j) = obs c.hinv w0 M i1 r (i1 + j)) :
    ∀ (k : Nat) (b : Blk), cols c i1 count w k = .ok b → (∀ r j, j < k → b.mask r j = M r (i1 + j)) →
      (∀ r j, k ≤ j → b.w1 r j = obs c.hinv w0 M (i1 + k) r (i1 + j)) ∧
      (∀ r j, j < k → b.q1 r j = if M r (i1 + j) then 0 else obs c.hinv w0 M (i1 + j) r (i1 + j)) ∧
      (∀ r j, j < k → b.err1 r j =
        if M r (i1 + j) then obs c.hinv w0 M (i1 + j) r (i1 + j) / c.hinv (i1 + j) (i1 + j) else 0)
  | 0, b, h, _ => by
    rw [cols] at h
    cases hs : startMask c i1 count fun r j => w r (i1 + j) with
    | error e => rw [hs] at h; cases h
    | ok m =>
      rw [hs] at h
      obtain rfl := Except.ok.inj h
      refine ⟨fun r j _ => hw r j, fun r j hj => absurd hj (by omega), fun r j hj => absurd hj (by omega)⟩
  | k + 1, b, h, hM => by
    obtain ⟨b0, h0, hg, hw1, hq, he⟩ := cols_succ_all h
    obtain ⟨i_w, i_q, i_e⟩ := cols_obs c i1 count w w0 M hw k b0 h0 (fun r j hj => by
      rw [← groupMask_keeps hg r j hj]; exact hM r j (by omega))
    have hk := fun r => hM r k (by omega)
    refine ⟨?_, ?_, ?_⟩
    · intro r j hj
      rw [hw1]
      dsimp only
      rw [if_pos (by omega), hk, i_w r j (by omega), i_w r k (le_refl _), ← Nat.add_assoc, obs_succ]
      cases M r (i1 + k) <;> simp
    · intro r j hj
      rw [hq]
      dsimp only
      by_cases hjk : j = k
      · subst hjk
        rw [if_pos rfl, hk, i_w r j (le_refl _)]
      · rw [if_neg hjk]
        exact i_q r j (by omega)
    · intro r j hj
      rw [he]
      dsimp only
      by_cases hjk : j = k
      · subst hjk
        rw [if_pos rfl, hk, i_w r j (le_refl _)]
        cases M r (i1 + j) <;> simp
      · rw [if_neg hjk]
        exact i_e r j (by omega)

theorem obs_add (u w : Mat) (M : Mask) (i : Nat) (r j : Nat) : ∀ k, obs u w M (i + k) r j =
    obs u w M i r j - ((List.range k).map fun t =>
      (if M r (i + t) then obs u w M (i + t) r (i + t) / u (i + t) (i + t) else 0) * u (i + t) j).sum
  | 0 => by simp
  | k + 1 => by
    rw [← Nat.add_assoc, obs_succ, obs_add u w M i r j k, List.range_succ, List.map_append, List.sum_append]
    simp only [List.map_cons, List.map_nil, List.sum_cons, List.sum_nil]
    ring

theorem obs_congr (u w : Mat) (M M' : Mask) : ∀ k, (∀ r j, j < k → M r j = M' r j) → obs u w M k = obs u w M' k
  | 0, _ => rfl
  | k + 1, h => by
    rw [obs, obs, obs_congr u w M M' k fun r j hj => h r j (by omega)]
    funext r j
    rw [h r k (by omega)]

theorem blockStep_rest {c : Cfg} {b : Nat} {s : St} {k : Blk} (hs : s.err = none)
    (hk : cols c (b * c.blocksize) (min (b * c.blocksize + c.blocksize) c.cols - b * c.blocksize) s.w
      (min (b * c.blocksize + c.blocksize) c.cols - b * c.blocksize) = .ok k) (r j : Nat) (h1 : b * c.blocksize ≤ j)
    (h2 : min (b * c.blocksize + c.blocksize) c.cols ≤ j) :
    (blockStep c b s).w r j = s.w r j - ((List.range (min (b * c.blocksize + c.blocksize) c.cols - b * c.blocksize)).map fun t =>
      k.err1 r t * c.hinv (b * c.blocksize + t) j).sum := by
  simp only [blockStep, hs, hk]
  rw [if_neg (by omega), if_neg (by omega)]

/-- The weights that the blocks find are those of the removal column by column. -/
theorem blocks_obs (c : Cfg) (w : Mat) (M : Mask) : ∀ (k : Nat), (blocks c w k).err = none → k * c.blocksize ≤ c.cols →
    (∀ r j, j < k * c.blocksize → (blocks c w k).mask r j = M r j) →
    ∀ r j, k * c.blocksize ≤ j → (blocks c w k).w r j = obs c.hinv (alive c w) M (k * c.blocksize) r j
  | 0, _, _, _, r, j, _ => by
    simp only [blocks, Nat.zero_mul, obs, alive]
  | k + 1, h, hk, hM, r, j, hj => by
    rw [blocks] at h
    obtain ⟨h0, blk, hc, hbefore, hin⟩ := blockStep_ok h
    have e : (k + 1) * c.blocksize = k * c.blocksize + c.blocksize := by ring
    have hmin : min (k * c.blocksize + c.blocksize) c.cols = k * c.blocksize + c.blocksize := by omega
    have hcount : min (k * c.blocksize + c.blocksize) c.cols - k * c.blocksize = c.blocksize := by omega
    have hMk : ∀ r j, j < k * c.blocksize → (blocks c w k).mask r j = M r j := by
      intro r j hj
      rw [← (hbefore r j hj).2]
      exact hM r j (by omega)
    have ih := blocks_obs c w M k h0 (by omega) hMk
    have hco := cols_obs c (k * c.blocksize) _ _ (alive c w) M (fun r j => ih r _ (by omega)) _ blk hc (by
      intro r t ht
      have h2 := (hin r (k * c.blocksize + t) (by omega) (by omega)).2
      rw [Nat.add_sub_cancel_left] at h2
      rw [← h2]
      exact hM r _ (by omega))
    rw [blocks, blockStep_rest h0 hc r j (by omega) (by omega), ih r j (by omega), e, obs_add, hcount]
    congr 2
    apply List.map_congr_left
    intro t ht
    rw [List.mem_range] at ht
    rw [hco.2.2 r t (by omega)]

/-- Every block starts from the weights of the removal column by column. -/
theorem blocks_start (c : Cfg) (w : Mat) : ∀ (k : Nat), (blocks c w k).err = none →
    ∀ b < k, b * c.blocksize < c.cols → ∃ (w0 : Mat) (blk : Blk),
      cols c (b * c.blocksize) (min (b * c.blocksize + c.blocksize) c.cols - b * c.blocksize) w0
        (min (b * c.blocksize + c.blocksize) c.cols - b * c.blocksize) = .ok blk ∧
      (∀ r j, w0 r (b * c.blocksize + j) = obs c.hinv (alive c w) (blocks c w k).mask (b * c.blocksize) r (b * c.blocksize + j)) ∧
      ∀ r j, b * c.blocksize ≤ j → j < min (b * c.blocksize + c.blocksize) c.cols →
        (blocks c w k).w r j = blk.q1 r (j - b * c.blocksize) ∧ (blocks c w k).mask r j = blk.mask r (j - b * c.blocksize)
  | 0, _, b, hb, _ => absurd hb (by omega)
  | k + 1, h, b, hb, hcol => by
    rw [blocks] at h ⊢
    obtain ⟨h0, blk, hc, hbefore, hin⟩ := blockStep_ok h
    rcases Nat.lt_succ_iff_lt_or_eq.1 hb with hlt | rfl
    · obtain ⟨w0, blk', hc', hw0, hq⟩ := blocks_start c w k h0 b hlt hcol
      have hlt2 : ∀ j, j < b * c.blocksize + c.blocksize → j < k * c.blocksize := by
        intro j hj
        have : (b + 1) * c.blocksize ≤ k * c.blocksize := Nat.mul_le_mul_right _ hlt
        have e : (b + 1) * c.blocksize = b * c.blocksize + c.blocksize := by ring
        omega
      refine ⟨w0, blk', hc', ?_, ?_⟩
      · intro r j
        rw [hw0 r j]
        exact congrFun (congrFun (obs_congr c.hinv (alive c w) _ _ (b * c.blocksize) fun r j hj =>
          ((hbefore r j (hlt2 j (by omega))).2).symm) r) _
      · intro r j h1 h2
        rw [(hbefore r j (hlt2 j (by omega))).1, (hbefore r j (hlt2 j (by omega))).2]
        exact hq r j h1 h2
    · exact ⟨_, blk, hc, fun r j => blocks_obs c w _ b h0 (by omega) (fun r j hj => ((hbefore r j hj).2).symm) r _ (by omega), hin⟩

theorem startMask_ratio {c : Cfg} {i1 count : Nat} {w1 : Mat} {mask : Mask} (hn : c.n = 0) (h : startMask c i1 count w1 = .ok mask)
    (r j r' j' : Nat) (h1 : mask r j = true) (h2 : mask r' j' = false) : score c i1 w1 r j ≤ score c i1 w1 r' j' := by
  unfold startMask at h
  rw [if_pos hn] at h
  cases ht : threshold c i1 count w1 with
  | error e => rw [ht] at h; cases h
  | ok t =>
    rw [ht] at h
    obtain rfl := Except.ok.inj h
    simp only [decide_eq_true_eq, decide_eq_false_iff_not, not_le] at h1 h2
    exact le_trans h1 h2.le

theorem cols_ratio_mask (c : Cfg) (i1 count : Nat) (w : Mat) (hn : c.n = 0) : ∀ (k : Nat) (b : Blk), cols c i1 count w k = .ok b →
    startMask c i1 count (fun r j => w r (i1 + j)) = .ok b.mask
  | 0, b, h => by
    rw [cols] at h
    cases hs : startMask c i1 count fun r j => w r (i1 + j) with
    | error e => rw [hs] at h; cases h
    | ok m =>
      rw [hs] at h
      obtain rfl := Except.ok.inj h
      rfl
  | k + 1, b, h => by
    obtain ⟨b0, h0, hg, _⟩ := cols_succ_all h
    unfold groupMask at hg
    rw [if_pos hn] at hg
    rw [← Except.ok.inj hg]
    exact cols_ratio_mask c i1 count w hn k b0 h0

theorem cols_group_saliency (c : Cfg) (i1 count : Nat) (w w0 : Mat) (M : Mask) (hn : c.n ≠ 0) (hm : c.m ≠ 0) (hnm : c.n ≤ c.m)
    (hd : c.m ∣ count) (hw : ∀ r j, w r (i1 + j) = obs c.hinv w0 M i1 r (i1 + j)) :
    ∀ (k : Nat) (b : Blk), k ≤ count → cols c i1 count w k = .ok b → (∀ r j, j < k → b.mask r j = M r (i1 + j)) →
      ∀ r g, g * c.m < k → ∀ t t', t < c.m → t' < c.m → b.mask r (g * c.m + t) = true → b.mask r (g * c.m + t') = false →
        saliency c.hinv (obs c.hinv w0 M (i1 + g * c.m)) r (i1 + (g * c.m + t)) ≤
          saliency c.hinv (obs c.hinv w0 M (i1 + g * c.m)) r (i1 + (g * c.m + t'))
  | 0, b, _, h, _, r, g, hg => absurd hg (by omega)
  | k + 1, b, hk, h, hM, r, g, hgk => by
    have hmp : 0 < c.m := Nat.pos_of_ne_zero hm
    obtain ⟨b0, h0, hgm, _⟩ := cols_succ_all h
    have hM0 : ∀ r j, j < k → b0.mask r j = M r (i1 + j) := fun r j hj => by
      rw [← groupMask_keeps hgm r j hj]; exact hM r j (by omega)
    have ih := cols_group_saliency c i1 count w w0 M hn hm hnm hd hw k b0 (by omega) h0 hM0
    by_cases hdk : k % c.m = 0
    · obtain ⟨g0, hg0⟩ : c.m ∣ k := Nat.dvd_of_mod_eq_zero hdk
      have hk0 : k = g0 * c.m := by rw [hg0, Nat.mul_comm]
      by_cases hgg : g = g0
      · subst hgg
        have hwidth : min c.m (count - k) = c.m := by
          obtain ⟨q, rfl⟩ := hd
          have : g < q := by
            by_contra hcon
            have := Nat.mul_le_mul_left c.m (not_lt.1 hcon)
            omega
          have h2 : c.m * (g + 1) ≤ c.m * q := Nat.mul_le_mul_left _ this
          rw [Nat.mul_add] at h2
          omega
        obtain ⟨b0', h0', _, hfree⟩ := cols_group c i1 count w hn hm hnm hd k (by omega)
        rw [h0] at h0'
        obtain rfl := Except.ok.inj h0'
        have hmask : b.mask = fun r j => b0.mask r j ||
            (decide (k ≤ j) && (smallest c.n ((List.range c.m).map fun t => score c i1 b0.w1 r (k + t))).contains (j - k)) := by
          unfold groupMask at hgm
          rw [if_neg hn, if_neg hm, if_neg (by omega), hwidth, if_neg (by omega)] at hgm
          exact (Except.ok.inj hgm).symm
        intro t t' ht ht' h1 h2
        have hf : ∀ t, b0.mask r (k + t) = false := by
          intro t
          apply hfree
          intro g' hg'
          rw [hk0] at hg' ⊢
          have : g' < g := lt_of_mul_lt_mul_right hg' (Nat.zero_le _)
          have := Nat.mul_le_mul_right c.m this
          rw [Nat.succ_mul] at this
          omega
        rw [hmask] at h1 h2
        dsimp only at h1 h2
        rw [← hk0, hf, Nat.add_sub_cancel_left] at h1 h2
        simp only [Bool.false_or, Nat.le_add_right, decide_true, Bool.true_and, List.contains_iff_mem] at h1
        have h2' : t' ∉ smallest c.n ((List.range c.m).map fun t => score c i1 b0.w1 r (k + t)) := by
          intro hcon
          simp [hcon] at h2
        have hle := smallest_le _ _ t t' (score c i1 b0.w1 r (k + t)) (score c i1 b0.w1 r (k + t')) h1 h2' (by simp [ht]) (by simp [ht'])
        have hw1 := (cols_obs c i1 count w w0 M hw k b0 h0 hM0).1
        simp only [score] at hle
        rw [hw1 r _ (by omega), hw1 r _ (by omega)] at hle
        rw [← hk0]
        exact hle
      · have hlt : g < g0 := by
          rw [hk0] at hgk
          have : g ≤ g0 := le_of_mul_le_mul_right (Nat.le_of_lt_succ hgk) hmp
          omega
        have hlt2 : g * c.m + c.m ≤ k := by
          have := Nat.mul_le_mul_right c.m hlt
          rw [Nat.succ_mul] at this
          omega
        intro t t' ht ht' h1 h2
        rw [groupMask_keeps hgm r _ (by omega)] at h1 h2
        exact ih r g (by omega) t t' ht ht' h1 h2
    · have hmask : b.mask = b0.mask := by
        unfold groupMask at hgm
        rw [if_neg hn, if_neg hm, if_pos hdk] at hgm
        exact (Except.ok.inj hgm).symm
      have hne : g * c.m ≠ k := by
        rintro rfl
        simp at hdk
      rw [hmask]
      exact ih r g (by omega)

end Verif.SparseGpt
