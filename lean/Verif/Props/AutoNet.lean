import Verif.Lemmas.AutoNet

namespace Verif.AutoNet
open Verif SeqChannel Derived

/-! ## Property C113 -/

/-- When the largest entries of all lists are listed last, the network can be built, every choice of the lists is accepted, and
after any number of them the forward pass uses, in every layer, exactly the first channels of the current width, 64 features for
each of the current heads of the layer and width times current ratio hidden features; exactly the first layers run, as many as the
current depth, and the output has the current width.  Missing: other orders, see the violations. -/
theorem C113_subnet_partial {s : Setting} {E H : ℕ} {R : ℚ} {D : ℕ} (hs : Listed s E H H R R D) (he : ∀ e ∈ s.embeds, e ≤ E)
    (fn : Bool) (l : List Pick) (hl : ∀ p ∈ l, Allowed s D p) :
    ∃ n n', build s fn = .ok n ∧ n.picks l = .ok n' ∧
      n'.forward = .ok (netShape E R fn (l.foldl Sub.pick ⟨E, fun _ => H, fun _ => R, D⟩)) := by
  obtain ⟨n, n', h1, h2, h3⟩ := history hs fn l hl
  refine ⟨n, n', h1, h2, ?_⟩
  rw [forward_ok hs h3 rfl]
  have key : ∀ (l : List Pick) (c : Sub), (∀ p ∈ l, Allowed s D p) → c.embed ≤ E → (l.foldl Sub.pick c).embed ≤ E := by
    intro l
    induction l with
    | nil => intro c _ hc; exact hc
    | cons p l ih =>
      intro c hp hc
      refine ih _ (fun q hq => hp q (by simp [hq])) ?_
      cases p with
      | embed e => exact he e (hp (.embed e) (by simp))
      | head i h => exact hc
      | ratio i r => exact hc
      | depth d => exact hc
  rw [Nat.min_eq_left (key l _ hl (Nat.le_refl E))]

example : Listed exSetting 8 2 2 (5 / 2) (5 / 2) 2 := exListed

example : (((build exSetting true).bind fun n => n.picks [.embed 5, .head 0 1, .ratio 1 1]).bind (·.forward)).toOption.map (·.sizes)
    = some (5, 5, [⟨5, ⟨1, 64, 5, 64, 5⟩, 5, (5, 12), (12, 5)⟩, ⟨5, ⟨2, 64, 5, 128, 5⟩, 5, (5, 5), (5, 5)⟩], some 5, 5) := by
  decide +kernel

/-- The parameters of a subnet whose layers have the same settings have exactly the sizes of the network that is built with these
settings alone. Missing: other orders of the lists, see the violations. -/
theorem C113_alone_partial {s : Setting} {E H : ℕ} {R : ℚ} {D : ℕ} (hs : Listed s E H H R R D) (he : ∀ e ∈ s.embeds, e ≤ E)
    (fn : Bool) {e h d : ℕ} {r : ℚ} (h1 : e ∈ s.embeds) (h2 : h ∈ s.heads) (h3 : r ∈ s.ratios) (h4 : d ∈ s.depths)
    (h5 : 1 ≤ (e : ℚ) * r) :
    ∃ n n' m a b, build s fn = .ok n ∧
      n.picks (.embed e :: .depth d :: ((List.range D).map (Pick.head · h) ++ (List.range D).map (Pick.ratio · r))) = .ok n' ∧
      build ⟨[e], [h], [r], [d]⟩ fn = .ok m ∧ n'.forward = .ok a ∧ m.forward = .ok b ∧ a.sizes = b.sizes := by
  have hl : Listed ⟨[e], [h], [r], [d]⟩ e h h r r d := by
    have hr := hs.ratioPos r h3
    refine ⟨rfl, rfl, by simp, rfl, by simp, rfl, by simp, ?_, by simpa using hs.headPos h h2, by simpa using hr, h5⟩
    rcases Nat.eq_zero_or_pos e with h0 | h0
    · subst h0; norm_num at h5
    · exact h0
  obtain ⟨m, m', g1, g2, g3⟩ := C113_subnet_partial hl (by simp) fn [] (by simp)
  obtain ⟨n, n', k1, k2, k3⟩ := C113_subnet_partial hs he fn
    (.embed e :: .depth d :: ((List.range D).map (Pick.head · h) ++ (List.range D).map (Pick.ratio · r))) (by
      intro p hp
      simp only [List.mem_cons, List.mem_append, List.mem_map, List.mem_range] at hp
      rcases hp with rfl | rfl | ⟨i, hi, rfl⟩ | ⟨i, hi, rfl⟩
      · exact h1
      · exact h4
      · exact ⟨hi, h2⟩
      · exact ⟨hi, h3⟩)
  have : m' = m := by injection g2 with g2; exact g2.symm
  subst this
  refine ⟨n, n', m', _, _, k1, k2, g1, k3, g3, ?_⟩
  have key1 : ∀ (l : List ℕ) (c : Sub), (l.map (Pick.head · h)).foldl Sub.pick c
      = { c with head := fun i => if i ∈ l then h else c.head i } := by
    intro l
    induction l with
    | nil => intro c; simp
    | cons a l ih =>
      intro c
      rw [List.map_cons, List.foldl_cons, ih]
      simp only [Sub.pick, Function.update_apply, List.mem_cons]
      congr 1
      funext i
      by_cases hi : i ∈ l <;> by_cases ha : i = a <;> simp [hi, ha]
  have key2 : ∀ (l : List ℕ) (c : Sub), (l.map (Pick.ratio · r)).foldl Sub.pick c
      = { c with ratio := fun i => if i ∈ l then r else c.ratio i } := by
    intro l
    induction l with
    | nil => intro c; simp
    | cons a l ih =>
      intro c
      rw [List.map_cons, List.foldl_cons, ih]
      simp only [Sub.pick, Function.update_apply, List.mem_cons]
      congr 1
      funext i
      by_cases hi : i ∈ l <;> by_cases ha : i = a <;> simp [hi, ha]
  rw [List.foldl_cons, List.foldl_cons, List.foldl_append, key1, key2]
  have hd := hs.depthMax d h4
  simp only [NetShape.sizes, netShape, Sub.pick, count_firsts, List.foldl_nil, List.map_map, Prod.mk.injEq, true_and, and_true]
  refine ⟨?_, ?_⟩
  · apply List.map_congr_left
    intro i hi
    rw [List.mem_range] at hi
    simp [LayerShape.sizes, layerShape, count_firsts, List.mem_range, show i < D by omega]
  · cases fn <;> simp [count_firsts]

/-- A choice that is not in the lists, or of a layer that is not there, is refused, with which error; every other one is
accepted. -/
theorem C113_refused {s : Setting} {E hl H : ℕ} {rl R : ℚ} {D : ℕ} (hs : Listed s E hl H rl R D) (fn : Bool) (l : List Pick)
    (hl' : ∀ p ∈ l, Allowed s D p) (p : Pick) : ∃ n n', build s fn = .ok n ∧ n.picks l = .ok n' ∧
      ((∃ n2, n'.pick p = .ok n2) ↔ Allowed s D p) ∧
      ∀ x, n'.pick p = .error x → match p with
        | .embed _ => x = .assertion
        | .head i _ => x = if i < D then .value else .index
        | .ratio i _ => x = if i < D then .value else .index
        | .depth _ => x = .value := by
  obtain ⟨n, n', h1, h2, h3⟩ := history hs fn l hl'
  refine ⟨n, n', h1, h2, ⟨?_, fun h => ⟨_, (pick_rel h3 p h).choose_spec.1⟩⟩, ?_⟩
  · rintro ⟨n2, h⟩
    cases p with
    | embed e =>
      unfold Net.pick at h
      dsimp only at h
      by_cases hc : e ∈ n'.setting.embeds
      · rw [h3.setting] at hc; exact hc
      · rw [if_neg hc] at h; cases h
    | head i x =>
      unfold Net.pick at h
      dsimp only at h
      by_cases hc : n'.count ≤ i
      · rw [if_pos hc] at h; cases h
      · rw [if_neg hc] at h
        by_cases hx : x ∈ n'.setting.heads
        · rw [h3.setting] at hx; rw [h3.count] at hc; exact ⟨by omega, hx⟩
        · rw [if_neg hx] at h; cases h
    | ratio i x =>
      unfold Net.pick at h
      dsimp only at h
      by_cases hc : n'.count ≤ i
      · rw [if_pos hc] at h; cases h
      · rw [if_neg hc] at h
        by_cases hx : x ∈ n'.setting.ratios
        · rw [h3.setting] at hx; rw [h3.count] at hc; exact ⟨by omega, hx⟩
        · rw [if_neg hx] at h; cases h
    | depth d =>
      unfold Net.pick at h
      dsimp only at h
      by_cases hc : d ∈ n'.setting.depths
      · rw [h3.setting] at hc; exact hc
      · rw [if_neg hc] at h; cases h
  · intro x h
    have hc := h3.count
    cases p with
    | embed e =>
      unfold Net.pick at h
      dsimp only at h ⊢
      split at h
      · cases h
      · exact (Except.error.inj h).symm
    | head i y =>
      unfold Net.pick at h
      dsimp only at h ⊢
      split at h
      · rw [if_neg (by omega)]; exact (Except.error.inj h).symm
      · rw [if_pos (by omega)]
        split at h
        · cases h
        · exact (Except.error.inj h).symm
    | ratio i y =>
      unfold Net.pick at h
      dsimp only at h ⊢
      split at h
      · rw [if_neg (by omega)]; exact (Except.error.inj h).symm
      · rw [if_pos (by omega)]
        split at h
        · cases h
        · exact (Except.error.inj h).symm
    | depth d =>
      unfold Net.pick at h
      dsimp only at h ⊢
      split at h
      · cases h
      · exact (Except.error.inj h).symm

example : ((build exSetting true).bind fun n => (n.pick (.embed 6))).toOption.isNone = true ∧
    ((build exSetting true).bind fun n => (n.pick (.head 2 1))).toOption.isNone = true := by decide +kernel

/-- DISAGREEMENT: the widths may be listed in any order, but the network is as wide as the last of them.  A larger width can still be
chosen, without any error, and gives the network of the last width. -/
theorem C113_widths_violated {s : Setting} {E H : ℕ} {R : ℚ} {D : ℕ} (hs : Listed s E H H R R D) (fn : Bool) {e : ℕ} (h1 : e ∈ s.embeds)
    (h2 : E < e) : ∃ n n', build s fn = .ok n ∧ n.pick (.embed e) = .ok n' ∧ n'.forward = n.forward ∧
      ∃ a, n'.forward = .ok a ∧ a.output = E := by
  obtain ⟨n, g1, g2⟩ := build_rel hs fn
  obtain ⟨n', k1, k2⟩ := pick_rel g2 (.embed e) h1
  refine ⟨n, n', g1, k1, ?_, _, forward_ok hs k2 rfl, ?_⟩
  · rw [forward_ok hs k2 rfl, forward_ok hs g2 rfl]
    simp [Sub.pick, Nat.min_eq_right h2.le]
  · simp [netShape, Sub.pick, Nat.min_eq_right h2.le]

example : Listed exWidths 5 2 2 (5 / 2) (5 / 2) 2 ∧ 8 ∈ exWidths.embeds ∧ 5 < 8 := ⟨exListed_widths, by decide, by decide⟩

/-- DISAGREEMENT: the numbers of heads may be listed in any order, but when the last is not the largest the network is built and no
forward pass of at least one layer succeeds, whatever is chosen. -/
theorem C113_heads_violated {s : Setting} {E hl H : ℕ} {rl R : ℚ} {D : ℕ} (hs : Listed s E hl H rl R D) (hlt : hl < H)
    (hb : ∀ x ∈ s.heads, x ≤ 64) (hd : ∀ d ∈ s.depths, 0 < d) (fn : Bool) (l : List Pick) (hl' : ∀ p ∈ l, Allowed s D p) :
    ∃ n n', build s fn = .ok n ∧ n.picks l = .ok n' ∧ n'.forward = .error .runtime := by
  obtain ⟨n, n', h1, h2, h3⟩ := history hs fn l hl'
  exact ⟨n, n', h1, h2, forward_fails hs h3 (hd _ h3.hd) (layer_heads hs h3 hlt hb 0)⟩

example : Listed exHeads 8 1 2 (5 / 2) (5 / 2) 2 ∧ 1 < 2 ∧ (∀ x ∈ exHeads.heads, x ≤ 64) ∧ ∀ d ∈ exHeads.depths, 0 < d :=
  ⟨exListed_heads, by decide, by decide, by decide⟩

/-- DISAGREEMENT: so it is with the ratios, when the last gives fewer hidden features than the largest. -/
theorem C113_ratios_violated {s : Setting} {E H : ℕ} {rl R : ℚ} {D : ℕ} (hs : Listed s E H H rl R D)
    (hlt : ⌊(E : ℚ) * rl⌋₊ < ⌊(E : ℚ) * R⌋₊) (hd : ∀ d ∈ s.depths, 0 < d) (fn : Bool) (l : List Pick) (hl' : ∀ p ∈ l, Allowed s D p) :
    ∃ n n', build s fn = .ok n ∧ n.picks l = .ok n' ∧ n'.forward = .error .index := by
  obtain ⟨n, n', h1, h2, h3⟩ := history hs fn l hl'
  exact ⟨n, n', h1, h2, forward_fails hs h3 (hd _ h3.hd) (layer_ratios hs h3 hlt 0)⟩

example : Listed exRatios 8 2 2 1 (5 / 2) 2 := exListed_ratios

example : ⌊((8 : ℕ) : ℚ) * 1⌋₊ < ⌊((8 : ℕ) : ℚ) * (5 / 2)⌋₊ := by decide +kernel

/-- A ratio that gives a layer a negative width is refused while the network is built. -/
theorem C113_negative {s : Setting} {d dm e h hm : ℕ} {r rm : ℚ} (h1 : s.depths.getLast? = some d) (h2 : maxOf s.depths = some dm)
    (h3 : s.embeds.getLast? = some e) (h4 : s.heads.getLast? = some h) (h5 : maxOf s.heads = some hm)
    (h6 : s.ratios.getLast? = some r) (h7 : maxOf s.ratios = some rm) (hd : 0 < d) (hdm : 0 < dm) (hr : e * rm ≤ -1) (fn : Bool) :
    build s fn = .error .runtime := by
  have hm0 : pyInt (e * rm) < 0 := by
    rw [pyInt, if_neg (by linarith)]
    have : ⌈(e * rm : ℚ)⌉ ≤ -1 := Int.ceil_le.2 (by simpa using hr)
    omega
  have hl : mkLayer (store e h hm r rm) e hm rm 0 = .error .runtime := by
    unfold mkLayer
    simp only [if_pos hm0]
  have hls : mkLayers (store e h hm r rm) e hm rm d dm = .error .runtime := by
    unfold mkLayers
    obtain ⟨k, rfl⟩ := Nat.exists_eq_succ_of_ne_zero (Nat.pos_iff_ne_zero.1 hdm)
    rw [List.range_succ_eq_map, List.mapM_cons, if_pos hd, hl]
    rfl
  unfold build
  rw [h1, h2, h3, h4, h5, h6, h7]
  simp only [hls]
  rfl

example : build ⟨[4], [2], [-1], [1]⟩ true = .error .runtime :=
  C113_negative (d := 1) (dm := 1) (e := 4) (h := 2) (hm := 2) (r := -1) (rm := -1) rfl (by decide +kernel) rfl rfl (by decide +kernel)
    rfl (by decide +kernel) (by decide) (by decide) (by norm_num) true

end Verif.AutoNet
