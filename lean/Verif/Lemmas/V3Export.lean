import Verif.Spec.V3Export
import Verif.Lemmas.Backbones
import Verif.Lemmas.SeqChannel
import Verif.Props.MakeDivisible

/-! Helper lemmas for `Verif/Props/V3Export.lean`. -/

namespace Verif.V3Export
open Verif SeqChannel Backbones

theorem active_eq {size choice : ℕ} (h : choice ≤ size) : active size choice = choice := by
  unfold active
  rw [popcount_prefixMask _ _ (by omega)]
  omega

theorem divise_ok (c : ℕ) : ∃ k : Int, Derived.divideAndDivise c 4 8 = .ok k ∧ 0 < k ∧
    MakeDivisible.makeDivisible (((c / 4 : ℕ) : Int) : ℚ) 8 none (9 / 10) = .ok k := by
  have h0 : pyFloorDiv (c : Int) 4 = .ok ((c / 4 : ℕ) : Int) := by
    unfold pyFloorDiv
    rw [if_neg (by decide)]
    rw [Int.fdiv_eq_ediv_of_nonneg _ (by decide)]
    rfl
  obtain ⟨k, h1, _, h3, _⟩ := MakeDivisible.C01_makeDivisible_spec (((c / 4 : ℕ) : Int) : ℚ) 8 (9 / 10) (by positivity) (by decide) (by norm_num)
  refine ⟨k, ?_, h3, h1⟩
  unfold Derived.divideAndDivise
  rw [h0]
  exact h1

theorem squeeze_mono {a b : ℕ} (h : a ≤ b) : squeeze a ≤ squeeze b := by
  obtain ⟨k, h1, h2, h3⟩ := divise_ok a
  obtain ⟨l, h4, h5, h6⟩ := divise_ok b
  have := MakeDivisible.C01_makeDivisible_mono _ _ 8 (9 / 10) (by positivity)
    (by exact_mod_cast Nat.div_le_div_right (c := 4) h) (by decide) (by norm_num) k l h3 h6
  unfold squeeze
  rw [h1, h4]
  dsimp only
  omega

theorem export_eq {mIn mOut mR cin cout k r : ℕ} (b : Block) (h1 : cin ≤ mIn) (h2 : cout ≤ mOut) (h3 : r ≤ mR)
    (hk : k % 2 = 1) : exportBlock mIn mOut mR b cin cout k r = .ok
      ⟨b.expand.map fun _ => (cin, cin * r), (cin * r, k, k / 2, b.depthwise.2.2.2),
       b.se.map fun _ => (cin * r, squeeze (cin * r)), (cin * r, cout), b.res,
       b.short.map fun q => (cin, cout, q.2.2)⟩ := by
  have hm : cin * r ≤ mIn * mR := Nat.mul_le_mul h1 h3
  unfold exportBlock Kernel.samePadding
  rw [if_pos hk]
  dsimp only
  rw [active_eq h1, active_eq h2, active_eq hm, active_eq (squeeze_mono hm)]

theorem block_same (att se : Bool) {mIn mOut mK mR s cin cout k r : ℕ} (hs : s = 1 ∨ s = 2) (h0 : 1 ≤ cin)
    (h1 : cin ≤ mIn) (h2 : cout ≤ mOut) (hr : 1 ≤ r) (h3 : r ≤ mR) (hk : k % 2 = 1) :
    ∃ b b', mkBlock att se mIn mOut mK s mR = .ok b ∧ exportBlock mIn mOut mR b cin cout k r = .ok b' ∧
      (mkBlock att se cin cout k s r = .ok b' ↔
        (r = 1 → mR = 1) ∧ (att = false → s = 1 → (mIn = mOut ↔ cin = cout))) := by
  refine ⟨_, _, by unfold mkBlock; rw [if_pos hs], export_eq _ h1 h2 h3 hk, ?_⟩
  unfold mkBlock
  rw [if_pos hs]
  dsimp only
  have e1 : (mIn * mR ≠ mIn) ↔ mR ≠ 1 := by
    rw [Ne, Nat.mul_eq_left (by omega)]
  have e2 : (cin * r ≠ cin) ↔ r ≠ 1 := by
    rw [Ne, Nat.mul_eq_left (by omega)]
  simp only [e1, e2]
  constructor
  · intro h
    injection h with h
    injection h with g1 _ g3 _ g5 _
    constructor
    · intro h'
      by_contra hc
      simp [h', hc] at g1
    · intro ha hs1
      simpa [ha, hs1, eq_comm] using g5
  · rintro ⟨g1, g2⟩
    congr 1
    congr 1
    · by_cases hr1 : r = 1
      · simp [hr1, g1 hr1]
      · have : mR ≠ 1 := by omega
        simp [hr1, this]
    · cases se <;> simp
    · cases att
      · by_cases hs1 : s = 1
        · simp [hs1, g2 rfl hs1]
        · simp [hs1]
      · simp
    · cases att <;> simp

theorem mkBlock_ok (att se : Bool) (cin cout k r : ℕ) {s : ℕ} (hs : s = 1 ∨ s = 2) :
    ∃ b, mkBlock att se cin cout k s r = .ok b := ⟨_, if_pos hs⟩

theorem mkBlocks_ok (att : Bool) {st : VStage} (hs : st.stride = 1 ∨ st.stride = 2) :
    ∀ (n i cin : ℕ), ∃ bs, mkBlocks att st n i cin = .ok bs
  | 0, _, _ => ⟨[], rfl⟩
  | n + 1, i, cin => by
    obtain ⟨b, hb⟩ := mkBlock_ok att st.se cin (top st.chans) (top st.kernels) (top st.ratios)
      (s := if 1 ≤ i then 1 else st.stride) (by split <;> simp [hs])
    obtain ⟨bs, hbs⟩ := mkBlocks_ok att hs n (i + 1) (top st.chans)
    exact ⟨b :: bs, by unfold mkBlocks; rw [hb]; dsimp only; rw [hbs]⟩

theorem top_one (a : ℕ) : top [a] = a := by simp [top]

theorem blocks_same (att : Bool) {st : VStage} {ch : VChoice} (hg : VGood st) (hc : VChosen st ch) (hu : Uniform ch) :
    ∀ (n N i mIn cin : ℕ), n ≤ N → 1 ≤ cin → cin ≤ mIn →
    ∃ bs es as, mkBlocks att st N i mIn = .ok bs ∧ exportBlocks st ch i mIn cin (bs.take n) = .ok es ∧
      mkBlocks att (alone st ch) n i cin = .ok as ∧
      (es = as ↔ (n ≠ 0 → (ch.r 0 = 1 → top st.ratios = 1) ∧
        (att = false → (if 1 ≤ i then 1 else st.stride) = 1 → (mIn = top st.chans ↔ cin = ch.c))))
  | 0, N, i, mIn, cin, _, _, _ => by
    obtain ⟨bs, hbs⟩ := mkBlocks_ok att hg.2.2.2.2 N i mIn
    exact ⟨bs, [], [], hbs, by simp [exportBlocks], rfl, by simp⟩
  | n + 1, 0, _, _, _, h, _, _ => by omega
  | n + 1, N + 1, i, mIn, cin, h, h0, h1 => by
    have hcc : 1 ≤ ch.c := hg.1 _ hc.1
    obtain ⟨bs, es, as, k1, k2, k3, k4⟩ := blocks_same att hg hc hu n N (i + 1) (top st.chans) ch.c
      (by omega) hcc (le_top hc.1)
    have hstr : (if 1 ≤ i then 1 else st.stride) = 1 ∨ (if 1 ≤ i then 1 else st.stride) = 2 := by
      split <;> simp [hg.2.2.2.2]
    obtain ⟨b, b', g1, g2, g3⟩ := block_same att st.se (mK := top st.kernels) hstr h0 h1 (le_top hc.1)
      (hg.2.2.2.1 _ (hc.2.2.2 0)) (le_top (hc.2.2.2 0)) (hg.2.2.1 _ (hc.2.2.1 0))
    obtain ⟨a, ha⟩ := mkBlock_ok att st.se cin ch.c (ch.k 0) (ch.r 0) hstr
    refine ⟨b :: bs, b' :: es, a :: as, ?_, ?_, ?_, ?_⟩
    · unfold mkBlocks
      rw [g1]; dsimp only; rw [k1]
    · rw [List.take_succ_cons]
      unfold exportBlocks
      rw [(hu i).1, (hu i).2, g2]; dsimp only; rw [k2]
    · unfold mkBlocks alone
      dsimp only
      rw [top_one, top_one, top_one, ha]; dsimp only
      have k3' := k3
      unfold alone at k3'
      rw [k3']
    · rw [ha] at g3
      have e : (b' :: es = a :: as) ↔ (Except.ok (ε := Err) a = Except.ok b') ∧ es = as := by
        simp [@eq_comm _ a b']
      rw [e, g3, k4]
      constructor
      · rintro ⟨q, _⟩ _
        exact q
      · intro q
        have q := q (by omega)
        exact ⟨q, fun _ => ⟨q.1, fun _ _ => by simp⟩⟩

/-- Choosing for all layers of a list. -/
theorem layers_same (att : Bool) : ∀ (l : List (VStage × VChoice)) (mIn cin : ℕ), 1 ≤ cin → cin ≤ mIn →
    (∀ p ∈ l, VGood p.1 ∧ VChosen p.1 p.2 ∧ Uniform p.2) →
    ∃ r e a, mkLayers att mIn (l.map Prod.fst) = .ok r ∧ exportLayers mIn cin l r.1 = .ok e ∧
      mkLayers att cin (l.map fun p => alone p.1 p.2) = .ok a ∧ r.2 = e.2.1 ∧ a.2 = e.2.2 ∧ e.2.2 ≤ e.2.1 ∧
      (e.1 = a.1 ↔ AllSame att mIn cin l)
  | [], mIn, cin, _, h, _ => ⟨([], mIn), ([], mIn, cin), ([], cin), rfl, rfl, rfl, rfl, rfl, h, by simp [AllSame]⟩
  | (st, ch) :: l, mIn, cin, h0, h1, hl => by
    obtain ⟨hg, hc, hu⟩ := hl _ List.mem_cons_self
    dsimp only at hg hc hu
    have hd : ch.d ≤ top st.depths := le_top hc.2.1
    have hd1 : 1 ≤ ch.d := hg.2.1 _ hc.2.1
    obtain ⟨bs, es, as, k1, k2, k3, k4⟩ := blocks_same att hg hc hu ch.d (top st.depths) 0 mIn cin hd h0 h1
    obtain ⟨r, e, a, g1, g2, g3, g4, g5, g6, g7⟩ := layers_same att l (top st.chans) ch.c (hg.1 _ hc.1) (le_top hc.1)
      (fun p hp => hl p (List.mem_cons_of_mem _ hp))
    refine ⟨(bs :: r.1, r.2), (es :: e.1, e.2), (as :: a.1, a.2), ?_, ?_, ?_, g4, g5, g6, ?_⟩
    · rw [List.map_cons]
      unfold mkLayers
      dsimp only
      rw [k1]; dsimp only; rw [if_neg (by omega), g1]
    · unfold exportLayers
      rw [k2]; dsimp only; rw [g2]
    · rw [List.map_cons]
      unfold mkLayers
      dsimp only
      have e1 : top (alone st ch).depths = ch.d := top_one _
      have e2 : top (alone st ch).chans = ch.c := top_one _
      rw [e1, e2, k3]; dsimp only; rw [if_neg (by omega), g3]
    · dsimp only
      rw [List.cons.injEq, k4, g7]
      simp only [AllSame, LayerSame]
      have : ch.d ≠ 0 := by omega
      simp [this]

theorem mkBlock_kernel {att se : Bool} {cin cout k s r : ℕ} {b : Block} (h : mkBlock att se cin cout k s r = .ok b) :
    b.depthwise.2.1 = k := by
  unfold mkBlock at h
  by_cases hs : s = 1 ∨ s = 2
  · rw [if_pos hs] at h
    injection h with h
    rw [← h]
  · rw [if_neg hs] at h
    cases h

theorem mkBlocks_kernel (att : Bool) (st : VStage) : ∀ (n i cin : ℕ) (bs : List Block), mkBlocks att st n i cin = .ok bs →
    ∀ b ∈ bs, b.depthwise.2.1 = top st.kernels
  | 0, _, _, bs, h, b, hb => by
    injection h with h
    subst h
    cases hb
  | n + 1, i, cin, bs, h, b, hb => by
    unfold mkBlocks at h
    generalize hq : mkBlock att st.se cin (top st.chans) (top st.kernels) (if 1 ≤ i then 1 else st.stride) (top st.ratios) = q at h
    cases q with
    | error e => cases h
    | ok b1 =>
      dsimp only at h
      generalize hq2 : mkBlocks att st n (i + 1) (top st.chans) = q2 at h
      cases q2 with
      | error e => cases h
      | ok b2 =>
        injection h with h
        subst h
        rcases List.mem_cons.1 hb with rfl | hb
        · exact mkBlock_kernel hq
        · exact mkBlocks_kernel att st n (i + 1) _ b2 hq2 b hb

theorem mkLayers_kernel (att : Bool) : ∀ (l : List VStage) (cin : ℕ) (r), mkLayers att cin l = .ok r →
    ∀ bs ∈ r.1, ∀ b ∈ bs, ∀ c ∈ bs, b.depthwise.2.1 = c.depthwise.2.1
  | [], _, r, h, bs, hb, _, _, _, _ => by
    injection h with h
    subst h
    cases hb
  | st :: l, cin, r, h, bs, hb, b, h1, c, h2 => by
    unfold mkLayers at h
    generalize hq : mkBlocks att st (top st.depths) 0 cin = q at h
    cases q with
    | error e => cases h
    | ok b1 =>
      dsimp only at h
      generalize hq2 : mkLayers att (if top st.depths = 0 then cin else top st.chans) l = q2 at h
      cases q2 with
      | error e => cases h
      | ok b2 =>
        injection h with h
        subst h
        rcases List.mem_cons.1 hb with rfl | hb
        · rw [mkBlocks_kernel _ _ _ _ _ _ hq b h1, mkBlocks_kernel _ _ _ _ _ _ hq c h2]
        · exact mkLayers_kernel att l _ b2 hq2 bs hb b h1 c h2

theorem exportBlocks_kernel (st : VStage) (ch : VChoice) : ∀ (bs : List Block) (i mIn cin : ℕ) (es : List Block),
    exportBlocks st ch i mIn cin bs = .ok es → es.length = bs.length ∧
      ∀ (j : ℕ) b, es[j]? = some b → b.depthwise.2.1 = ch.k (i + j)
  | [], _, _, _, es, h => by
    have h : Except.ok (ε := Err) [] = Except.ok es := h
    injection h with h
    subst h
    simp
  | b0 :: bs, i, mIn, cin, es, h => by
    unfold exportBlocks at h
    generalize hq : exportBlock mIn (top st.chans) (top st.ratios) b0 cin ch.c (ch.k i) (ch.r i) = q at h
    cases q with
    | error e => cases h
    | ok b1 =>
      dsimp only at h
      generalize hq2 : exportBlocks st ch (i + 1) (top st.chans) ch.c bs = q2 at h
      cases q2 with
      | error e => cases h
      | ok b2 =>
        injection h with h
        subst h
        obtain ⟨g1, g2⟩ := exportBlocks_kernel st ch bs (i + 1) _ _ b2 hq2
        refine ⟨by simp [g1], fun j b hb => ?_⟩
        cases j with
        | zero =>
          have hb : b1 = b := by simpa using hb
          subst hb
          unfold exportBlock at hq
          generalize hp : Kernel.samePadding (ch.k i) = p at hq
          cases p with
          | error e => cases hq
          | ok p =>
            injection hq with hq
            rw [← hq]
            rfl
        | succ j =>
          have hb : b2[j]? = some b := by simpa using hb
          rw [g2 j b hb]
          congr 1
          omega

theorem exportLayers_kernel : ∀ (l : List (VStage × VChoice)) (bss : List (List Block)) (mIn cin : ℕ) (r),
    exportLayers mIn cin l bss = .ok r → ∀ (j : ℕ) p bs, l[j]? = some p → bss[j]? = some bs →
      ∃ es, r.1[j]? = some es ∧ es.length = min p.2.d bs.length ∧ ∀ (i : ℕ) b, es[i]? = some b → b.depthwise.2.1 = p.2.k i
  | [], _, _, _, _, _, j, p, bs, h1, _ => by simp at h1
  | _ :: _, [], _, _, _, _, j, p, bs, _, h1 => by simp at h1
  | (st, ch) :: l, bs0 :: bss, mIn, cin, r, h, j, p, bs, h1, h2 => by
    unfold exportLayers at h
    generalize hq : exportBlocks st ch 0 mIn cin (bs0.take ch.d) = q at h
    cases q with
    | error e => cases h
    | ok b1 =>
      dsimp only at h
      generalize hq2 : exportLayers (top st.chans) ch.c l bss = q2 at h
      cases q2 with
      | error e => cases h
      | ok b2 =>
        injection h with h
        subst h
        cases j with
        | zero =>
          have h1 : (st, ch) = p := by simpa using h1
          have h2 : bs0 = bs := by simpa using h2
          subst h1 h2
          obtain ⟨g1, g2⟩ := exportBlocks_kernel st ch _ _ _ _ _ hq
          exact ⟨b1, rfl, by simpa using g1, fun i b hb => by simpa using g2 i b hb⟩
        | succ j =>
          exact exportLayers_kernel l bss _ _ b2 hq2 j p bs (by simpa using h1) (by simpa using h2)

end Verif.V3Export
