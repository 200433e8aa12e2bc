import Verif.Spec.Backbones
import Verif.Lemmas.SearchOps

/-! Helper lemmas for `Verif/Props/Backbones.lean`. -/

namespace Verif.Backbones
open Verif SearchOps

/-- The functions map the shape through the list of shapes. -/
def Steps : Shape → List (Shape → Except Err Shape) → List Shape → Prop
  | _, [], [] => True
  | x, f :: fs, y :: ys => f x = .ok y ∧ Steps y fs ys
  | _, _, _ => False

/-- channels before the last layer -/
def lastIn (cin : ℕ) (l : List ℕ) : ℕ := (l.getLast?).getD cin

theorem runAll_steps {outIdx : List ℤ} : ∀ {fs : List (Shape → Except Err Shape)}
    {ys : List Shape} {x : Shape} {n : ℕ}, Steps x fs ys →
    runAll outIdx (n : ℤ) fs x
      = .ok (((ys.zipIdx n).filter (fun p => decide ((p.2 : ℤ) ∈ outIdx))).map Prod.fst)
  | [], [], _, _, _ => rfl
  | [], _ :: _, _, _, h => by cases h
  | _ :: _, [], _, _, h => by cases h
  | f :: fs, y :: ys, x, n, h => by
    have ih := runAll_steps (outIdx := outIdx) (n := n + 1) h.2
    show (do
      let y ← f x
      let rest ← runAll outIdx ((n : ℤ) + 1) fs y
      Except.ok (if (n : ℤ) ∈ outIdx then y :: rest else rest)) = _
    rw [h.1]
    dsimp only [bind, Except.bind]
    rw [show ((n : ℤ) + 1) = ((n + 1 : ℕ) : ℤ) by push_cast; rfl, ih, List.zipIdx_cons]
    dsimp only
    by_cases hm : (n : ℤ) ∈ outIdx
    · rw [if_pos hm, List.filter_cons_of_pos (by simpa using hm)]; rfl
    · rw [if_neg hm, List.filter_cons_of_neg (by simpa using hm)]

theorem steps_append : ∀ {fs gs : List (Shape → Except Err Shape)} {ys zs : List Shape}
    {x : Shape}, Steps x fs ys → Steps ((ys.getLast?).getD x) gs zs →
    Steps x (fs ++ gs) (ys ++ zs)
  | [], _, [], _, _, _, h => h
  | [], _, _ :: _, _, _, h, _ => by cases h
  | _ :: _, _, [], _, _, h, _ => by cases h
  | f :: fs, gs, y :: ys, zs, x, h, h2 => by
    refine ⟨h.1, steps_append h.2 ?_⟩
    cases ys with
    | nil => exact h2
    | cons z l =>
      rw [List.getLast?_cons_cons, List.getLast?_cons, Option.getD_some] at h2
      rwa [List.getLast?_cons, Option.getD_some]

theorem up_up {n a b : ℕ} (ha : 1 ≤ a) (hb : 1 ≤ b) : up (up n a) b = up n (a * b) := by
  unfold up
  have h1 : (n + a - 1) / a + b - 1 = (n + a - 1) / a + (b - 1) := by
    generalize (n + a - 1) / a = q; omega
  have h2 : n + a * b - 1 = (n + a - 1) + a * (b - 1) := by
    obtain ⟨c, rfl⟩ : ∃ c, b = c + 1 := ⟨b - 1, by omega⟩
    rw [Nat.mul_add, Nat.mul_one, Nat.add_sub_cancel]; omega
  rw [h1, h2, ← Nat.div_div_eq_div_mul, Nat.add_mul_div_left _ _ ha]

theorem prod_one_le : ∀ {l : List ℕ}, (∀ a ∈ l, 1 ≤ a) → 1 ≤ l.prod
  | [], _ => le_rfl
  | a :: l, h => by
    rw [List.prod_cons]
    exact Nat.mul_pos (h a (List.Mem.head _))
      (prod_one_le (fun x hx => h x (List.Mem.tail _ hx)))

theorem mapM_exists {α β : Type} {f : α → Except Err β} : ∀ {l : List α},
    (∀ a ∈ l, ∃ b, f a = .ok b) → ∃ bs, l.mapM f = .ok bs
  | [], _ => ⟨[], rfl⟩
  | a :: l, h => by
    obtain ⟨b, hb⟩ := h a (List.Mem.head _)
    obtain ⟨bs, hbs⟩ := mapM_exists (l := l) (fun x hx => h x (List.Mem.tail _ hx))
    exact ⟨b :: bs, by rw [List.mapM_cons, hb, hbs]; rfl⟩

theorem blks_later (out : ℕ) : ∀ n i stride, 1 ≤ i →
    blksFrom out n i out stride = (List.replicate n ⟨out, out, 1⟩, out)
  | 0, _, _, _ => rfl
  | n + 1, i, stride, hi => by
    unfold blksFrom
    dsimp only
    rw [if_pos hi, blks_later out n (i + 1) 1 (by omega)]; rfl

theorem blks_eq (out n cin stride : ℕ) :
    blksFrom out (n + 1) 0 cin stride
      = (⟨cin, out, stride⟩ :: List.replicate n ⟨out, out, 1⟩, out) := by
  unfold blksFrom
  dsimp only
  rw [if_neg (by omega), blks_later out n 1 stride le_rfl]

theorem makeLayer_ok {st : Stage} (h : GoodStage st) (cin : ℕ) :
    makeLayer cin st
      = .ok (⟨cin, st.width, st.stride⟩ :: List.replicate (st.blocks - 1)
          ⟨st.width, st.width, 1⟩, st.width) := by
  obtain ⟨hb, hs, hf⟩ := h
  obtain ⟨n, hn⟩ : ∃ n, st.blocks = n + 1 := ⟨st.blocks - 1, by omega⟩
  unfold makeLayer
  dsimp only
  rw [hn, blks_eq]
  dsimp only
  obtain ⟨bs, hbs⟩ : ∃ bs, List.mapM (fun b : Blk => st.cands.mapM (Op.make b.cin b.cout b.s))
      (⟨cin, st.width, st.stride⟩ :: List.replicate n ⟨st.width, st.width, 1⟩) = .ok bs := by
    refine mapM_exists (fun b hb => mapM_exists (fun op hop => ⟨(), ?_⟩))
    rcases List.mem_cons.1 hb with rfl | hb
    · exact (hf op hop ⟨cin, 1, 1⟩ le_rfl le_rfl).1.1
    · rw [List.eq_of_mem_replicate hb]
      exact ((hf op hop ⟨st.width, 1, 1⟩ le_rfl le_rfl).2 rfl).1
  rw [hbs]; rfl

theorem runLayer_later {st : Stage} (h : GoodStage st) : ∀ {n : ℕ} {ops : List Op} {x : Shape},
    (∀ op ∈ ops, op ∈ st.cands) → x.c = st.width → 1 ≤ x.h → 1 ≤ x.w →
    runLayer ((List.replicate n (⟨st.width, st.width, 1⟩ : Blk)).zip ops) x = .ok x
  | 0, _, _, _, _, _, _ => rfl
  | _ + 1, [], _, _, _, _, _ => rfl
  | n + 1, op :: ops, x, hops, hc, hh, hw => by
    show (do
      let y ← op.run st.width st.width 1 x
      runLayer ((List.replicate n (⟨st.width, st.width, 1⟩ : Blk)).zip ops) y) = _
    rw [((h.2.2 op (hops op (List.Mem.head _)) x hh hw).2 hc).2, expected_one hc]
    exact runLayer_later h (fun o ho => hops o (List.Mem.tail _ ho)) hc hh hw

theorem runLayer_ok {st : Stage} (h : GoodStage st) {ops : List Op} (hops : Chosen st ops)
    {x : Shape} (hh : 1 ≤ x.h) (hw : 1 ≤ x.w) :
    runLayer ((⟨x.c, st.width, st.stride⟩ :: List.replicate (st.blocks - 1)
      ⟨st.width, st.width, 1⟩ : List Blk).zip ops) x = .ok (expected st.width st.stride x) := by
  obtain ⟨hl, hm⟩ := hops
  cases ops with
  | nil => have := h.1; simp at hl; omega
  | cons op ops =>
    show (do
      let y ← op.run x.c st.width st.stride x
      runLayer ((List.replicate (st.blocks - 1) (⟨st.width, st.width, 1⟩ : Blk)).zip ops) y) = _
    rw [(h.2.2 op (hm op (List.Mem.head _)) x hh hw).1.2]
    exact runLayer_later h (fun o ho => hm o (List.Mem.tail _ ho)) rfl (up_pos hh h.2.1)
      (up_pos hw h.2.1)

theorem layers_ok {h w : ℕ} (hh : 1 ≤ h) (hw : 1 ≤ w) : ∀ {stages : List Stage}
    {choice : List (List Op)} {cin t : ℕ}, (∀ st ∈ stages, GoodStage st) →
    List.Forall₂ Chosen stages choice → 1 ≤ t →
    ∃ ls, makeLayers cin stages = .ok (ls, lastIn cin (stages.map Stage.width))
      ∧ Steps ⟨cin, up h t, up w t⟩
        (List.zipWith (fun bs ops => runLayer (bs.zip ops)) ls choice)
        (stageShapes h w t (stages.map (fun st => (st.width, st.stride))))
  | [], _, cin, t, _, hf, _ => by
    cases hf
    exact ⟨[], rfl, trivial⟩
  | st :: l, _, cin, t, hg, hf, ht => by
    cases hf with
    | cons h1 h2 =>
      rename_i ops choice
      have hst := hg st (List.Mem.head _)
      have hs1 := hst.2.1
      have hts : 1 ≤ t * st.stride := Nat.mul_pos ht hs1
      obtain ⟨ls, e1, e2⟩ := layers_ok hh hw (cin := st.width) (t := t * st.stride)
        (fun s hs => hg s (List.Mem.tail _ hs)) h2 hts
      refine ⟨(⟨cin, st.width, st.stride⟩ :: List.replicate (st.blocks - 1)
          ⟨st.width, st.width, 1⟩) :: ls, ?_, ?_, ?_⟩
      · unfold makeLayers
        rw [makeLayer_ok hst]
        dsimp only [bind, Except.bind]
        rw [e1]
        dsimp only
        refine congrArg (fun z => Except.ok (_, z)) ?_
        unfold lastIn
        rw [List.map_cons, List.getLast?_cons]; rfl
      · rw [← up_up ht hs1, ← up_up ht hs1]
        exact runLayer_ok hst h1 (x := ⟨cin, up h t, up w t⟩) (up_pos hh ht) (up_pos hw ht)
      · exact e2

theorem stageShapes_last {h w : ℕ} : ∀ {l : List (ℕ × ℕ)} {cin t : ℕ},
    ((stageShapes h w t l).getLast?).getD ⟨cin, up h t, up w t⟩
      = ⟨lastIn cin (l.map Prod.fst), up h (t * (l.map Prod.snd).prod),
          up w (t * (l.map Prod.snd).prod)⟩
  | [], cin, t => by
    show (⟨cin, up h t, up w t⟩ : Shape) = _
    rw [List.map_nil, List.map_nil, List.prod_nil, Nat.mul_one]; rfl
  | (c, s) :: l, cin, t => by
    have ih := stageShapes_last (h := h) (w := w) (l := l) (cin := c) (t := t * s)
    unfold stageShapes lastIn
    rw [List.getLast?_cons, Option.getD_some, List.map_cons, List.map_cons, List.getLast?_cons,
      Option.getD_some, List.prod_cons, ← Nat.mul_assoc]
    exact ih

theorem mobile_good {st : Stage} (h : MobileStage st) : GoodStage st := by
  obtain ⟨h1, h2, h3⟩ := h
  refine ⟨h1, by omega, fun op hop x hh hw => ?_⟩
  have key : ∀ cin cout s, (s = 1 ∨ s = 2) → x.c = cin → Fits op cin cout s x := by
    intro cin cout s hs hc
    have h := mobile_fits (cout := cout) hs hc hh hw
    rcases h3 op hop with rfl | ⟨k, e, se, rfl, hk⟩
    · exact h.2
    · exact h.1 k e se hk
  exact ⟨key _ _ _ h2 rfl, fun hc => key _ _ _ (Or.inl rfl) hc⟩

theorem shuffle_good {st : Stage} (h : ShuffleStage st) : GoodStage st := by
  obtain ⟨h1, h2, h4, h3⟩ := h
  refine ⟨h1, by omega, fun op hop x hh hw => ?_⟩
  have e : st.width / 2 * 2 = st.width := by omega
  have key : ∀ cin s, 1 ≤ s → x.c = cin → (s = 1 → cin = st.width) →
      Fits op cin st.width s x := by
    intro cin s hs hc hm
    have h := shuffle_fits (cout := st.width) (h3 op hop) hs hc hh hw
    rw [e] at h
    exact ⟨h.1.2 hm, h.2 hm⟩
  refine ⟨key _ _ (by omega) rfl (fun h => by omega), fun hc => key _ _ le_rfl hc (fun _ => rfl)⟩

theorem net_ok {indices : ℤ} {stem : ℕ} {stages : List Stage} {lastOut : Option ℕ}
    {outIdx : List ℤ} {frozen : ℤ} {choice : List (List Op)} {h w : ℕ}
    (hi : ∀ i ∈ outIdx, 0 ≤ i ∧ i < indices) (hz : -1 ≤ frozen ∧ frozen < indices)
    (hg : ∀ st ∈ stages, GoodStage st) (hf : List.Forall₂ Chosen stages choice)
    (hh : 1 ≤ h) (hw : 1 ≤ w) :
    ∃ n, makeNet indices stem stages lastOut outIdx frozen = .ok n
      ∧ runNet n choice ⟨3, h, w⟩ = .ok (selected outIdx
          (stageShapes h w 2 (stages.map (fun st => (st.width, st.stride)))
            ++ (match lastOut with
              | some c => [⟨c, up h (2 * (stages.map Stage.stride).prod),
                  up w (2 * (stages.map Stage.stride).prod)⟩]
              | none => []))) := by
  obtain ⟨ls, e1, e2⟩ := layers_ok hh hw (cin := stem) (t := 2) hg hf (by omega)
  refine ⟨⟨stem, ls, lastIn stem (stages.map Stage.width), lastOut, outIdx⟩, ?_, ?_⟩
  · unfold makeNet
    rw [if_neg, if_neg (by simpa using hz), e1]; · rfl
    intro hc
    obtain ⟨i, hi1, hi2⟩ := List.any_eq_true.1 hc
    have := hi i hi1
    simp [this] at hi2
  · unfold runNet
    dsimp only
    have e0 : conv 3 stem 3 2 1 1 ⟨3, h, w⟩ = .ok ⟨stem, up h 2, up w 2⟩ :=
      conv_same (k := 3) rfl (by omega) rfl hh hw
    rw [e0]
    refine runAll_steps (n := 0) (steps_append e2 ?_)
    rw [stageShapes_last]
    have m1 : (stages.map (fun st => (st.width, st.stride))).map Prod.fst
        = stages.map Stage.width := by rw [List.map_map]; rfl
    have m2 : (stages.map (fun st => (st.width, st.stride))).map Prod.snd
        = stages.map Stage.stride := by rw [List.map_map]; rfl
    rw [m1, m2]
    cases lastOut with
    | none => exact trivial
    | some c =>
      refine ⟨?_, trivial⟩
      have hp : 1 ≤ 2 * (stages.map Stage.stride).prod := by
        refine Nat.mul_pos (by omega) (prod_one_le ?_)
        intro a ha
        obtain ⟨st, hst, rfl⟩ := List.mem_map.1 ha
        exact (hg st hst).2.1
      exact conv_one rfl (up_pos hh hp) (up_pos hw hp)

theorem le_top : ∀ {l : List ℕ} {a : ℕ}, a ∈ l → a ≤ top l
  | b :: l, a, h => by
    show a ≤ max b (top l)
    rcases List.mem_cons.1 h with rfl | h
    · exact le_max_left _ _
    · exact le_trans (le_top h) (le_max_right _ _)

theorem expand_ok {mIn cin r : ℕ} {ratios : List ℕ} (hm : 1 ≤ mIn) (hr : r ∈ ratios)
    (hr1 : 1 ≤ r) (h : decide (mIn * top ratios ≠ mIn) = false) : cin * r = cin := by
  have h1 : mIn * top ratios = mIn := by simpa using h
  have h2 : top ratios = 1 := by
    have : mIn * top ratios = mIn * 1 := by rw [h1, Nat.mul_one]
    exact Nat.eq_of_mul_eq_mul_left hm this
  have h3 := le_top hr
  have h4 : r = 1 := by omega
  rw [h4, Nat.mul_one]

theorem runV_later {st : VStage} {ch : VChoice} (hg : VGood st) (hc : VChosen st ch) :
    ∀ {n i : ℕ} {x : Shape}, 1 ≤ i → x.c = ch.c → 1 ≤ x.h → 1 ≤ x.w →
      runV true st ch n i (top st.chans) ch.c x = .ok x
  | 0, _, _, _, _, _, _ => rfl
  | n + 1, i, x, hi, hx, hh, hw => by
    have e : mbRun (top st.chans * top st.ratios ≠ top st.chans)
        (1 = 1 ∧ top st.chans = top st.chans ∧ true = false) st.se true ch.c ch.c 1 (ch.k i)
        (ch.r i) x = .ok x := by
      have e2 := mbRun_ok (ex := decide (top st.chans * top st.ratios ≠ top st.chans))
        (res := decide (1 = 1 ∧ top st.chans = top st.chans ∧ true = false)) (se := st.se)
        (att := true) (cout := ch.c) (s := 1) (k := ch.k i) (e := ch.r i) (Or.inl rfl)
        (hg.2.2.1 _ (hc.2.2.1 i)) hx hh hw
        (expand_ok (le_trans (hg.1 _ hc.1) (le_top hc.1)) (hc.2.2.2 i)
          (hg.2.2.2.1 _ (hc.2.2.2 i)))
        (fun h => absurd (of_decide_eq_true h).2.2 (by decide))
        (fun _ _ h => absurd h (by decide))
      rwa [expected_one hx] at e2
    show (do
      let y ← mbRun (top st.chans * top st.ratios ≠ top st.chans)
        ((if 1 ≤ i then 1 else st.stride) = 1 ∧ top st.chans = top st.chans ∧ true = false)
        st.se true ch.c ch.c (if 1 ≤ i then 1 else st.stride) (ch.k i) (ch.r i) x
      runV true st ch n (i + 1) (top st.chans) ch.c y) = _
    have hif : (if 1 ≤ i then 1 else st.stride) = 1 := if_pos hi
    rw [hif, e]
    exact runV_later hg hc (by omega) hx hh hw

theorem layerV_ok {st : VStage} {ch : VChoice} (hg : VGood st) (hc : VChosen st ch)
    {mIn cin : ℕ} (hm : 1 ≤ mIn) {x : Shape} (hx : x.c = cin) (hh : 1 ≤ x.h) (hw : 1 ≤ x.w)
    (hp : x.h = x.w) :
    layerV true mIn cin st ch x = .ok (expected ch.c st.stride x) := by
  have hs1 : 1 ≤ st.stride := by have := hg.2.2.2.2; omega
  have hd1 := hg.2.1 _ hc.2.1
  have hd2 := le_top hc.2.1
  unfold layerV
  rw [Nat.min_eq_left hd2]
  obtain ⟨n, hn⟩ : ∃ n, ch.d = n + 1 := ⟨ch.d - 1, by omega⟩
  rw [hn]
  have e := mbRun_ok (ex := decide (mIn * top st.ratios ≠ mIn))
    (res := decide (st.stride = 1 ∧ mIn = top st.chans ∧ true = false)) (se := st.se)
    (att := true) (cout := ch.c) (s := st.stride) (k := ch.k 0) (e := ch.r 0) hg.2.2.2.2
    (hg.2.2.1 _ (hc.2.2.1 0)) hx hh hw
    (expand_ok hm (hc.2.2.2 0) (hg.2.2.2.1 _ (hc.2.2.2 0)))
    (fun h => absurd (of_decide_eq_true h).2.2 (by decide))
    (fun _ _ _ => by rw [hp])
  show (do
    let y ← mbRun (mIn * top st.ratios ≠ mIn)
      (st.stride = 1 ∧ mIn = top st.chans ∧ true = false) st.se true cin ch.c st.stride
      (ch.k 0) (ch.r 0) x
    runV true st ch n (0 + 1) (top st.chans) ch.c y) = _
  rw [e]
  exact runV_later hg hc (by omega) rfl (up_pos hh hs1) (up_pos hw hs1)

theorem layersV_ok {h : ℕ} (hh : 1 ≤ h) : ∀ {l : List (VStage × VChoice)} {mIn cin t : ℕ},
    (∀ p ∈ l, VGood p.1 ∧ VChosen p.1 p.2) → 1 ≤ mIn → 1 ≤ t →
    (layersV true mIn cin l).2 = lastIn cin (l.map (fun p => p.2.c))
    ∧ Steps ⟨cin, up h t, up h t⟩ (layersV true mIn cin l).1
        (stageShapes h h t (l.map (fun p => (p.2.c, p.1.stride))))
  | [], cin, _, _, _, _, _ => ⟨rfl, trivial⟩
  | (st, ch) :: l, mIn, cin, t, hg, hm, ht => by
    obtain ⟨h1, h2⟩ := hg (st, ch) (List.Mem.head _)
    have hs1 : 1 ≤ st.stride := by
      have hs : st.stride = 1 ∨ st.stride = 2 := h1.2.2.2.2
      omega
    have hc1 := h1.1 _ h2.1
    obtain ⟨e1, e2⟩ := layersV_ok hh (l := l) (mIn := top st.chans) (cin := ch.c)
      (t := t * st.stride) (fun p hp => hg p (List.Mem.tail _ hp))
      (le_trans hc1 (le_top h2.1)) (Nat.mul_pos ht hs1)
    refine ⟨?_, ?_, ?_⟩
    · show (layersV true (top st.chans) ch.c l).2 = _
      rw [e1]
      unfold lastIn
      rw [List.map_cons, List.getLast?_cons]; rfl
    · rw [← up_up ht hs1]
      exact layerV_ok h1 h2 hm (x := ⟨cin, up h t, up h t⟩) rfl (up_pos hh ht) (up_pos hh ht) rfl
    · exact e2

theorem mix_get {α : Type} (f : α → α) : ∀ {l : List α} (k : ℕ) {i : ℕ}, k ≤ l.length →
    ((l.take k).map f ++ l.drop k)[i]? = if i < k then (l[i]?).map f else l[i]? := by
  intro l k i hk
  by_cases h : i < k
  · rw [if_pos h, List.getElem?_append_left (by rw [List.length_map, List.length_take]; omega),
      List.getElem?_map, List.getElem?_take, if_pos h]
  · rw [if_neg h, List.getElem?_append_right (by rw [List.length_map, List.length_take]; omega),
      List.getElem?_drop, List.length_map, List.length_take, Nat.min_eq_left hk]
    congr 1
    omega

theorem train_eq {frozen : ℤ} {normEval mode : Bool} {p : Parts}
    (hz : frozen.toNat ≤ p.layers.length) :
    ∃ q, train frozen normEval mode p = .ok q
      ∧ q.layers = (((p.layers.map (Part.setMode mode)).take frozen.toNat).map Part.freeze
          ++ (p.layers.map (Part.setMode mode)).drop frozen.toNat).map
          (fun x => if mode && normEval then { x with bn := false } else x)
      ∧ q.last = ⟨mode, mode && !normEval, p.last.grad⟩
      ∧ q.stem.grad = (if 0 ≤ frozen then false else p.stem.grad)
      ∧ q.stem.train = mode ∧ q.stem.bn = (mode && !normEval) := by
  have e : ∀ p' : Parts, p'.layers.length = p.layers.length →
      freezeStages frozen p' = .ok ⟨if 0 ≤ frozen then { p'.stem with grad := false } else p'.stem,
        (p'.layers.take frozen.toNat).map Part.freeze ++ p'.layers.drop frozen.toNat,
        p'.last⟩ := by
    intro p' hp
    unfold freezeStages
    by_cases h : 0 ≤ frozen
    · rw [if_pos h, if_pos h, if_neg (by dsimp only; omega)]
    · rw [if_neg h, if_neg h, if_neg (by omega)]
  unfold train
  dsimp only
  rw [e _ (List.length_map ..)]
  dsimp only [bind, Except.bind]
  by_cases h : (mode && normEval) = true
  · rw [if_pos h]
    refine ⟨_, rfl, ?_, ?_, ?_, ?_, ?_⟩
    · simp only [h, if_true]
    · obtain ⟨h1, h2⟩ := Bool.and_eq_true_iff.1 h
      subst h1; subst h2; rfl
    · by_cases h0 : 0 ≤ frozen
      · rw [if_pos h0, if_pos h0]
      · rw [if_neg h0, if_neg h0]; rfl
    · by_cases h0 : 0 ≤ frozen
      · rw [if_pos h0]; rfl
      · rw [if_neg h0]; rfl
    · obtain ⟨h1, h2⟩ := Bool.and_eq_true_iff.1 h
      subst h1; subst h2; rfl
  · rw [if_neg h]
    have hb : (mode && !normEval) = mode := by
      cases mode <;> cases normEval <;> first | rfl | exact absurd rfl h
    refine ⟨_, rfl, ?_, ?_, ?_, ?_, ?_⟩
    · simp only [if_neg h, List.map_id']
    · cases mode <;> cases normEval <;> first | rfl | exact absurd rfl h
    · by_cases h0 : 0 ≤ frozen
      · rw [if_pos h0, if_pos h0]
      · rw [if_neg h0, if_neg h0]; rfl
    · by_cases h0 : 0 ≤ frozen
      · rw [if_pos h0]; rfl
      · rw [if_neg h0]; rfl
    · rw [hb]
      by_cases h0 : 0 ≤ frozen
      · rw [if_pos h0]; rfl
      · rw [if_neg h0]; rfl

end Verif.Backbones
