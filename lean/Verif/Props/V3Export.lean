import Verif.Lemmas.V3Export

/-! C110: the subnet exported from a searchable MobileNetV3 is the network built with what was
chosen. -/

namespace Verif.V3Export
open Verif SeqChannel Backbones

/-- The block exported from a block is the one built with the chosen channels, kernel and ratio exactly
if the front convolution is kept for a reason (a ratio of one was chosen only if it is the largest) and,
without the attentive shortcut, the chosen channels in and out are equal exactly if the largest ones
are. -/
theorem C110_block (att se : Bool) {mIn mOut mK mR s cin cout k r : ℕ} (hs : s = 1 ∨ s = 2) (h0 : 1 ≤ cin)
    (h1 : cin ≤ mIn) (h2 : cout ≤ mOut) (hr : 1 ≤ r) (h3 : r ≤ mR) (hk : k % 2 = 1) :
    ∃ b b', mkBlock att se mIn mOut mK s mR = .ok b ∧ exportBlock mIn mOut mR b cin cout k r = .ok b' ∧
      (mkBlock att se cin cout k s r = .ok b' ↔
        (r = 1 → mR = 1) ∧ (att = false → s = 1 → (mIn = mOut ↔ cin = cout))) :=
  block_same att se hs h0 h1 h2 hr h3 hk

example : mkBlock true true 24 32 5 2 6 = .ok ⟨some (24, 144), (144, 5, 2, 2), some (144, 40), (144, 32), false, some (24, 32, 2)⟩ ∧
    exportBlock 24 32 6 ⟨some (24, 144), (144, 5, 2, 2), some (144, 40), (144, 32), false, some (24, 32, 2)⟩ 16 24 3 4
      = .ok ⟨some (16, 64), (64, 3, 1, 2), some (64, 16), (64, 24), false, some (16, 24, 2)⟩ := by
  decide +kernel

/-- An even kernel cannot be exported: its padding is refused. -/
theorem C110_even_kernel (b : Block) (mIn mOut mR cin cout r : ℕ) {k : ℕ} (hk : k % 2 = 0) :
    exportBlock mIn mOut mR b cin cout k r = .error .assertion := by
  unfold exportBlock Kernel.samePadding
  rw [if_neg (by omega)]

/-- A stride other than one and two is refused. -/
theorem C110_stride (att se : Bool) (cin cout k r : ℕ) {s : ℕ} (h1 : s ≠ 1) (h2 : s ≠ 2) :
    mkBlock att se cin cout k s r = .error .assertion := if_neg (by omega)

/-- The subnet exported from a network is the network built with what was chosen as its only
candidates, exactly if no layer depends on what was not chosen: the same stem, the same layers in the
same number, the same last layer. Missing: layers that depend on what was not chosen, see the violations. -/
theorem C110_network_partial (s : Space) (ch : Choice) (h : Chosen s ch) :
    ∃ n e a, mkNet s = .ok n ∧ exportNet s ch n = .ok e ∧ mkNet (s.alone ch) = .ok a ∧
      (e = a ↔ AllSame s.att (top s.first) ch.first (s.stages.zip ch.stages)) ∧
      e.stem = a.stem ∧ e.last = a.last := by
  obtain ⟨r, e, a, g1, g2, g3, g4, g5, g6, g7⟩ := layers_same s.att (s.stages.zip ch.stages) (top s.first) ch.first
    (h.first.2 _ h.first.1) (le_top h.first.1) h.stages
  have z1 : (s.stages.zip ch.stages).map Prod.fst = s.stages := List.map_fst_zip (by rw [h.count])
  have z2 : (s.stages.zip ch.stages).map (fun p => alone p.1 p.2) = List.zipWith alone s.stages ch.stages := by
    rw [List.zip, List.map_zipWith]
  rw [z1] at g1
  rw [z2] at g3
  have m1 : e.2.2 * ch.lastRatio ≤ e.2.1 * top s.lastRatios := Nat.mul_le_mul g6 (le_top h.lastRatio)
  refine ⟨_, _, _, by unfold mkNet; rw [g1], by unfold exportNet; dsimp only; rw [g2],
    by unfold mkNet Space.alone; dsimp only; rw [top_one, g3], ?_, ?_, ?_⟩
  · rw [active_eq (le_top h.first.1), active_eq g6, active_eq m1, active_eq (le_top h.lastChan), top_one, top_one, g5,
      ← g7]
    constructor
    · intro q
      injection q
    · intro q
      rw [q]
  · exact active_eq (le_top h.first.1)
  · dsimp only
    rw [active_eq g6, active_eq m1, active_eq (le_top h.lastChan), top_one, top_one, g5]

example : Chosen (exSpace true) (exChoice 6) where
  first := by decide
  count := rfl
  stages := by
    intro p hp
    rw [exSpace, exChoice, List.zip_cons_cons, List.zip_cons_cons, List.zip_nil_left, List.mem_cons, List.mem_singleton] at hp
    rcases hp with rfl | rfl
    · refine ⟨by unfold VGood; decide, ⟨by decide, by decide, fun _ => by simp, fun _ => by simp⟩, fun _ => ⟨rfl, rfl⟩⟩
    · refine ⟨by unfold VGood; decide, ⟨by decide, by decide, fun _ => by simp, fun _ => by simp⟩, fun _ => ⟨rfl, rfl⟩⟩
  lastRatio := by decide
  lastChan := by decide

example : ∃ n e a, mkNet (exSpace true) = .ok n ∧ exportNet (exSpace true) (exChoice 6) n = .ok e ∧
    mkNet ((exSpace true).alone (exChoice 6)) = .ok a ∧ e = a ∧ e.layers.map List.length = [2, 2] ∧
    n.layers.map List.length = [2, 3] := by
  refine ⟨_, _, _, rfl, rfl, rfl, ?_⟩
  decide +kernel

/-- With the attentive shortcut and without a ratio of one among larger ones, all exported subnets are
the networks built with what was chosen. Missing: other shortcuts and ratios, see the violations. -/
theorem C110_attentive_partial (s : Space) (ch : Choice) (h : Chosen s ch) (ha : s.att = true)
    (hr : ∀ st ∈ s.stages, 1 ∈ st.ratios → ∀ r ∈ st.ratios, r = 1) :
    ∃ n e, mkNet s = .ok n ∧ exportNet s ch n = .ok e ∧ mkNet (s.alone ch) = .ok e := by
  obtain ⟨n, e, a, h1, h2, h3, h4, _⟩ := C110_network_partial s ch h
  have key : ∀ (l : List (VStage × VChoice)) (mIn cin : ℕ), (∀ p ∈ l, VChosen p.1 p.2 ∧
      (1 ∈ p.1.ratios → ∀ r ∈ p.1.ratios, r = 1)) → AllSame true mIn cin l := by
    intro l
    induction l with
    | nil => intros; trivial
    | cons p l ih =>
      intro mIn cin hl
      obtain ⟨hc, hp⟩ := hl p List.mem_cons_self
      refine ⟨⟨fun h1 => ?_, nofun⟩, ih _ _ fun q hq => hl q (List.mem_cons_of_mem _ hq)⟩
      have h1r : 1 ∈ p.1.ratios := h1 ▸ hc.2.2.2 0
      have := hp h1r
      revert h1r
      generalize p.1.ratios = rs at this
      induction rs with
      | nil => intro h; cases h
      | cons a t iht =>
        intro _
        have ha1 := this a List.mem_cons_self
        subst ha1
        show max 1 (top t) = 1
        cases t with
        | nil => rfl
        | cons b t =>
          rw [iht (fun r hr => this r (List.mem_cons_of_mem _ hr)) (by
            rw [this b (by simp)]; exact List.mem_cons_self)]
          rfl
  have : e = a := h4.2 (by
    rw [ha]
    exact key _ _ _ fun p hp => ⟨(h.stages p hp).2.1, hr p.1 (List.of_mem_zip hp).1⟩)
  exact ⟨n, e, h1, h2, this ▸ h3⟩

/-- DISAGREEMENT: the exported subnet should be the network of the chosen settings. If a ratio of one
is chosen for a layer for which a larger one is offered, the exported blocks keep a 1x1 convolution in
front of the depthwise one, which the network built with a ratio of one does not have. -/
theorem C110_ratio_violated (s : Space) (ch : Choice) (h : Chosen s ch) {p : VStage × VChoice}
    (hp : p ∈ s.stages.zip ch.stages) (h1 : p.2.r 0 = 1) {r : ℕ} (hr : r ∈ p.1.ratios) (h2 : 2 ≤ r) :
    ∃ n e a, mkNet s = .ok n ∧ exportNet s ch n = .ok e ∧ mkNet (s.alone ch) = .ok a ∧ e ≠ a := by
  obtain ⟨n, e, a, k1, k2, k3, k4, _⟩ := C110_network_partial s ch h
  refine ⟨n, e, a, k1, k2, k3, fun hc => ?_⟩
  have hc := k4.1 hc
  revert hc hp
  generalize s.stages.zip ch.stages = l
  generalize top s.first = mIn
  generalize ch.first = cin
  induction l generalizing mIn cin with
  | nil => intro hp; cases hp
  | cons q l ih =>
    intro hp hc
    rcases List.mem_cons.1 hp with rfl | hp
    · have := hc.1.1 h1
      have := le_top hr
      omega
    · exact ih _ _ hp hc.2

example : ∃ n e a, mkNet (exSpace true) = .ok n ∧ exportNet (exSpace true) (exChoice 1) n = .ok e ∧
    mkNet ((exSpace true).alone (exChoice 1)) = .ok a ∧ (e.layers[1]?.map fun l => l.map (·.expand)) = some [some (24, 24), some (24, 24)] ∧
    (a.layers[1]?.map fun l => l.map (·.expand)) = some [none, none] := by
  refine ⟨_, _, _, rfl, rfl, rfl, ?_⟩
  decide +kernel

/-- DISAGREEMENT: a block should add its input exactly if input and output have the same shape. Without
the attentive shortcut this is decided with the largest numbers of channels: of equal ones but different
chosen ones an input is added that has another number of channels, and of different ones but equal
chosen ones none is. -/
theorem C110_residual_violated (se : Bool) {mIn mOut mK mR cin cout k r : ℕ} (h1 : cin ≤ mIn) (h2 : cout ≤ mOut)
    (h3 : r ≤ mR) (hk : k % 2 = 1) :
    ∃ b b', mkBlock false se mIn mOut mK 1 mR = .ok b ∧ exportBlock mIn mOut mR b cin cout k r = .ok b' ∧
      (mIn = mOut → cin ≠ cout → b'.res = true ∧ b'.depthwise.2.2.2 = 1 ∧ b'.linear = (cin * r, cout)) ∧
      (mIn ≠ mOut → cin = cout → b'.res = false ∧ b'.depthwise.2.2.2 = 1 ∧ b'.linear = (cin * r, cin)) := by
  refine ⟨_, _, by unfold mkBlock; rw [if_pos (by simp)], export_eq _ h1 h2 h3 hk, ?_, ?_⟩
  · intro e _
    simp [e]
  · intro e f
    simp [e, f]

example : ∃ n e, mkNet (exSpace false) = .ok n ∧ exportNet (exSpace false) (exChoice 6) n = .ok e ∧
    (e.layers[1]?.map fun l => l.map fun b => (b.res, b.linear.2)) = some [(false, 24), (true, 24)] ∧
    (e.layers[0]?.map fun l => l.map fun b => b.linear.2) = some [24, 24] := by
  refine ⟨_, _, rfl, rfl, ?_⟩
  decide +kernel

/-- DISAGREEMENT: every subnet of a search space should be a network of the family. In fine-grained
mode the blocks of a layer may have different kernels: such a subnet is not the network of any
settings, whatever the candidates. -/
theorem C110_fine_violated (s : Space) (ch : Choice) {n e : Net} (_ : mkNet s = .ok n) (he : exportNet s ch n = .ok e)
    {j : ℕ} {p : VStage × VChoice} (hp : (s.stages.zip ch.stages)[j]? = some p) {bs : List Block} (hb : n.layers[j]? = some bs)
    (h2 : 2 ≤ p.2.d) (h3 : 2 ≤ bs.length) (hk : p.2.k 0 ≠ p.2.k 1) (t : Space) : mkNet t ≠ .ok e := by
  intro ht
  unfold exportNet at he
  generalize hq : exportLayers (top s.first) ch.first (s.stages.zip ch.stages) n.layers = q at he
  cases q with
  | error x => cases he
  | ok r =>
    injection he with he
    obtain ⟨es, g1, g2, g3⟩ := exportLayers_kernel _ _ _ _ _ hq j p bs hp hb
    unfold mkNet at ht
    generalize hq2 : mkLayers t.att (top t.first) t.stages = q2 at ht
    cases q2 with
    | error x => cases ht
    | ok r2 =>
      injection ht with ht
      have hl : r2.1 = r.1 := by rw [← he] at ht; injection ht
      have hm : es ∈ r2.1 := by rw [hl]; exact List.mem_of_getElem? g1
      have l0 : 0 < es.length := by omega
      have l1 : 1 < es.length := by omega
      have := mkLayers_kernel _ _ _ _ hq2 es hm es[0] (List.getElem_mem _) es[1] (List.getElem_mem _)
      rw [g3 0 es[0] (List.getElem?_eq_getElem l0), g3 1 es[1] (List.getElem?_eq_getElem l1)] at this
      exact hk this

example : ∃ n e, mkNet (exSpace true) = .ok n ∧
    exportNet (exSpace true) ⟨16, [⟨24, 2, fun i => if i = 0 then 3 else 5, fun _ => 4⟩, ⟨24, 2, fun _ => 3, fun _ => 6⟩], 6, 1792⟩ n = .ok e ∧
    (e.layers[0]?.map fun l => l.map fun b => b.depthwise) = some [(64, 3, 1, 2), (96, 5, 2, 1)] := by
  refine ⟨_, _, rfl, rfl, ?_⟩
  decide +kernel

end Verif.V3Export
