import Verif.Lemmas.ChannelNodes

/-! Property C100: search units of the channel graph. -/

namespace Verif.ChannelNodes
open Verif

/-! ## Property C100 -/

/-- For every graph that goes through: two channels of layers end up in one set exactly when the demands of the nodes force them to be
treated alike. -/
theorem C100_sets {inputs : Nat} {nodes : List Node} {recs : List Rec} {s : S} (h : forward inputs nodes = .ok (recs, s))
    (x y : Elem) (hx : Seen recs x) (hy : Seen recs y) :
    y ∈ members s.table x ↔ ∀ φ : Elem → Prop, Admissible nodes recs φ → φ x = φ y := by
  obtain ⟨hok, hw⟩ := forward_ok h
  have hx' : ∃ q ∈ recs, q.has x := hx
  have hy' : ∃ q ∈ recs, q.has y := hy
  obtain ⟨q, hq, hqx⟩ := hx'
  obtain ⟨q', hq', hqy⟩ := hy'
  rw [mem_members hok]
  constructor
  · rintro ⟨_, ht⟩ φ hA
    obtain ⟨φ', r1, r2⟩ := (graph_spec h).2 φ hA
    rw [← r2 q hq x hqx, ← r2 q' hq' y hqy]
    exact (Tied.lift φ' r1 ht).symm
  · intro hall
    refine ⟨hw q' hq' y hqy, ?_⟩
    have hr : Resp (fun z => Tied s.ties x z) s.ties := by
      intro p hp
      have hp' : Tied s.ties p.1 p.2 := Tied.of hp
      exact propext ⟨fun h => h.trans hp', fun h => h.trans hp'.symm⟩
    have := hall _ ((graph_spec h).1 _ hr)
    exact (this.mp (Tied.refl _ _)).symm

/-- In the residual block the second channels of both convolutions are in one set, the first and the second of one are not. -/
example : ∃ recs s, forward 3 resNet = .ok (recs, s) ∧ Seen recs (2, 1) ∧ Seen recs (5, 1) ∧ (5, 1) ∈ members s.table (2, 1) ∧
    (2, 0) ∉ members s.table (2, 1) := by
  let p := (forward 3 resNet).toOption.getD ([], ⟨[], []⟩)
  exact ⟨p.1, p.2, ok_getD ([], ⟨[], []⟩) (by decide +kernel), ⟨⟨elemsOf 1 3, elemsOf 2 4, elemsOf 2 4⟩, by decide +kernel⟩,
    ⟨⟨elemsOf 2 4, elemsOf 5 4, elemsOf 5 4⟩, by decide +kernel⟩, by decide +kernel, by decide +kernel⟩

/-- For graphs whose tensors are shared as wholes (`plan`) and whose units show their widths: the masks that the layers can get from
the masks of the search units are exactly the admissible ones. So whatever the units choose, tensors that are added have equal masks,
grouped layers keep the same channels in every group, a flattened channel is kept or dropped as a whole, and a shared layer is pruned
the same way everywhere; and no admissible way to prune is left out. Missing: graphs whose tensors are not shared as wholes, and
units that do not show their widths, see `C100_groups_violated` and `C100_orders_fails`. -/
theorem C100_masks_partial {inputs : Nat} {nodes : List Node} {ps : List PRec} {L : Lay} (hp : plan inputs nodes = some (ps, L))
    (hr : Regular ps L) :
    ∃ recs s cfg, forward inputs nodes = .ok (recs, s) ∧ unitsOf nodes recs s.table = .ok cfg ∧
      (∀ masks : Finset Nat → List Bool, (∀ h, (masks h).length = numOf cfg h) →
        ∃ φ : Elem → Bool, Admissible nodes recs φ ∧ ∀ r ∈ recs,
          maskOf cfg masks s.table r.inp = .ok (r.inp.map φ) ∧ maskOf cfg masks s.table r.out = .ok (r.out.map φ)) ∧
      ∀ φ : Elem → Bool, Admissible nodes recs φ →
        ∃ masks : Finset Nat → List Bool, (∀ h, (masks h).length = numOf cfg h) ∧ ∀ r ∈ recs,
          maskOf cfg masks s.table r.inp = .ok (r.inp.map φ) ∧ maskOf cfg masks s.table r.out = .ok (r.out.map φ) := by
  obtain ⟨s, h1, h2, h3⟩ := sim_plan hp
  obtain ⟨cfg, c1, c2, c3⟩ := masks_spec h2 h3 hr (plan_length hp)
  have hten : ∀ p ∈ ps, p.inp ∈ tensors ps ∧ p.out ∈ tensors ps := by
    intro p hp
    unfold tensors
    exact ⟨List.mem_flatMap.2 ⟨p, hp, by simp⟩, List.mem_flatMap.2 ⟨p, hp, by simp⟩⟩
  refine ⟨_, s, cfg, h1, c1, ?_, ?_⟩
  · intro masks hm
    refine ⟨fun x => (masks (hashOf s.table x)).getD (minIndex s.table x) false, (graph_spec h1).1 _ ?_, ?_⟩
    · intro p hpt
      have hrep := ((table_spec h2.ok).2.2 p.1 p.2).2 (Tied.of hpt)
      have hmem := members_congr hrep
      unfold hashOf minIndex
      beta_reduce
      rw [hmem]
    · intro r hrm
      obtain ⟨p, hpm, rfl⟩ := List.mem_map.1 hrm
      exact ⟨c3 masks hm _ (hten p hpm).1, c3 masks hm _ (hten p hpm).2⟩
  · intro φ hA
    obtain ⟨φ', r1, r2⟩ := (graph_spec h1).2 φ hA
    let masks : Finset Nat → List Bool := fun h =>
      (List.range (numOf cfg h)).map (fun k => if hn : h.Nonempty then φ' (h.min' hn, k * L.r (h.min' hn)) else false)
    have hlen : ∀ h, (masks h).length = numOf cfg h := fun h => by
      show ((List.range (numOf cfg h)).map _).length = _
      rw [List.length_map, List.length_range]
    have key : ∀ v ∈ tensors ps, Valid L v → ∀ x ∈ L.whole v,
        (masks (hashOf s.table x)).getD (minIndex s.table x) false = φ' x := by
      intro v hv hV x hx
      obtain ⟨e1, e2⟩ := label_eq h2 h3 hr hv hV hx
      obtain ⟨xv, xw⟩ := within_whole hV hx
      have hx1 := hV x.1 xv
      rw [e1, e2]
      have hn : (unitSet L (L.u x.1)).Nonempty := ⟨x.1, mem_unitSet.2 ⟨hx1, rfl⟩⟩
      obtain ⟨m1, m2⟩ := mem_unitSet.1 ((unitSet L (L.u x.1)).min'_mem hn)
      have hk := key_lt h2.good hx1
      have hnum := c2 v hv x.1 xv
      show ((List.range (numOf cfg (unitSet L (L.u x.1)))).map _).getD (L.key x) false = _
      rw [hnum, List.getD_eq_getElem?_getD, List.getElem?_map, List.getElem?_range hk]
      simp only [Option.map_some, Option.getD_some]
      rw [dif_pos hn]
      have hkn : L.key x < L.n ((unitSet L (L.u x.1)).min' hn) := by
        unfold Lay.n at hk ⊢; rw [m2]; exact hk
      obtain ⟨k1, k2⟩ := hit h2.good m1 hkn
      exact Tied.lift φ' r1 ((h2.exact _ x ((within_iff L _).2 ⟨m1, k1⟩) xw).2 ⟨m2, k2⟩)
    refine ⟨masks, hlen, ?_⟩
    intro r hrm
    obtain ⟨p, hpm, rfl⟩ := List.mem_map.1 hrm
    have hf := h3 p hpm
    refine ⟨?_, ?_⟩
    · rw [show (L.real p).inp = L.whole p.inp from rfl, c3 masks hlen _ (hten p hpm).1]
      congr 1
      apply List.map_congr_left
      intro x hx
      rw [key _ (hten p hpm).1 hf.inp.1 x hx]
      exact r2 _ hrm x (Or.inl hx)
    · rw [show (L.real p).out = L.whole p.out from rfl, c3 masks hlen _ (hten p hpm).2]
      congr 1
      apply List.map_congr_left
      intro x hx
      rw [key _ (hten p hpm).2 hf.out.1 x hx]
      exact r2 _ hrm x (Or.inr (Or.inl hx))

/-- Reading the units of a fresh graph never trips over remembered hashes. -/
theorem C100_once {inputs : Nat} {nodes : List Node} {recs : List Rec} {s : S} (h : forward inputs nodes = .ok (recs, s)) :
    ∃ cache, generate s.table recs [] = .ok cache := by
  obtain ⟨hok, hw⟩ := forward_ok h
  obtain ⟨t1, t2, _⟩ := table_spec hok
  obtain ⟨c, hc, _⟩ := hashPass_ok t1 (recs.flatMap (fun r => r.out ++ r.inp)) [] (by simp) (by
    intro x hx
    obtain ⟨r, hr, hx⟩ := List.mem_flatMap.1 hx
    refine (t2 x).2 (hw r hr x ?_)
    rcases List.mem_append.1 hx with hx | hx
    · exact Or.inr (Or.inl hx)
    · exact Or.inl hx)
  exact ⟨c, hc⟩

/-- DISAGREEMENT: the units of a graph cannot be read a second time when a channel of a layer shares its set with a channel of a tensor
that no layer holds (the group tensors of grouped layers, the copies of the end channel): only the channels of the layers forget their
hash, and the assertion that no member of the set remembers one fails. -/
theorem C100_twice_fails {inputs : Nat} {nodes : List Node} {recs : List Rec} {s : S} (h : forward inputs nodes = .ok (recs, s))
    (x y : Elem) (hx : x ∈ recs.flatMap (fun r => r.out ++ r.inp)) (hy : y ∈ members s.table x)
    (hh : y ∉ recs.flatMap (fun r => r.out ++ r.inp)) (cache : List Elem) (hc : generate s.table recs [] = .ok cache) :
    generate s.table recs cache = .error .assertion := by
  obtain ⟨hok, hw⟩ := forward_ok h
  obtain ⟨t1, t2, _⟩ := table_spec hok
  obtain ⟨c, hc', _, e3⟩ := hashPass_ok t1 (recs.flatMap (fun r => r.out ++ r.inp)) [] (by simp) (by
    intro x hx
    obtain ⟨r, hr, hx⟩ := List.mem_flatMap.1 hx
    refine (t2 x).2 (hw r hr x ?_)
    rcases List.mem_append.1 hx with hx | hx
    · exact Or.inr (Or.inl hx)
    · exact Or.inl hx)
  have hcc : cache = c := by
    have : generate s.table recs [] = .ok c := hc'
    rw [hc] at this
    exact Except.ok.inj this
  subst hcc
  unfold generate
  refine hashPass_fails t1 _ _ x y hx ?_ ?_ hy
  · intro hm
    have := (List.mem_filter.1 hm).2
    simp only [decide_eq_true_eq] at this
    exact this hx
  · exact List.mem_filter.2 ⟨e3 x hx y hy, by simpa using hh⟩

/-- The last entry of a grouped layer's group tensor is held by no layer, so `groupNet` cannot be read twice. -/
example : ∃ recs s cache, forward 3 groupNet = .ok (recs, s) ∧ generate s.table recs [] = .ok cache ∧
    generate s.table recs cache = .error .assertion := by
  let p := (forward 3 groupNet).toOption.getD ([], ⟨[], []⟩)
  have h1 : forward 3 groupNet = .ok (p.1, p.2) := ok_getD ([], ⟨[], []⟩) (by decide +kernel)
  obtain ⟨c, hc⟩ := C100_once h1
  exact ⟨p.1, p.2, c, h1, hc, C100_twice_fails h1 (2, 0) (3, 0) (by decide +kernel) (by decide +kernel) (by decide +kernel) c hc⟩

/-- The two graphs meet the hypotheses of the theorem on masks. -/
example : regular 3 resNet = true ∧ regular 3 groupNet = true := by decide +kernel

/-- DISAGREEMENT: when a layer feeds grouped convolutions with two and with three groups, all its channels fall into one set, but its
search unit still has one entry per channel. Masks of that unit keep channels of one group that the other groups drop; no admissible
choice of channels gives them. -/
theorem C100_groups_violated : ∃ recs s cfg, forward 3 twoGroups = .ok (recs, s) ∧ unitsOf twoGroups recs s.table = .ok cfg ∧
    ∃ masks : Finset Nat → List Bool, (∀ h, (masks h).length = numOf cfg h) ∧
      (∀ r ∈ recs, ∃ m m', maskOf cfg masks s.table r.inp = .ok m ∧ maskOf cfg masks s.table r.out = .ok m') ∧
      ¬ ∃ φ : Elem → Bool, Admissible twoGroups recs φ ∧ ∀ r ∈ recs, maskOf cfg masks s.table r.inp = .ok (r.inp.map φ) := by
  let p := (forward 3 twoGroups).toOption.getD ([], ⟨[], []⟩)
  let cfg := (unitsOf twoGroups p.1 p.2.table).toOption.getD []
  refine ⟨p.1, p.2, cfg, ok_getD ([], ⟨[], []⟩) (by decide +kernel), ok_getD [] (by decide +kernel), fun h => (List.range (numOf cfg h)).map (· == 0),
    fun h => by simp, ?_, ?_⟩
  · have : ∀ r ∈ p.1, (maskOf cfg (fun h => (List.range (numOf cfg h)).map (· == 0)) p.2.table r.inp).isOk = true ∧
        (maskOf cfg (fun h => (List.range (numOf cfg h)).map (· == 0)) p.2.table r.out).isOk = true := by decide +kernel
    intro r hr
    obtain ⟨h1, h2⟩ := this r hr
    cases e1 : maskOf cfg (fun h => (List.range (numOf cfg h)).map (· == 0)) p.2.table r.inp with
    | error e => rw [e1] at h1; cases h1
    | ok m =>
      cases e2 : maskOf cfg (fun h => (List.range (numOf cfg h)).map (· == 0)) p.2.table r.out with
      | error e => rw [e2] at h2; cases h2
      | ok m' => exact ⟨m, m', rfl, rfl⟩
  · rintro ⟨φ, hA, hm⟩
    have hmem : (⟨elemsOf 2 6, elemsOf 4 4, elemsOf 4 4⟩ : Rec) ∈ p.1 := by decide +kernel
    have hz : ((⟨"two", .group 2 4, [1], none⟩ : Node), (⟨elemsOf 2 6, elemsOf 4 4, elemsOf 4 4⟩ : Rec)) ∈ twoGroups.zip p.1 := by
      have hp : p.1.drop 2 = ⟨elemsOf 2 6, elemsOf 4 4, elemsOf 4 4⟩ :: p.1.drop 3 := by decide +kernel
      have h2 : p.1 = p.1.take 2 ++ ⟨elemsOf 2 6, elemsOf 4 4, elemsOf 4 4⟩ :: p.1.drop 3 := by
        rw [← hp, List.take_append_drop]
      have h3 : (p.1.take 2).length = 2 := by decide +kernel
      rw [h2, show twoGroups = twoGroups.take 2 ++ twoGroups.drop 2 from (List.take_append_drop _ _).symm,
        List.zip_append (by rw [h3]; rfl)]
      exact List.mem_append.2 (Or.inr (by simp [twoGroups]))
    have h1 := (hA.node _ hz).1 0 3 (2, 0) (2, 3) rfl rfl rfl
    have h2 := hm _ hmem
    have h3 : maskOf cfg (fun h => (List.range (numOf cfg h)).map (· == 0)) p.2.table (elemsOf 2 6)
      = .ok [true, false, false, false, false, false] := by decide +kernel
    dsimp only at h2
    rw [h3] at h2
    have h4 := Except.ok.inj h2
    simp only [elemsOf, List.range, List.range.loop, List.map_cons, List.map_nil, List.cons.injEq] at h4
    rw [← h4.1, ← h4.2.2.2.1] at h1
    cases h1

/-- DISAGREEMENT: when two layers of two and three channels are concatenated in both orders and the results are added, all channels
fall into one set and the search unit has two channels. The mask of the layer with three channels would need the factor 3/2, which
the expansion of masks refuses, whatever the unit chooses. -/
theorem C100_orders_fails : ∃ recs s cfg, forward 3 bothOrders = .ok (recs, s) ∧ unitsOf bothOrders recs s.table = .ok cfg ∧
    ∃ r ∈ recs, r.out.length = 3 ∧ ∀ masks, maskOf cfg masks s.table r.out = .error .type := by
  let p := (forward 3 bothOrders).toOption.getD ([], ⟨[], []⟩)
  let cfg := (unitsOf bothOrders p.1 p.2.table).toOption.getD []
  refine ⟨p.1, p.2, cfg, ok_getD ([], ⟨[], []⟩) (by decide +kernel), ok_getD [] (by decide +kernel), ⟨elemsOf 1 3, elemsOf 3 3, elemsOf 3 3⟩, by decide +kernel,
    by decide +kernel, ?_⟩
  intro masks
  have h1 : ranges p.2.table (elemsOf 3 3) = .ok [((0, 3), {2, 3})] := by decide +kernel
  have h2 : numOf cfg {2, 3} = 2 := by decide +kernel
  unfold maskOf
  dsimp only
  rw [h1]
  simp only [readMask, h2, rangeMask]
  rfl

/-- A range of a layer that is shorter than its unit cannot be masked, a unit without channels divides by zero, and a range that is no
multiple of its unit fails when the mask is made. -/
theorem C100_range_refused (num : Finset Nat → Nat) (masks : Finset Nat → List Bool) (r : Nat × Nat) (h : Finset Nat)
    (rest : List ((Nat × Nat) × Finset Nat)) :
    (r.2 - r.1 < num h → readMask num masks ((r, h) :: rest) = .error .notImplemented) ∧
    (num h = 0 → readMask num masks ((r, h) :: rest) = .error .zeroDivision) ∧
    (num h < r.2 - r.1 → 0 < num h → ¬ num h ∣ r.2 - r.1 → readMask num masks ((r, h) :: rest) = .error .type) := by
  refine ⟨fun h1 => ?_, fun h1 => ?_, fun h1 h2 h3 => ?_⟩
  · simp [readMask, rangeMask, h1]
  · simp [readMask, rangeMask, h1]
  · have h4 : (r.2 - r.1) % num h ≠ 0 := fun e => h3 (Nat.dvd_of_mod_eq_zero e)
    simp [readMask, rangeMask, not_lt.2 h1.le, Nat.ne_of_gt h2, h4]

example : readMask (fun _ => 4) (fun _ => []) [((0, 6), {1})] = .error .type :=
  (C100_range_refused _ _ _ _ _).2.2 (by decide) (by decide) (by decide)

end Verif.ChannelNodes
