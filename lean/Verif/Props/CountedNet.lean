import Verif.Lemmas.CountedNet
import Verif.Props.PrunedNet

/-! Property C107: the resources reported for a pruned network are those of the exported network. -/

namespace Verif.CountedNet
open Verif Verif.DynamicOps Verif.ChannelNodes Verif.PrunedNet Verif.Estimator

variable {W B X : Type}

/-- For the convolutions of a pruned network that are not depthwise, whatever the graph, the masks and the shapes: the FLOPs and parameters
reported for the supernet are those reported for the exported network. Both are, call by call, the numbers the exported layers really hold: every one of
them is one parameter, and one operation at every position of the output, per sample. Missing: depthwise convolutions, see
`C107_depthwise_violated`, and normalisation layers, see `C107_norms_violated`. -/
theorem C107_convolutions_partial [AddCommMonoid X] (corr : Nat → W → X → X) (h0 : ∀ m w, corr m w 0 = 0) (bc : Nat → B → X) (o : Ops X)
    (mods : Nat → Module W B X) {inputs : Nat} {nodes : List Node} {recs : List Rec} {s : S} (h : forward inputs nodes = .ok (recs, s))
    (hf : Fits o mods nodes recs) (φ : Elem → Bool) (hA : Admissible nodes recs φ) (hK : Kept φ nodes recs)
    (read : Tensor → Except Err (List Bool)) (hr : ∀ r ∈ recs, read r.inp = .ok (r.inp.map φ) ∧ read r.out = .ok (r.out.map φ))
    (hl : ∀ n ∈ nodes, n.module ≠ none → Runs n)
    {tbl : List (Nat × List Bool × List Bool)} (ht : register read (nodes.zip recs) = .ok tbl) {vs : List (List X)}
    (hv : evalAll (o.with (dynLayer corr bc mods tbl)) nodes [] = .ok vs)
    (kernel : Nat → Option (List Nat)) (ms : List Nat) (hn : ms.Nodup)
    (hm : ∀ m ∈ ms, (kernel m).isSome ∧ ∃ c, mods m = .conv c ∧ ¬ Depthwise c) (b : Nat) (hb : 0 < b) (sz : X → List Nat) :
    evalAll (o.with (staticLayer corr bc mods tbl)) nodes [] = .ok vs ∧
    ∀ kinds ∈ [counted kernel mods tbl, exportedKind kernel mods tbl], estimate ms kinds (calls b sz nodes vs) (some b) =
      .ok (((((calls b sz nodes vs).filter (·.mod ∈ ms)).map fun c => positions c * size kernel mods tbl c.mod).sum : Nat),
        (((calls b sz nodes vs).filter (·.mod ∈ ms)).map fun c => (size kernel mods tbl c.mod : Int)).sum) := by
  obtain ⟨hs, t2⟩ := setting corr h0 bc o mods h hf φ hA hK read hr ht hv
  refine ⟨hs, fun kinds hk => ?_⟩
  refine estimate_calls ms hn kinds _ b hb (fun c => positions c * size kernel mods tbl c.mod) (fun c => (size kernel mods tbl c.mod : Int)) ?_
  intro c hc hcm
  obtain ⟨i, n, u, v, e1, e2, e3, e4, e5⟩ := call_run _ hs hl hc
  obtain ⟨hker, cv, hcv, hnd⟩ := hm c.mod hcm
  obtain ⟨k, hker⟩ := Option.isSome_iff_exists.1 hker
  have hrun := hl n (List.mem_of_getElem? e1) (by rw [e2]; simp)
  obtain ⟨p1, p2, p3, _⟩ := (masks_fit o mods h hf φ tbl t2 e1 hrun e2).1 cv hcv
  obtain ⟨st, g1, g2, g3, g4, g5, g6, g7, g8, g9, g10, g11, _⟩ := conv_call corr bc mods tbl e3 hcv p1 p2 p3
  obtain ⟨q1, q2⟩ := g11 hnd
  have hsize : size kernel mods tbl c.mod = held k.prod st := by unfold size; rw [g1, hker]
  have hex := hook_exported (k := k) g2 g3 g7 g8 g10 b sz u v g5
  have hkind : hook (kinds c.mod) c.inp c.out = hook (.conv k st.inC st.outC st.groups st.bias.isSome) c.inp c.out := by
    rcases List.mem_cons.1 hk with rfl | hk
    · unfold counted
      rw [hcv]; dsimp only
      rw [hker]; dsimp only
      rw [counted_dynamicConv]
      simp only [hook, Option.getD_some]
      rw [← q2, ← g6, ← q1, ← g9]
    · rcases List.mem_cons.1 hk with rfl | hk
      · unfold exportedKind
        rw [g1]; dsimp only
        rw [hker]
      · cases hk
  rw [hkind, hsize, e4, e5, hex]
  unfold positions
  rw [e5]

/-- The same from the graph to the resources: the units are read off any graph of ordinary layers, flattened maps and concatenations; whatever masks of
the right lengths the units are given, as long as the inputs and some channel in front of every module are kept, the pruned and the exported network run,
with the same values, and the same FLOPs and parameters are reported for their convolutions that are not depthwise: the numbers the exported
layers hold. Missing: depthwise convolutions, see `C107_depthwise_violated`. -/
theorem C107_units_partial [AddCommMonoid X] (corr : Nat → W → X → X) (h0 : ∀ m w, corr m w 0 = 0) (bc : Nat → B → X) {inputs : Nat}
    {nodes : List Node} {fs : List Form} (hi : 0 < inputs ∧ inputs ≤ 2 ^ 32) (hn : Ordinary nodes fs) {recs : List Rec} {s : S}
    (h : forward inputs nodes = .ok (recs, s)) (hlen : ∀ r ∈ recs, r.ret.length ≤ 2 ^ 32) (o : Ops X) (mods : Nat → Module W B X)
    (hf : Fits o mods nodes recs) (hl : ∀ n ∈ nodes, n.module ≠ none → Runs n) :
    ∃ cfg, unitsOf nodes recs s.table = .ok cfg ∧
      ∀ masks : Finset Nat → List Bool, (∀ h, (masks h).length = numOf cfg h) → KeptMasks (maskOf cfg masks s.table) nodes recs →
        ∃ tbl vs, register (maskOf cfg masks s.table) (nodes.zip recs) = .ok tbl ∧
          evalAll (o.with (dynLayer corr bc mods tbl)) nodes [] = .ok vs ∧ evalAll (o.with (staticLayer corr bc mods tbl)) nodes [] = .ok vs ∧
          ∀ (kernel : Nat → Option (List Nat)) (ms : List Nat), ms.Nodup →
            (∀ m ∈ ms, (kernel m).isSome ∧ ∃ c, mods m = .conv c ∧ ¬ Depthwise c) → ∀ b, 0 < b → ∀ sz : X → List Nat,
              ∀ kinds ∈ [counted kernel mods tbl, exportedKind kernel mods tbl], estimate ms kinds (calls b sz nodes vs) (some b) =
                .ok (((((calls b sz nodes vs).filter (·.mod ∈ ms)).map fun c => positions c * size kernel mods tbl c.mod).sum : Nat),
                  (((calls b sz nodes vs).filter (·.mod ∈ ms)).map fun c => (size kernel mods tbl c.mod : Int)).sum) := by
  obtain ⟨cfg, h2, h3, _⟩ := C100_ordinary hi hn h hlen
  refine ⟨cfg, h2, ?_⟩
  intro masks hm hK
  obtain ⟨φ, hA, hread⟩ := h3 masks hm
  have hK' := kept_of_masks h φ _ hread hK
  obtain ⟨tbl, t1, _⟩ := register_ok (maskOf cfg masks s.table) φ (nodes.zip recs) (fun q hq => hread q.2 (List.of_mem_zip hq).2) hA.shared
  obtain ⟨_, tbl', _, vs, _, t1', _, hv, hs, _⟩ := C106_values corr h0 bc o mods h hf φ hA hK' _ hread
  rw [t1] at t1'
  cases t1'
  refine ⟨tbl, vs, t1, hv, hs, ?_⟩
  intro kernel ms hms hmm b hb sz
  exact (C107_convolutions_partial corr h0 bc o mods h hf φ hA hK' _ hread hl t1 hv kernel ms hms hmm b hb sz).2

/-- Dropping channels never makes a network more expensive: when one choice keeps only channels another one keeps as well, and the maps have the same
sizes, the FLOPs and parameters reported for its convolutions that are not depthwise are not larger. Missing: depthwise
convolutions, see `C107_depthwise_violated`. -/
theorem C107_fewer_partial [AddCommMonoid X] (corr : Nat → W → X → X) (h0 : ∀ m w, corr m w 0 = 0) (bc : Nat → B → X) (o : Ops X)
    (mods : Nat → Module W B X) {inputs : Nat} {nodes : List Node} {recs : List Rec} {s : S} (h : forward inputs nodes = .ok (recs, s))
    (hf : Fits o mods nodes recs) (hl : ∀ n ∈ nodes, n.module ≠ none → Runs n)
    (φ : Elem → Bool) (hA : Admissible nodes recs φ) (hK : Kept φ nodes recs)
    (read : Tensor → Except Err (List Bool)) (hr : ∀ r ∈ recs, read r.inp = .ok (r.inp.map φ) ∧ read r.out = .ok (r.out.map φ))
    {tbl : List (Nat × List Bool × List Bool)} (ht : register read (nodes.zip recs) = .ok tbl) {vs : List (List X)}
    (hv : evalAll (o.with (dynLayer corr bc mods tbl)) nodes [] = .ok vs)
    (ψ : Elem → Bool) (hA' : Admissible nodes recs ψ) (hK' : Kept ψ nodes recs)
    (read' : Tensor → Except Err (List Bool)) (hr' : ∀ r ∈ recs, read' r.inp = .ok (r.inp.map ψ) ∧ read' r.out = .ok (r.out.map ψ))
    {tbl' : List (Nat × List Bool × List Bool)} (ht' : register read' (nodes.zip recs) = .ok tbl') {vs' : List (List X)}
    (hv' : evalAll (o.with (dynLayer corr bc mods tbl')) nodes [] = .ok vs') (hle : ∀ x, φ x = true → ψ x = true)
    (kernel : Nat → Option (List Nat)) (ms : List Nat) (hn : ms.Nodup)
    (hm : ∀ m ∈ ms, (kernel m).isSome ∧ ∃ c, mods m = .conv c ∧ ¬ Depthwise c) (b : Nat) (hb : 0 < b) (sz : X → List Nat)
    (hsz : ∀ (i : Nat) v v', vs[i]? = some v → vs'[i]? = some v' → ∀ x ∈ v, ∀ x' ∈ v', sz x = sz x') :
    ∃ (f f' : ℚ) (p p' : Int), estimate ms (counted kernel mods tbl) (calls b sz nodes vs) (some b) = .ok (f, p) ∧
      estimate ms (counted kernel mods tbl') (calls b sz nodes vs') (some b) = .ok (f', p') ∧ f ≤ f' ∧ p ≤ p' := by
  have E := (C107_convolutions_partial corr h0 bc o mods h hf φ hA hK read hr hl ht hv kernel ms hn hm b hb sz).2 _ List.mem_cons_self
  have E' := (C107_convolutions_partial corr h0 bc o mods h hf ψ hA' hK' read' hr' hl ht' hv' kernel ms hn hm b hb sz).2 _ List.mem_cons_self
  obtain ⟨hs, t2⟩ := setting corr h0 bc o mods h hf φ hA hK read hr ht hv
  obtain ⟨hs', t2'⟩ := setting corr h0 bc o mods h hf ψ hA' hK' read' hr' ht' hv'
  have hlen : vs.length = nodes.length := by simpa using evalAll_length _ hv
  have hlen' : vs'.length = nodes.length := by simpa using evalAll_length _ hv'
  have hpair := forall₂_filter_mod ms (fun c c' hc => hc.1) (calls_pair (b := b) (sz := sz) hlen hlen')
  have key : ∀ c ∈ (calls b sz nodes vs).filter (·.mod ∈ ms), ∀ c' ∈ (calls b sz nodes vs').filter (·.mod ∈ ms),
      (c.mod = c'.mod ∧ ∃ (i : Nat) (n : Node) (v v' : List X), nodes[i]? = some n ∧ n.module = some c.mod ∧
        vs[i]? = some v ∧ vs'[i]? = some v' ∧ c.out = shapeOf b sz v ∧ c'.out = shapeOf b sz v') →
      size kernel mods tbl c.mod ≤ size kernel mods tbl' c'.mod ∧
      positions c * size kernel mods tbl c.mod ≤ positions c' * size kernel mods tbl' c'.mod := by
    rintro c hc c' hc' ⟨hmod, i, n, v, v', hi, hnm, hvi, hvi', ho, ho'⟩
    rw [List.mem_filter] at hc hc'
    have hcm : c.mod ∈ ms := by simpa using hc.2
    obtain ⟨hker, cv, hcv, hnd⟩ := hm c.mod hcm
    obtain ⟨k, hker⟩ := Option.isSome_iff_exists.1 hker
    obtain ⟨i1, n1, u1, v1, a1, a2, a3, a4, a5⟩ := call_run _ hs hl hc.1
    obtain ⟨i2, n2, u2, v2, b1, b2, b3, b4, b5⟩ := call_run _ hs' hl hc'.1
    rw [← hmod] at b2 b3
    obtain ⟨p1, p2, p3, _⟩ := (masks_fit o mods h hf φ tbl t2 a1 (hl n1 (List.mem_of_getElem? a1) (by rw [a2]; simp)) a2).1 cv hcv
    obtain ⟨q1, q2, q3, _⟩ := (masks_fit o mods h hf ψ tbl' t2' b1 (hl n2 (List.mem_of_getElem? b1) (by rw [b2]; simp)) b2).1 cv hcv
    obtain ⟨st, g1, g2, g3, g4, g5, g6, g7, g8, g9, g10, g11, _⟩ := conv_call corr bc mods tbl a3 hcv p1 p2 p3
    obtain ⟨st', k1, k2, k3, k4, k5, k6, k7, k8, k9, k10, k11, _⟩ := conv_call corr bc mods tbl' b3 hcv q1 q2 q3
    obtain ⟨g12, g13⟩ := g11 hnd
    obtain ⟨k12, k13⟩ := k11 hnd
    obtain ⟨r, hri, _⟩ := (graph_made h).2 i n hi
    have hq : (n, r) ∈ nodes.zip recs := List.mem_of_getElem? (i := i) (by rw [List.getElem?_zip_eq_some]; exact ⟨hi, hri⟩)
    have hmask := t2 (n, r) hq c.mod hnm
    have hmask' := t2' (n, r) hq c.mod hnm
    have hin : st.inC ≤ st'.inC := by rw [g13, k13, hmask, hmask']; exact count_map_le hle _
    have hout : st.outC ≤ st'.outC := by rw [g6, k6, hmask, hmask']; exact count_map_le hle _
    have hsize : size kernel mods tbl c.mod = st.outC * (st.inC / st.groups) * k.prod + if st.bias.isSome then st.outC else 0 := by
      unfold size; rw [g1, hker]; exact held_eq g7 g8 g10
    have hsize' : size kernel mods tbl' c.mod = st'.outC * (st'.inC / st'.groups) * k.prod + if st'.bias.isSome then st'.outC else 0 := by
      unfold size; rw [k1, hker]; exact held_eq k7 k8 k10
    have hS : size kernel mods tbl c.mod ≤ size kernel mods tbl' c'.mod := by
      rw [← hmod, hsize, hsize', g12, k12, g9, k9]
      refine Nat.add_le_add (Nat.mul_le_mul (Nat.mul_le_mul hout (Nat.div_le_div_right hin)) (le_refl _)) ?_
      split
      · exact hout
      · exact le_refl _
    refine ⟨hS, ?_⟩
    have hlv : v.length = st.outC := by
      have : (shapeOf b sz v).dims = (shapeOf b sz v1).dims := by rw [← ho, ← a5]
      simp only [shapeOf, List.cons.injEq] at this
      rw [this.1, g5]
    have hlv' : v'.length = st'.outC := by
      have : (shapeOf b sz v').dims = (shapeOf b sz v2).dims := by rw [← ho', ← b5]
      simp only [shapeOf, List.cons.injEq] at this
      rw [this.1, k5]
    cases v with
    | nil =>
      have : st.outC = 0 := by simpa using hlv.symm
      rw [hsize, this]
      simp
    | cons x l =>
      cases v' with
      | nil =>
        rw [List.length_cons] at hlv
        rw [List.length_nil] at hlv'
        omega
      | cons x' l' =>
        have : positions c = positions c' := by
          unfold positions
          rw [ho, ho']
          simp only [shapeOf, List.drop_one, List.tail_cons, List.head?_cons, Option.map_some, Option.getD_some]
          rw [hsz i _ _ hvi hvi' x List.mem_cons_self x' List.mem_cons_self]
        rw [this]
        exact Nat.mul_le_mul (le_refl _) hS
  refine ⟨_, _, _, _, E, E', ?_, ?_⟩
  · exact_mod_cast sum_le_nat hpair (fun c hc c' hc' hR => (key c hc c' hc' hR).2)
  · have := sum_le_nat hpair (fun c hc c' hc' hR => (key c hc c' hc' hR).1)
    have cast : ∀ (f : Call → Nat) (l : List Call), (l.map fun c => (f c : Int)).sum = ((l.map f).sum : Nat) := by
      intro f l
      induction l with
      | nil => rfl
      | cons a l ih => simp only [List.map_cons, List.sum_cons, ih]; push_cast; rfl
    rw [cast (fun c => size kernel mods tbl c.mod), cast (fun c => size kernel mods tbl' c.mod)]
    exact_mod_cast this

/-- DISAGREEMENT: the FLOPs reported for a pruned depthwise convolution should be those of the exported one. They are too small by the share of active
channels: of `n` channels with `a` active, `a / n` of the FLOPs are reported. -/
theorem C107_depthwise_violated [AddCommMonoid X] (corr : Nat → W → X → X) (h0 : ∀ m w, corr m w 0 = 0) (bc : Nat → B → X) (o : Ops X)
    (mods : Nat → Module W B X) {inputs : Nat} {nodes : List Node} {recs : List Rec} {s : S} (h : forward inputs nodes = .ok (recs, s))
    (hf : Fits o mods nodes recs) (φ : Elem → Bool) (hA : Admissible nodes recs φ) (hK : Kept φ nodes recs)
    (read : Tensor → Except Err (List Bool)) (hr : ∀ r ∈ recs, read r.inp = .ok (r.inp.map φ) ∧ read r.out = .ok (r.out.map φ))
    (hl : ∀ n ∈ nodes, n.module ≠ none → Runs n)
    {tbl : List (Nat × List Bool × List Bool)} (ht : register read (nodes.zip recs) = .ok tbl) {vs : List (List X)}
    (hv : evalAll (o.with (dynLayer corr bc mods tbl)) nodes [] = .ok vs)
    (kernel : Nat → Option (List Nat)) (m : Nat) (hker : (kernel m).isSome) (c : Conv W B) (hc : mods m = .conv c) (hd : Depthwise c) (hg : c.groups ≠ 1)
    (hbias : c.bias = none) (b : Nat) (hb : 0 < b) (sz : X → List Nat) :
    ∃ (f f' : ℚ) (p p' : Int), estimate [m] (counted kernel mods tbl) (calls b sz nodes vs) (some b) = .ok (f, p) ∧
      estimate [m] (exportedKind kernel mods tbl) (calls b sz nodes vs) (some b) = .ok (f', p') ∧
      f' = ((((calls b sz nodes vs).filter (·.mod = m)).map fun c => positions c * size kernel mods tbl m).sum : Nat) ∧
      f * c.inC = f' * count (masksOf tbl m).1 := by
  obtain ⟨hs, t2⟩ := setting corr h0 bc o mods h hf φ hA hK read hr ht hv
  obtain ⟨k, hker⟩ := Option.isSome_iff_exists.1 hker
  have hfact : ∀ cl ∈ calls b sz nodes vs, cl.mod = m →
      hook (exportedKind kernel mods tbl m) cl.inp cl.out = (((b * (positions cl * size kernel mods tbl m) : Nat) : ℚ), (size kernel mods tbl m : Int)) ∧
      (hook (counted kernel mods tbl m) cl.inp cl.out).1 * c.inC =
        (hook (exportedKind kernel mods tbl m) cl.inp cl.out).1 * count (masksOf tbl m).1 := by
    intro cl hcl hmod
    obtain ⟨i, n, u, v, e1, e2, e3, e4, e5⟩ := call_run _ hs hl hcl
    rw [hmod] at e2 e3
    have hrun := hl n (List.mem_of_getElem? e1) (by rw [e2]; simp)
    obtain ⟨p1, p2, p3, p4⟩ := (masks_fit o mods h hf φ tbl t2 e1 hrun e2).1 c hc
    obtain ⟨st, g1, g2, g3, g4, g5, g6, g7, g8, g9, g10, _, g12⟩ := conv_call corr bc mods tbl e3 hc p1 p2 p3
    obtain ⟨q1, q2⟩ := g12 hg hd
    have hsize : size kernel mods tbl m = held k.prod st := by unfold size; rw [g1, hker]
    have hkind : exportedKind kernel mods tbl m = .conv k st.inC st.outC st.groups st.bias.isSome := by
      unfold exportedKind; rw [g1]; dsimp only; rw [hker]
    have hex := hook_exported (k := k) g2 g3 g7 g8 g10 b sz u v g5
    constructor
    · rw [hkind, hsize, e4, e5, hex]
      unfold positions
      rw [e5]
    · rw [hkind, e4, e5]
      unfold counted
      rw [hc]; dsimp only
      rw [hker]; dsimp only
      rw [counted_dynamicConv]
      simp only [hook, Option.getD_some, convHook]
      have hpos : (st.groups : ℚ) ≠ 0 := by exact_mod_cast g2.ne'
      have hin : (c.inC : ℚ) ≠ 0 := by
        have : c.inC = c.groups := hd.1.symm
        rw [this]; exact_mod_cast p1.1.pos.ne'
      rw [g9, hbias, hd.1]
      simp only [Option.isSome_none, Bool.false_eq_true, if_false, add_zero]
      rw [g6, q2, q1]
      rw [q1] at hpos
      field_simp
  have hrun1 : ∀ kinds, (run kinds (fun _ => (0, 0)) (calls b sz nodes vs) m).1 =
      (((calls b sz nodes vs).filter (·.mod = m)).map fun cl => (hook (kinds m) cl.inp cl.out).1).sum := by
    intro kinds
    rw [(run_eq _ _ _ _).1, zero_add]
  have hb' : (b : ℚ) ≠ 0 := by exact_mod_cast hb.ne'
  have hest : ∀ kinds, estimate [m] kinds (calls b sz nodes vs) (some b) =
      .ok ((((calls b sz nodes vs).filter (·.mod = m)).map fun cl => (hook (kinds m) cl.inp cl.out).1).sum / b,
        (run kinds (fun _ => (0, 0)) (calls b sz nodes vs) m).2) := by
    intro kinds
    unfold estimate average batchCount
    dsimp only
    rw [if_neg (by omega)]
    simp [hrun1]
  refine ⟨_, _, _, _, hest _, hest _, ?_, ?_⟩
  · rw [div_eq_iff hb']
    push_cast
    rw [List.map_map, ← List.sum_map_mul_right]
    congr 1
    apply List.map_congr_left
    intro cl hcl
    rw [List.mem_filter] at hcl
    rw [(hfact cl hcl.1 (by simpa using hcl.2)).1]
    push_cast
    simp [mul_comm]
  · rw [div_mul_eq_mul_div, div_mul_eq_mul_div, ← List.sum_map_mul_right, ← List.sum_map_mul_right]
    congr 2
    apply List.map_congr_left
    intro cl hcl
    rw [List.mem_filter] at hcl
    exact (hfact cl hcl.1 (by simpa using hcl.2)).2

/-- DISAGREEMENT: norm layers of the supernet should be counted like those of the exported network. Nothing is reported for them: neither the two operations
for every active number that comes in, nor the weight and bias of every active channel. -/
theorem C107_norms_violated [AddCommMonoid X] (corr : Nat → W → X → X) (h0 : ∀ m w, corr m w 0 = 0) (bc : Nat → B → X) (o : Ops X)
    (mods : Nat → Module W B X) {inputs : Nat} {nodes : List Node} {recs : List Rec} {s : S} (h : forward inputs nodes = .ok (recs, s))
    (hf : Fits o mods nodes recs) (φ : Elem → Bool) (hA : Admissible nodes recs φ) (hK : Kept φ nodes recs)
    (read : Tensor → Except Err (List Bool)) (hr : ∀ r ∈ recs, read r.inp = .ok (r.inp.map φ) ∧ read r.out = .ok (r.out.map φ))
    (hl : ∀ n ∈ nodes, n.module ≠ none → Runs n)
    {tbl : List (Nat × List Bool × List Bool)} (ht : register read (nodes.zip recs) = .ok tbl) {vs : List (List X)}
    (hv : evalAll (o.with (dynLayer corr bc mods tbl)) nodes [] = .ok vs)
    (kernel : Nat → Option (List Nat)) (m : Nat) (fs : List (X → X)) (hc : mods m = .chan fs) (b : Nat) (hb : 0 < b) (sz : X → List Nat) :
    estimate [m] (counted kernel mods tbl) (calls b sz nodes vs) (some b) = .ok (0, 0) ∧
    estimate [m] (exportedKind kernel mods tbl) (calls b sz nodes vs) (some b) =
      .ok (((((calls b sz nodes vs).filter (·.mod ∈ [m])).map fun c => 2 * c.inp.dims.prod).sum : Nat),
        (((calls b sz nodes vs).filter (·.mod ∈ [m])).map fun _ => (2 * count (masksOf tbl m).2 : Nat)).sum) := by
  obtain ⟨hs, t2⟩ := setting corr h0 bc o mods h hf φ hA hK read hr ht hv
  constructor
  · have := estimate_calls [m] (by simp) (counted kernel mods tbl) (calls b sz nodes vs) b hb (fun _ => 0) (fun _ => 0) (by
      intro cl _ hcl
      have hcl : cl.mod = m := by simpa using hcl
      rw [hcl]
      unfold counted
      rw [hc]; dsimp only [Layer.counted]
      rw [if_neg (by decide)]
      simp [hook])
    rw [this]
    simp
  · have := estimate_calls [m] (by simp) (exportedKind kernel mods tbl) (calls b sz nodes vs) b hb (fun c => 2 * c.inp.dims.prod)
      (fun _ => ((2 * count (masksOf tbl m).2 : Nat) : Int)) (by
      intro cl hcl hmod
      have hmod : cl.mod = m := by simpa using hmod
      obtain ⟨i, n, u, v, e1, e2, e3, e4, e5⟩ := call_run _ hs hl hcl
      rw [hmod] at e2
      have hrun := hl n (List.mem_of_getElem? e1) (by rw [e2]; simp)
      have hlen := (masks_fit o mods h hf φ tbl t2 e1 hrun e2).2 fs hc
      rw [hmod]
      unfold exportedKind exportModule
      rw [hc]; dsimp only
      rw [maskIndex_ok _ _ hlen]
      dsimp only [hook]
      rw [select_length _ _ hlen, e4]
      refine Prod.ext ?_ ?_
      · dsimp only [Shape.numel, shapeOf]
        congr 1
        simp
        ring
      · rfl)
    rw [this]
    congr 2
    induction (calls b sz nodes vs).filter (·.mod ∈ [m]) with
    | nil => rfl
    | cons a l ih => simp only [List.map_cons, List.sum_cons, ih]; push_cast; ring

/-- Linear layers on vectors: the FLOPs reported for the supernet are those of the exported network, one for every entry of the exported weight (the bias is
not counted). Missing: linear layers on longer tensors. -/
theorem C107_linear_partial [AddCommMonoid X] (corr : Nat → W → X → X) (h0 : ∀ m w, corr m w 0 = 0) (bc : Nat → B → X) (o : Ops X)
    (mods : Nat → Module W B X) {inputs : Nat} {nodes : List Node} {recs : List Rec} {s : S} (h : forward inputs nodes = .ok (recs, s))
    (hf : Fits o mods nodes recs) (φ : Elem → Bool) (hA : Admissible nodes recs φ) (hK : Kept φ nodes recs)
    (read : Tensor → Except Err (List Bool)) (hr : ∀ r ∈ recs, read r.inp = .ok (r.inp.map φ) ∧ read r.out = .ok (r.out.map φ))
    (hl : ∀ n ∈ nodes, n.module ≠ none → Runs n)
    {tbl : List (Nat × List Bool × List Bool)} (ht : register read (nodes.zip recs) = .ok tbl) {vs : List (List X)}
    (hv : evalAll (o.with (dynLayer corr bc mods tbl)) nodes [] = .ok vs)
    (kernel : Nat → Option (List Nat)) (ms : List Nat) (hn : ms.Nodup)
    (hm : ∀ m ∈ ms, kernel m = none ∧ ∃ c, mods m = .conv c ∧ c.groups = 1 ∧ ¬ Depthwise c) (b : Nat) (hb : 0 < b) (sz : X → List Nat)
    (hz : ∀ c ∈ calls b sz nodes vs, c.mod ∈ ms → c.inp.dims.length = 1 ∧ c.out.dims.length = 1) :
    (estimate ms (counted kernel mods tbl) (calls b sz nodes vs) (some b) =
      .ok (((((calls b sz nodes vs).filter (·.mod ∈ ms)).map fun c => entries mods tbl c.mod).sum : Nat),
        (((calls b sz nodes vs).filter (·.mod ∈ ms)).map fun c => (wholeSize mods c.mod : Int)).sum)) ∧
    estimate ms (exportedKind kernel mods tbl) (calls b sz nodes vs) (some b) =
      .ok (((((calls b sz nodes vs).filter (·.mod ∈ ms)).map fun c => entries mods tbl c.mod).sum : Nat),
        (((calls b sz nodes vs).filter (·.mod ∈ ms)).map fun c => (exportedSize mods tbl c.mod : Int)).sum) := by
  obtain ⟨hs, t2⟩ := setting corr h0 bc o mods h hf φ hA hK read hr ht hv
  have key : ∀ c ∈ calls b sz nodes vs, c.mod ∈ ms →
      hook (counted kernel mods tbl c.mod) c.inp c.out = (((b * entries mods tbl c.mod : Nat) : ℚ), (wholeSize mods c.mod : Int)) ∧
      hook (exportedKind kernel mods tbl c.mod) c.inp c.out = (((b * entries mods tbl c.mod : Nat) : ℚ), (exportedSize mods tbl c.mod : Int)) := by
    intro c hc hcm
    obtain ⟨i, n, u, v, e1, e2, e3, e4, e5⟩ := call_run _ hs hl hc
    obtain ⟨hker, cv, hcv, hg, hnd⟩ := hm c.mod hcm
    have hrun := hl n (List.mem_of_getElem? e1) (by rw [e2]; simp)
    obtain ⟨p1, p2, p3, _⟩ := (masks_fit o mods h hf φ tbl t2 e1 hrun e2).1 cv hcv
    obtain ⟨st, g1, g2, g3, g4, g5, g6, g7, g8, g9, g10, g11, _⟩ := conv_call corr bc mods tbl e3 hcv p1 p2 p3
    obtain ⟨q1, q2⟩ := g11 hnd
    have hgr : st.groups = 1 := by rw [q1, hg]
    rw [hgr, Nat.div_one] at g8
    have hent : entries mods tbl c.mod = st.outC * st.inC := by
      unfold entries; rw [g1]; dsimp only
      rw [sum_const List.length _ _ g8, g7]
    have hexp : exportedSize mods tbl c.mod = st.inC * st.outC + biasNumel st.bias.isSome st.outC := by
      unfold exportedSize; rw [g1]; dsimp only
      rw [held_eq g7 (by rw [hgr, Nat.div_one]; exact g8) g10, hgr, Nat.div_one, Nat.mul_one, Nat.mul_comm]
      rfl
    have hwhole : wholeSize mods c.mod = cv.inC * cv.outC + biasNumel cv.bias.isSome cv.outC := by
      unfold wholeSize; rw [hcv]; dsimp only
      have hc1 := p1.1.cols
      rw [hg] at hc1
      rw [held_eq p1.1.rows (by rw [hg]; exact hc1) p1.1.bias, hg, Nat.div_one, Nat.mul_one, Nat.mul_comm]
      rfl
    obtain ⟨z1, z2⟩ := hz c hc hcm
    have hi : c.inp = ⟨b, [u.length]⟩ := by
      rw [e4] at z1 ⊢
      unfold shapeOf at z1 ⊢
      simp only [List.length_cons, Nat.add_eq_right, List.length_eq_zero_iff] at z1
      rw [z1]
    have ho : c.out = ⟨b, [v.length]⟩ := by
      rw [e5] at z2 ⊢
      unfold shapeOf at z2 ⊢
      simp only [List.length_cons, Nat.add_eq_right, List.length_eq_zero_iff] at z2
      rw [z2]
    have hflops : ∀ p : Nat, hook (.linear p) c.inp c.out = (((b * entries mods tbl c.mod : Nat) : ℚ), (p : Int)) := by
      intro p
      rw [hi, ho, hent]
      simp [hook, Shape.numel, g4, g5]
      ring
    constructor
    · rw [show counted kernel mods tbl c.mod = .linear (wholeSize mods c.mod) by
        unfold counted; rw [hcv]; dsimp only; rw [hker, hwhole]; rfl]
      exact hflops _
    · rw [show exportedKind kernel mods tbl c.mod = .linear (exportedSize mods tbl c.mod) by
        unfold exportedKind; rw [g1]; dsimp only; rw [hker, hexp]]
      exact hflops _
  exact ⟨estimate_calls ms hn _ _ b hb (fun c => entries mods tbl c.mod) (fun c => (wholeSize mods c.mod : Int)) (fun c hc hm => (key c hc hm).1),
    estimate_calls ms hn _ _ b hb (fun c => entries mods tbl c.mod) (fun c => (exportedSize mods tbl c.mod : Int)) (fun c hc hm => (key c hc hm).2)⟩

/-- The residual block of `Verif/Props/PrunedNet.lean` with one of its three channels dropped: for its two convolutions, on maps of two by five, the supernet and the
exported network report the same, `60 + 40` operations and `6 + 4` parameters; for the linear layer the operations agree, the parameters do not; the norm layer is not counted. -/
example :
    let vs := (evalAll (toyOps.with (dynLayer (fun _ w x => w * x) (fun _ b => b) toyMods toyTbl)) toyNet []).toOption.getD []
    let kernel := fun m => if m = 3 then none else some [1, 1]
    let rep := fun (kinds : Nat → Estimator.Kind) (sz : List Nat) (ms : List Nat) => (estimate ms kinds (calls 4 (fun _ => sz) toyNet vs) (some 4)).toOption
    rep (counted kernel toyMods toyTbl) [2, 5] [0, 2] = some (100, 10) ∧ rep (exportedKind kernel toyMods toyTbl) [2, 5] [0, 2] = some (100, 10) ∧
      rep (counted kernel toyMods toyTbl) [] [3] = some (4, 8) ∧ rep (exportedKind kernel toyMods toyTbl) [] [3] = some (4, 6) ∧
      rep (counted kernel toyMods toyTbl) [2, 5] [1] = some (0, 0) ∧ rep (exportedKind kernel toyMods toyTbl) [2, 5] [1] = some (40, 4) := by
  decide +kernel

/-- The hypotheses hold for it. -/
example : (∃ s, forward 2 toyNet = .ok (toyRecs, s)) ∧ Fits toyOps toyMods toyNet toyRecs ∧ Admissible toyNet toyRecs toyKept ∧
    (∀ n ∈ toyNet, n.module ≠ none → Runs n) ∧ (∀ m ∈ [0, 2], ∃ c, toyMods m = .conv c ∧ ¬ Depthwise c) ∧
    register (fun t => .ok (t.map toyKept)) (toyNet.zip toyRecs) = .ok toyTbl := by
  refine ⟨⟨_, toy_forward⟩, toy_fits, toy_admissible, ?_, ?_, ?_⟩
  · intro n hn hm
    simp only [toyNet, List.mem_cons, List.not_mem_nil, or_false] at hn
    rcases hn with rfl | rfl | rfl | rfl | rfl | rfl | rfl | rfl
    · exact absurd rfl hm
    · exact Or.inl ⟨3, rfl⟩
    · exact Or.inr (Or.inr rfl)
    · exact absurd rfl hm
    · exact Or.inl ⟨3, rfl⟩
    · exact absurd rfl hm
    · exact Or.inl ⟨2, rfl⟩
    · exact absurd rfl hm
  · intro m hm
    simp only [List.mem_cons, List.not_mem_nil, or_false] at hm
    rcases hm with rfl | rfl
    · exact ⟨_, rfl, by simp [Depthwise]⟩
    · exact ⟨_, rfl, by simp [Depthwise]⟩
  · rw [toy_recs]; decide +kernel

/-- A convolution and a depthwise convolution. -/
def dwNet : List Node :=
  [⟨"x", .input 1, [], none⟩, ⟨"conv", .mix 4, [0], some 0⟩, ⟨"dw", .passUnion, [1], some 1⟩, ⟨"out", .stop, [2], none⟩]

/-- Its tensors. -/
def dwRecs : List Rec := ((forward 1 dwNet).toOption.getD ([], ⟨[], []⟩)).1

/-- Its modules. -/
def dwMods : Nat → Module Int Int Int
  | 0 => .conv ⟨1, 4, 1, [[1], [2], [3], [4]], none, none, none⟩
  | _ => .conv ⟨4, 4, 4, [[5], [6], [7], [8]], none, none, none⟩

/-- Its operations. -/
def dwOps : Ops Int := ⟨fun _ => [1], fun _ _ => .error .type, fun _ x => x, fun _ x y => x + y, fun _ x => [x]⟩

theorem dw_recs : dwRecs = [⟨[(1, 0)], [(1, 0)], [(1, 0)]⟩, ⟨[(1, 0)], [(2, 0), (2, 1), (2, 2), (2, 3)], [(2, 0), (2, 1), (2, 2), (2, 3)]⟩,
    ⟨[(2, 0), (2, 1), (2, 2), (2, 3)], [(2, 0), (2, 1), (2, 2), (2, 3)], [(2, 0), (2, 1), (2, 2), (2, 3)]⟩, ⟨[(3, 0)], [(3, 0)], [(3, 0)]⟩] := by
  decide +kernel

/-- Three of the four channels are dropped: the supernet reports a quarter of what the exported depthwise layer takes. -/
example :
    let tbl : List (Nat × List Bool × List Bool) := [(0, [true], [true, false, false, false]), (1, [true, false, false, false], [true, false, false, false])]
    let vs := (evalAll (dwOps.with (dynLayer (fun _ w x => w * x) (fun _ b => b) dwMods tbl)) dwNet []).toOption.getD []
    Fits dwOps dwMods dwNet dwRecs ∧ vs = [[1], [1], [5], []] ∧
    estimate [1] (counted (fun _ => some [2, 2]) dwMods tbl) (calls 1 (fun _ => [3, 3]) dwNet vs) (some 1) = .ok (9, 1) ∧
    estimate [1] (exportedKind (fun _ => some [2, 2]) dwMods tbl) (calls 1 (fun _ => [3, 3]) dwNet vs) (some 1) = .ok (36, 4) := by
  refine ⟨⟨?_, ?_, ?_⟩, by decide +kernel, by decide +kernel, by decide +kernel⟩
  · intro q hq
    rw [dw_recs] at hq
    simp only [dwNet, List.zip_cons_cons, List.zip_nil_right, List.mem_cons, List.not_mem_nil, or_false] at hq
    rcases hq with rfl | rfl | rfl | rfl
    · rfl
    · exact ⟨0, ⟨1, 4, 1, [[1], [2], [3], [4]], none, none, none⟩, rfl, rfl, ⟨⟨by decide, by decide, by decide, rfl, by decide, by simp,
        by simp, by simp⟩, rfl, rfl⟩, rfl, rfl, rfl⟩
    · exact Or.inr ⟨1, rfl, Or.inr ⟨⟨4, 4, 4, [[5], [6], [7], [8]], none, none, none⟩, rfl, ⟨⟨by decide, by decide, by decide, rfl, by decide, by simp,
        by simp, by simp⟩, rfl, rfl⟩, rfl, rfl, by decide, rfl⟩⟩
    · trivial
  · intro n hn hp
    simp only [dwNet, List.mem_cons, List.not_mem_nil, or_false] at hn
    rcases hn with rfl | rfl | rfl | rfl
    · exact ⟨1, rfl⟩
    all_goals cases hp
  · intro n hn i hi p hp hk
    have hlt : i < 3 := (show ∀ n ∈ dwNet, ∀ i ∈ n.prev, i < 3 by decide) n hn i hi
    apply (show ∀ i < 3, (dwNet[i]?).map Node.kind ≠ some .stop by decide) i hlt
    rw [hp, ← hk]
    rfl

end Verif.CountedNet
