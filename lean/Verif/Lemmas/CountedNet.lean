import Verif.Spec.CountedNet
import Verif.Lemmas.PrunedNet
import Verif.Lemmas.Estimator

/-! Helper lemmas for `Verif/Props/CountedNet.lean`. -/

namespace Verif.CountedNet
open Verif Verif.DynamicOps Verif.ChannelNodes Verif.PrunedNet Verif.Estimator

variable {W B X : Type}

theorem count_flatten (M : List (List Bool)) (k : Nat) (h : ∀ m ∈ M, count m = k) : count M.flatten = M.length * k := by
  rw [count, List.filter_flatten, List.length_flatten, List.map_map, sum_const (List.length ∘ List.filter id) k M (fun m hm => h m hm)]

/-- The sizes of the parameters of a layer with masks. -/
theorem params_facts {c : Conv W B} (h : c.WF) (hi : c.inMask ≠ none) {w : Weight W} {b : Option (List B)} (hp : c.params = .ok (w, b)) :
    (∀ r ∈ w.rows, r.length = w.cols) ∧ w.rows.length = count c.outM ∧
      (c.groups = 1 ∨ ¬ Depthwise c → w.cols * c.groups = count c.inM) ∧ (c.groups ≠ 1 → Depthwise c → w.cols = 1) ∧
      b = c.bias.map (select c.outM) := by
  have hil := inM_length h
  have hol := outM_length h
  have hbias : ∀ bs, c.bias = some bs → bs.length = c.outM.length := fun bs hb => by rw [h.bias bs hb, hol]
  unfold Conv.params at hp
  rw [if_neg (fun hc => hi hc.1)] at hp
  dsimp only at hp
  rw [show c.outMask.getD (List.replicate c.outC true) = c.outM from rfl, show c.inMask.getD (List.replicate c.inC true) = c.inM from rfl] at hp
  by_cases hg : c.groups = 1
  · rw [if_pos hg, dense_ok _ _ _ _ (by rw [hol, h.rows]) (fun r hr => by rw [h.cols r hr, hg, Nat.div_one, hil])
      (fun bs hb => by rw [h.bias bs hb, h.rows])] at hp
    simp only [Except.ok.injEq, Prod.mk.injEq] at hp
    obtain ⟨rfl, rfl⟩ := hp
    refine ⟨?_, ?_, fun _ => by rw [hg, Nat.mul_one], fun hc => absurd hg hc, rfl⟩
    · intro r hr
      obtain ⟨r0, hr0, rfl⟩ := List.mem_map.1 hr
      rw [select_length _ _ (by rw [hil, h.cols r0 (select_subset _ _ _ hr0), hg, Nat.div_one])]
    · rw [List.length_map, select_length _ _ (by rw [hol, h.rows])]
  · rw [if_neg hg] at hp
    by_cases hd : c.groups = c.inC ∧ c.inC = c.outC
    · rw [if_pos hd, maskIndex_ok _ _ (by rw [hol, h.rows])] at hp
      simp only [bind, Except.bind] at hp
      rw [biasIndex_ok _ _ hbias] at hp
      simp only [pure, Except.pure, Except.ok.injEq, Prod.mk.injEq] at hp
      obtain ⟨rfl, rfl⟩ := hp
      refine ⟨?_, ?_, fun hc => ?_, fun _ _ => ?_, rfl⟩
      · intro r hr
        exact h.cols r (select_subset _ _ _ hr)
      · exact select_length _ _ (by rw [hol, h.rows])
      · rcases hc with hc | hc
        · exact absurd hc hg
        · exact absurd hd hc
      · show c.inC / c.groups = 1
        rw [← hd.1]; exact Nat.div_self h.pos
    · rw [if_neg hd] at hp
      have hin : c.inC = c.groups * (c.inC / c.groups) := (Nat.mul_div_cancel' h.inDvd).symm
      have hout : c.outC = c.groups * (c.outC / c.groups) := (Nat.mul_div_cancel' h.outDvd).symm
      have hcols := h.cols
      have hrows := h.rows
      revert hin hout hcols hp
      unfold grouped
      generalize c.inC / c.groups = b'
      generalize c.outC / c.groups = a
      intro hp hin hout hcols
      obtain ⟨Mi, hMi, hMil, hMik, hMic⟩ := chunks_exists c.groups b' c.inM (by omega)
      obtain ⟨Mo, hMo, hMol, hMok, hMoc⟩ := chunks_exists c.groups a c.outM (by omega)
      obtain ⟨Wb, hWb, hWbl, hWbk, hWbc⟩ := chunks_exists c.groups a c.weight (by omega)
      dsimp only at hp
      rw [hMic, hMoc] at hp
      by_cases he1 : ∃ m ∈ Mi, count m ≠ count (Mi.headD [])
      · rw [if_pos he1] at hp; cases hp
      rw [if_neg he1] at hp
      by_cases he2 : ∃ m ∈ Mo, count m ≠ count (Mo.headD [])
      · rw [if_pos he2] at hp; cases hp
      rw [if_neg he2] at hp
      push Not at he1 he2
      have hWr := grouped_rows (groups := c.groups) (a := a) (by omega) hcols hWb hWbk
      have hks := keep_sizes Mo Mi Wb a b' _ _ (fun m hm => ⟨hMok m hm, he2 m hm⟩) (fun m hm => ⟨hMik m hm, he1 m hm⟩) hWr
      have hkl := keep_length Mo Mi Wb (by omega) (by omega)
      generalize hci : count (Mi.headD []) = ci at he1 hks hp
      generalize hco : count (Mo.headD []) = co at he2 hks hp
      have hKfl : (keep Mo Mi Wb).flatten.length = c.groups * co := by
        rw [List.length_flatten, List.map_congr_left (g := fun _ => co) (fun k hk => (hks k hk).1)]
        simp [hkl, hWbl]
      have hsk := select_keep Mo Mi Wb a b' (by omega) (by omega) hMok hMik hWr
      rw [← hWb] at hsk
      simp only [bind, Except.bind] at hp
      rw [maskIndex_ok _ _ (by
        rw [mask_length Mo Mi a b' (by omega) hMok hMik, List.length_flatten, sum_const _ b' _ hcols, hMol, hrows, hout]
        ring), hsk] at hp
      dsimp only at hp
      rw [biasIndex_ok _ _ hbias] at hp
      have hkr : ∀ r ∈ (keep Mo Mi Wb).flatten, r.length = ci := by
        intro r hr
        obtain ⟨k, hk, hr⟩ := List.mem_flatten.1 hr
        exact (hks k hk).2 r hr
      have hch := chunks_flatten ci (keep Mo Mi Wb).flatten hkr
      rw [hKfl] at hch
      rw [hch] at hp
      simp only [pure, Except.pure, Except.ok.injEq, Prod.mk.injEq] at hp
      obtain ⟨rfl, rfl⟩ := hp
      refine ⟨hkr, ?_, fun _ => ?_, fun _ hc => absurd hc hd, rfl⟩
      · show (keep Mo Mi Wb).flatten.length = _
        rw [hKfl, hMo, count_flatten Mo co he2, hMol]
      · show ci * c.groups = _
        rw [hMi, count_flatten Mi ci he1, hMil, Nat.mul_comm]

/-- The sizes of an exported layer. -/
theorem static_facts {c s : Conv W B} (h : c.WF) {mi : List Bool} (hi : c.inMask = some mi) (hs : c.toStatic = .ok s) :
    0 < s.groups ∧ s.groups ∣ s.inC ∧ s.outC = count c.outM ∧ s.weight.length = s.outC ∧ (∀ r ∈ s.weight, r.length = s.inC / s.groups) ∧
      s.bias = c.bias.map (select c.outM) ∧
      (¬ Depthwise c → s.groups = c.groups ∧ s.inC = count c.inM) ∧
      (c.groups ≠ 1 → Depthwise c → s.groups = count c.inM ∧ s.inC = count c.inM) := by
  unfold Conv.toStatic at hs
  cases hp : c.params with
  | error e => simp [hp, bind, Except.bind] at hs
  | ok p =>
    obtain ⟨w, b⟩ := p
    obtain ⟨f1, f2, f3, f4, f5⟩ := params_facts h (by rw [hi]; simp) hp
    simp only [hp, bind, Except.bind] at hs
    split at hs
    · simp [throw, throwThe, MonadExceptOf.throw] at hs
    · rename_i hc
      simp only [pure, Except.pure, Except.ok.injEq] at hs
      have hgp : 0 < c.staticGroups := by
        by_contra hn
        exact hc (Or.inl (by omega))
      have hin : c.inM = mi := by unfold Conv.inM; rw [hi]; rfl
      have hsg : c.staticGroups = if c.groups = c.inC ∧ c.inC = c.outC then count c.inM else c.groups := by
        unfold Conv.staticGroups; rw [hi, hin]
      subst hs
      refine ⟨hgp, Nat.dvd_mul_left _ _, f2, rfl, ?_, f5, ?_, ?_⟩
      · intro r hr
        show r.length = w.cols * c.staticGroups / c.staticGroups
        rw [Nat.mul_div_cancel _ hgp]; exact f1 r hr
      · intro hd
        have e : c.staticGroups = c.groups := by rw [hsg]; exact if_neg hd
        exact ⟨e, by show w.cols * c.staticGroups = _; rw [e]; exact f3 (Or.inr hd)⟩
      · intro hg hd
        have e : c.staticGroups = count c.inM := by rw [hsg]; exact if_pos hd
        exact ⟨e, by show w.cols * c.staticGroups = _; rw [e, f4 hg hd, Nat.one_mul]⟩

theorem evalAll_at (o : Ops X) : ∀ {l : List Node} {done us : List (List X)}, evalAll o l done = .ok us → ∀ (i : Nat) n, l[i]? = some n →
    ∃ ins v, valuesOf (us.take (done.length + i)) n.prev = .ok ins ∧ evalNode o n ins = .ok v ∧ us[done.length + i]? = some v
  | [], _, _, _, i, n, hn => by simp at hn
  | n :: l, done, us, h, i, n', hn => by
    obtain ⟨new, hnew⟩ := evalAll_prefix o h
    rw [evalAll] at h
    cases h1 : valuesOf done n.prev with
    | error e => rw [h1] at h; cases h
    | ok ins =>
      rw [h1] at h; dsimp only at h
      cases h2 : evalNode o n ins with
      | error e => rw [h2] at h; cases h
      | ok v =>
        rw [h2] at h; dsimp only at h
        cases i with
        | zero =>
          simp only [List.getElem?_cons_zero, Option.some.injEq] at hn
          subst hn
          refine ⟨ins, v, ?_, h2, ?_⟩
          · rw [hnew, Nat.add_zero, List.take_left' rfl]; exact h1
          · obtain ⟨new', hnew'⟩ := evalAll_prefix o h
            rw [hnew', Nat.add_zero]; simp
        | succ i =>
          simp only [List.getElem?_cons_succ] at hn
          have := evalAll_at o h i n' hn
          rw [List.length_append, List.length_singleton, show done.length + 1 + i = done.length + (i + 1) by omega] at this
          exact this

theorem evalAll_length (o : Ops X) : ∀ {l : List Node} {done us : List (List X)}, evalAll o l done = .ok us → us.length = done.length + l.length
  | [], done, us, h => by cases h; simp
  | n :: l, done, us, h => by
    rw [evalAll] at h
    cases h1 : valuesOf done n.prev with
    | error e => rw [h1] at h; cases h
    | ok ins =>
      rw [h1] at h; dsimp only at h
      cases h2 : evalNode o n ins with
      | error e => rw [h2] at h; cases h
      | ok v =>
        rw [h2] at h; dsimp only at h
        have := evalAll_length o h
        rw [this]; simp; omega

/-- The values a convolution takes and gives. -/
theorem convFn_sizes {Y : Type} [AddCommMonoid Y] (corr : W → X → Y) (bc : B → Y) (x : List X) (w : Weight W) (b : Option (List B)) (g : Nat) {y : List Y}
    (h : convFn corr bc x w b g = .ok y) :
    x.length = w.cols * g ∧ y.length = w.rows.length ∧ ∀ bs, b = some bs → bs.length = w.rows.length := by
  unfold convFn at h
  by_cases hc : g = 0 ∨ w.rows.length % g ≠ 0 ∨ x.length ≠ w.cols * g ∨ (∃ bs, b = some bs ∧ bs.length ≠ w.rows.length)
  · rw [if_pos hc] at h; cases h
  · rw [if_neg hc] at h
    push Not at hc
    obtain ⟨h1, h2, h3, h4⟩ := hc
    cases h
    have hlen : ((List.zipWith (fun rows xs => rows.map (dot corr xs))
        (chunks g (w.rows.length / g) w.rows) (chunks g w.cols x)).flatten).length = w.rows.length := by
      rw [List.length_flatten, sum_const List.length (w.rows.length / g)]
      · rw [List.length_zipWith, chunks_length, chunks_length, Nat.min_self]
        exact Nat.mul_div_cancel' (Nat.dvd_of_mod_eq_zero h2)
      · intro l hl
        rw [List.mem_iff_getElem] at hl
        obtain ⟨j, hj, rfl⟩ := hl
        rw [List.getElem_zipWith, List.length_map]
        exact chunks_len g (w.rows.length / g) w.rows (Nat.mul_div_cancel' (Nat.dvd_of_mod_eq_zero h2)).symm _ (List.getElem_mem _)
    refine ⟨h3, ?_, h4⟩
    cases b with
    | none => exact hlen
    | some bs =>
      simp only [addBias, List.length_zipWith]
      rw [hlen, h4 bs rfl, Nat.min_self]

theorem mem_calls {b : Nat} {sz : X → List Nat} {nodes : List Node} {vs : List (List X)} {c : Call} (h : c ∈ calls b sz nodes vs) :
    ∃ (i : Nat) (n : Node) (v : List X) (j : Nat) (rest : List Nat) (u : List X), nodes[i]? = some n ∧ vs[i]? = some v ∧ n.module = some c.mod ∧
      n.prev = j :: rest ∧ vs[j]? = some u ∧ c.inp = shapeOf b sz u ∧ c.out = shapeOf b sz v := by
  obtain ⟨⟨n, v⟩, hq, hc⟩ := List.mem_filterMap.1 h
  obtain ⟨i, hi⟩ := List.mem_iff_getElem?.1 hq
  rw [List.getElem?_zip_eq_some] at hi
  dsimp only at hc hi
  cases hm : n.module with
  | none => rw [hm] at hc; cases hc
  | some m =>
    cases hp : n.prev with
    | nil => rw [hm, hp] at hc; cases hc
    | cons j rest =>
      rw [hm, hp] at hc
      dsimp only at hc
      obtain ⟨u, hu, rfl⟩ := Option.map_eq_some_iff.1 hc
      exact ⟨i, n, v, j, rest, u, hi.1, hi.2, hm, hp, hu, rfl, rfl⟩

theorem runs_eval (o : Ops X) {n : Node} (hn : Runs n) {m : Nat} (hm : n.module = some m) {u : List X} {rest : List (List X)} {v : List X}
    (h : evalNode o n (u :: rest) = .ok v) : o.layer m u = .ok v := by
  obtain ⟨name, kind, prev, module⟩ := n
  dsimp only at hm
  subst hm
  rcases hn with ⟨out, hk⟩ | ⟨g, out, hk⟩ | hk <;> dsimp only at hk <;> subst hk
  · cases rest with
    | nil => exact h
    | cons a l => cases h
  · cases rest with
    | nil => exact h
    | cons a l => cases h
  · simpa [evalNode, runLayer] using h

/-- The call of a module in the network. -/
theorem call_run (o : Ops X) {nodes : List Node} {vs : List (List X)} (hv : evalAll o nodes [] = .ok vs) (hr : ∀ n ∈ nodes, n.module ≠ none → Runs n)
    {b : Nat} {sz : X → List Nat} {c : Call} (h : c ∈ calls b sz nodes vs) :
    ∃ (i : Nat) (n : Node) (u v : List X), nodes[i]? = some n ∧ n.module = some c.mod ∧ o.layer c.mod u = .ok v ∧ c.inp = shapeOf b sz u ∧
      c.out = shapeOf b sz v := by
  obtain ⟨i, n, v, j, rest, u, h1, h2, h3, h4, h5, h6, h7⟩ := mem_calls h
  obtain ⟨ins, v', e1, e2, e3⟩ := evalAll_at o hv i n h1
  simp only [List.length_nil, Nat.zero_add] at e1 e3
  rw [h2] at e3
  cases e3
  rw [h4] at e1
  cases ins with
  | nil =>
    rw [valuesOf] at e1
    cases h8 : (vs.take i)[j]? with
    | none => rw [h8] at e1; cases e1
    | some w =>
      rw [h8] at e1
      cases h9 : valuesOf (vs.take i) rest with
      | error e => rw [h9] at e1; cases e1
      | ok q => rw [h9] at e1; cases e1
  | cons w ins =>
    have hw := valuesOf_head e1
    have : vs[j]? = some w := by
      rw [List.getElem?_take] at hw
      split at hw
      · exact hw
      · cases hw
    rw [h5] at this
    cases this
    exact ⟨i, n, u, v, h1, h3, runs_eval o (hr n (List.mem_of_getElem? h1) (by rw [h3]; simp)) h3 e2, h6, h7⟩

/-- The masks of a convolution have its sizes. -/
theorem masks_fit (o : Ops X) (mods : Nat → Module W B X) {inputs : Nat} {nodes : List Node} {recs : List Rec} {s : S}
    (h : forward inputs nodes = .ok (recs, s)) (hf : Fits o mods nodes recs) (φ : Elem → Bool) (tbl : List (Nat × List Bool × List Bool))
    (ht : ∀ q ∈ nodes.zip recs, ∀ m, q.1.module = some m → masksOf tbl m = (q.2.inp.map φ, q.2.out.map φ)) {i : Nat} {n : Node}
    (hi : nodes[i]? = some n) (hn : Runs n) {m : Nat} (hm : n.module = some m) :
    (∀ c, mods m = .conv c → Plain c ∧ (masksOf tbl m).1.length = c.inC ∧ (masksOf tbl m).2.length = c.outC ∧ (Depthwise c → c.groups ≠ 1 →
      (masksOf tbl m).1 = (masksOf tbl m).2)) ∧
    ∀ fs, mods m = .chan fs → (masksOf tbl m).2.length = fs.length := by
  obtain ⟨r, hr, hcase⟩ := (graph_made h).2 i n hi
  have hq : (n, r) ∈ nodes.zip recs := List.mem_of_getElem? (i := i) (by rw [List.getElem?_zip_eq_some]; exact ⟨hi, hr⟩)
  have hfit := hf.node (n, r) hq
  have hmask := ht (n, r) hq m hm
  obtain ⟨ts, hmade⟩ : ∃ ts, Made n.kind ts r := by
    rcases hcase with ⟨_, t, hm⟩ | ⟨ts, _, hm⟩
    · exact ⟨_, hm⟩
    · exact ⟨_, hm⟩
  rw [hmask]
  dsimp only
  rw [List.length_map, List.length_map]
  obtain ⟨name, kind, prev, module⟩ := n
  dsimp only at hm hmade
  subst hm
  rcases hn with ⟨out, hk⟩ | ⟨g, out, hk⟩ | hk <;> dsimp only at hk <;> subst hk
  · obtain ⟨m', c, e1, e2, e3, e4, e5, e6⟩ := hfit
    cases e1
    refine ⟨fun c' hc' => ?_, fun fs hfs => by rw [e2] at hfs; cases hfs⟩
    rw [e2] at hc'; cases hc'
    exact ⟨e3, e5.symm, by rw [e6]; exact hmade.2.2, fun _ hg => absurd e4 hg⟩
  · obtain ⟨m', c, e1, e2, e3, e4, e5, e6, e7, e8⟩ := hfit
    cases e1
    refine ⟨fun c' hc' => ?_, fun fs hfs => by rw [e2] at hfs; cases hfs⟩
    rw [e2] at hc'; cases hc'
    exact ⟨e3, e7.symm, by rw [e8]; exact hmade.2.2, fun hd => absurd hd e6⟩
  · obtain ⟨_, _, hout⟩ := hmade
    rcases hfit with hfit | ⟨m', e1, hfit⟩
    · cases hfit
    · cases e1
      rcases hfit with ⟨fs, e2, e3⟩ | ⟨c, e2, e3, e4, e5, e6, e7⟩
      · refine ⟨fun c hc => (by rw [e2] at hc; cases hc), fun fs' hfs => ?_⟩
        rw [e2] at hfs; cases hfs
        rw [hout]; exact e3.symm
      · refine ⟨fun c' hc' => ?_, fun fs hfs => by rw [e2] at hfs; cases hfs⟩
        rw [e2] at hc'; cases hc'
        refine ⟨e3, e7.symm, by rw [hout, ← e5]; exact e7.symm, fun _ _ => by rw [hout]⟩

/-- The convolution of a call in the exported network. -/
theorem conv_call [AddCommMonoid X] (corr : Nat → W → X → X) (bc : Nat → B → X) (mods : Nat → Module W B X)
    (tbl : List (Nat × List Bool × List Bool)) {m : Nat} {u v : List X} (h : staticLayer corr bc mods tbl m u = .ok v) {c : Conv W B} (hc : mods m = .conv c)
    (hp : Plain c) (h1 : (masksOf tbl m).1.length = c.inC) (h2 : (masksOf tbl m).2.length = c.outC) :
    ∃ s, exportModule mods tbl m = .ok (.conv s) ∧ 0 < s.groups ∧ s.groups ∣ s.inC ∧ u.length = s.inC ∧ v.length = s.outC ∧
      s.outC = count (masksOf tbl m).2 ∧ s.weight.length = s.outC ∧ (∀ r ∈ s.weight, r.length = s.inC / s.groups) ∧
      s.bias.isSome = c.bias.isSome ∧ (∀ bs, s.bias = some bs → bs.length = s.outC) ∧
      (¬ Depthwise c → s.groups = c.groups ∧ s.inC = count (masksOf tbl m).1) ∧
      (c.groups ≠ 1 → Depthwise c → s.groups = count (masksOf tbl m).1 ∧ s.inC = count (masksOf tbl m).1) := by
  unfold staticLayer at h
  unfold exportModule at h ⊢
  rw [hc] at h ⊢
  dsimp only at h ⊢
  have hwf := masked_wf (p := masksOf tbl m) hp h1 h2
  cases hs : (masked c (masksOf tbl m)).toStatic with
  | error e => rw [hs] at h; cases h
  | ok s =>
    rw [hs] at h
    dsimp only at h ⊢
    obtain ⟨f1, f2, f3, f4, f5, f6, f7, f8⟩ := static_facts hwf (mi := (masksOf tbl m).1) rfl hs
    obtain ⟨g1, g2, g3⟩ := convFn_sizes _ _ _ _ _ _ (show convFn (corr m) (bc m) u ⟨s.weight, s.inC / s.groups⟩ s.bias s.groups = .ok v from h)
    dsimp only at g1 g2 g3
    rw [Nat.div_mul_cancel f2] at g1
    refine ⟨s, rfl, f1, f2, g1, g2.trans f4, f3, f4, f5, ?_, fun bs hb => (g3 bs hb).trans f4, f7, f8⟩
    rw [f6, Option.isSome_map]
    rfl

/-- What an ordinary convolution holds. -/
theorem held_eq {s : Conv W B} {k : Nat} (h1 : s.weight.length = s.outC) (h2 : ∀ r ∈ s.weight, r.length = s.inC / s.groups)
    (h3 : ∀ bs, s.bias = some bs → bs.length = s.outC) :
    held k s = s.outC * (s.inC / s.groups) * k + if s.bias.isSome then s.outC else 0 := by
  unfold held
  rw [sum_const List.length _ _ h2, h1]
  cases hb : s.bias with
  | none => simp
  | some bs => simp [h3 bs hb]

theorem hook_exported {s : Conv W B} {k : List Nat} (hg : 0 < s.groups) (hd : s.groups ∣ s.inC) (h1 : s.weight.length = s.outC)
    (h2 : ∀ r ∈ s.weight, r.length = s.inC / s.groups) (h3 : ∀ bs, s.bias = some bs → bs.length = s.outC) (b : Nat) (sz : X → List Nat)
    (u v : List X) (hv : v.length = s.outC) :
    hook (.conv k s.inC s.outC s.groups s.bias.isSome) (shapeOf b sz u) (shapeOf b sz v) =
      (((b * (((shapeOf b sz v).dims.drop 1).prod * held k.prod s) : Nat) : ℚ), (held k.prod s : Int)) := by
  refine Prod.ext ?_ ?_
  · have hf : (Estimator.Kind.conv k s.inC s.outC s.groups s.bias.isSome).Fits (shapeOf b sz u) (shapeOf b sz v) :=
      ⟨hg, hd, rfl, by simp [shapeOf, hv]⟩
    rw [hook_work _ _ _ hf]
    dsimp only
    congr 1
    rw [held_eq h1 h2 h3]
    unfold Kind.work Shape.numel shapeOf
    simp only [List.prod_cons, List.drop_one, List.tail_cons]
    rw [hv]
    cases s.bias.isSome <;> simp <;> ring
  · have hf : (Estimator.Kind.conv k s.inC s.outC s.groups s.bias.isSome).Valid := ⟨hg, hd⟩
    rw [hook_params _ _ _ hf, held_eq h1 h2 h3]
    rfl

/-- Sums over the calls of some modules. -/
theorem estimate_calls (ms : List Nat) (hn : ms.Nodup) (kinds : Nat → Estimator.Kind) (cs : List Call) (b : Nat) (hb : 0 < b) (f : Call → Nat)
    (p : Call → Int) (h : ∀ c ∈ cs, c.mod ∈ ms → hook (kinds c.mod) c.inp c.out = (((b * f c : Nat) : ℚ), p c)) :
    estimate ms kinds cs (some b) = .ok ((((cs.filter (·.mod ∈ ms)).map f).sum : Nat), ((cs.filter (·.mod ∈ ms)).map p).sum) := by
  have hfil : ∀ m ∈ ms, cs.filter (·.mod = m) = (cs.filter (·.mod ∈ ms)).filter (·.mod = m) := by
    intro m hm
    rw [List.filter_filter]
    apply List.filter_congr
    intro c _
    by_cases hc : c.mod = m
    · simp [hc, hm]
    · simp [hc]
  have hb' : (b : ℚ) ≠ 0 := by exact_mod_cast hb.ne'
  unfold estimate average batchCount
  dsimp only
  rw [if_neg (by omega)]
  congr 1
  refine Prod.ext ?_ ?_
  · dsimp only
    have e : (ms.map fun m => (run kinds (fun _ => (0, 0)) cs m).1) =
        ms.map fun m => (((cs.filter (·.mod ∈ ms)).filter (·.mod = m)).map fun c => ((b * f c : Nat) : ℚ)).sum := by
      apply List.map_congr_left
      intro m hm
      rw [(run_eq _ _ _ _).1]
      simp only [zero_add]
      rw [← hfil m hm]
      congr 1
      apply List.map_congr_left
      intro c hc
      rw [List.mem_filter] at hc
      have hcm : c.mod = m := by simpa using hc.2
      rw [← hcm, h c hc.1 (by rw [hcm]; exact hm)]
    rw [e, sum_by_mod ms hn _ _ (fun c hc => by simpa using (List.mem_filter.1 hc).2)]
    rw [div_eq_iff hb']
    push_cast
    rw [← List.sum_map_mul_right]
    rw [List.map_map]
    congr 1
    apply List.map_congr_left
    intro c _
    simp [mul_comm]
  · dsimp only
    have e : (ms.map fun m => (run kinds (fun _ => (0, 0)) cs m).2) =
        ms.map fun m => (((cs.filter (·.mod ∈ ms)).filter (·.mod = m)).map p).sum := by
      apply List.map_congr_left
      intro m hm
      rw [(run_eq _ _ _ _).2]
      simp only [zero_add]
      rw [← hfil m hm]
      congr 1
      apply List.map_congr_left
      intro c hc
      rw [List.mem_filter] at hc
      have hcm : c.mod = m := by simpa using hc.2
      rw [← hcm, h c hc.1 (by rw [hcm]; exact hm)]
    rw [e]
    have := sum_by_mod ms hn (cs.filter (·.mod ∈ ms)) (fun c => ((p c : Int) : ℚ)) (fun c hc => by simpa using (List.mem_filter.1 hc).2)
    have hcast : ∀ l : List Call, (l.map fun c => ((p c : Int) : ℚ)).sum = (((l.map p).sum : Int) : ℚ) := by
      intro l
      push_cast
      rw [List.map_map]
      rfl
    have h2 : ((((ms.map fun m => (((cs.filter (·.mod ∈ ms)).filter (·.mod = m)).map p).sum).sum : Int)) : ℚ) =
        (((cs.filter (·.mod ∈ ms)).map p).sum : Int) := by
      rw [← hcast, ← this]
      push_cast
      rw [List.map_map]
      congr 1
      apply List.map_congr_left
      intro m _
      rw [Function.comp_apply, hcast]
    exact_mod_cast h2

/-- The network with its masks. -/
theorem setting [AddCommMonoid X] (corr : Nat → W → X → X) (h0 : ∀ m w, corr m w 0 = 0) (bc : Nat → B → X) (o : Ops X)
    (mods : Nat → Module W B X) {inputs : Nat} {nodes : List Node} {recs : List Rec} {s : S} (h : forward inputs nodes = .ok (recs, s))
    (hf : Fits o mods nodes recs) (φ : Elem → Bool) (hA : Admissible nodes recs φ) (hK : Kept φ nodes recs)
    (read : Tensor → Except Err (List Bool)) (hr : ∀ r ∈ recs, read r.inp = .ok (r.inp.map φ) ∧ read r.out = .ok (r.out.map φ))
    {tbl : List (Nat × List Bool × List Bool)} (ht : register read (nodes.zip recs) = .ok tbl) {vs : List (List X)}
    (hv : evalAll (o.with (dynLayer corr bc mods tbl)) nodes [] = .ok vs) :
    evalAll (o.with (staticLayer corr bc mods tbl)) nodes [] = .ok vs ∧
      ∀ q ∈ nodes.zip recs, ∀ m, q.1.module = some m → masksOf tbl m = (q.2.inp.map φ, q.2.out.map φ) := by
  obtain ⟨tbl', t1, t2⟩ := register_ok read φ (nodes.zip recs) (fun q hq => hr q.2 (List.of_mem_zip hq).2) hA.shared
  rw [ht] at t1
  cases t1
  obtain ⟨_, tbl', _, vs', _, t1, _, r2, r3, _⟩ := faithful_of corr h0 bc o mods h hf φ hA hK read hr
  rw [ht] at t1
  cases t1
  rw [hv] at r2
  cases r2
  exact ⟨r3, t2⟩

theorem forall₂_filterMap {A B' C D : Type} {R : C → D → Prop} {f : A → Option C} {g : B' → Option D} {l : List A} {l' : List B'}
    (h : List.Forall₂ (fun a b => Option.Rel R (f a) (g b)) l l') : List.Forall₂ R (l.filterMap f) (l'.filterMap g) := by
  induction h with
  | nil => exact .nil
  | @cons a b l l' hab _ ih =>
    rw [List.filterMap_cons, List.filterMap_cons]
    cases hf : f a <;> cases hg : g b <;> rw [hf, hg] at hab
    · exact ih
    · cases hab
    · cases hab
    · cases hab with
      | some hR => exact .cons hR ih

theorem forall₂_filter_mod {R : Call → Call → Prop} (ms : List Nat) (hR : ∀ c c', R c c' → c.mod = c'.mod) {l l' : List Call}
    (h : List.Forall₂ R l l') : List.Forall₂ R (l.filter (·.mod ∈ ms)) (l'.filter (·.mod ∈ ms)) := by
  induction h with
  | nil => exact .nil
  | @cons a b l l' hab _ ih =>
    rw [List.filter_cons, List.filter_cons, hR a b hab]
    split
    · exact .cons hab ih
    · exact ih

theorem sum_le_nat {A C : Type} {R : A → C → Prop} {f : A → Nat} {g : C → Nat} {l : List A} {l' : List C} (h : List.Forall₂ R l l')
    (hle : ∀ a ∈ l, ∀ b ∈ l', R a b → f a ≤ g b) : (l.map f).sum ≤ (l'.map g).sum := by
  induction h with
  | nil => exact le_refl _
  | @cons a b l l' hab _ ih =>
    rw [List.map_cons, List.map_cons, List.sum_cons, List.sum_cons]
    exact Nat.add_le_add (hle a List.mem_cons_self b List.mem_cons_self hab)
      (ih fun x hx y hy => hle x (List.mem_cons_of_mem _ hx) y (List.mem_cons_of_mem _ hy))

/-- The calls of two runs of the same network are the same up to the tensors. -/
theorem calls_pair {b : Nat} {sz : X → List Nat} {nodes : List Node} {vs vs' : List (List X)} (h : vs.length = nodes.length)
    (h' : vs'.length = nodes.length) :
    List.Forall₂ (fun c c' : Call => c.mod = c'.mod ∧ ∃ (i : Nat) (n : Node) (v v' : List X), nodes[i]? = some n ∧ n.module = some c.mod ∧
      vs[i]? = some v ∧ vs'[i]? = some v' ∧ c.out = shapeOf b sz v ∧ c'.out = shapeOf b sz v') (calls b sz nodes vs) (calls b sz nodes vs') := by
  unfold calls
  apply forall₂_filterMap
  rw [List.forall₂_iff_get]
  refine ⟨by simp [h, h'], ?_⟩
  intro i h1 h2
  simp only [List.get_eq_getElem, List.getElem_zip]
  have hi : i < nodes.length := by
    rw [List.length_zip] at h1
    omega
  generalize hn : nodes[i] = n
  have hn' : nodes[i]? = some n := by rw [List.getElem?_eq_getElem hi, hn]
  cases hm : n.module with
  | none => exact .none
  | some m =>
    cases hp : n.prev with
    | nil => exact .none
    | cons j rest =>
      dsimp only
      by_cases hj : j < nodes.length
      · rw [List.getElem?_eq_getElem (by omega : j < vs.length), List.getElem?_eq_getElem (by omega : j < vs'.length)]
        refine .some ⟨rfl, i, n, vs[i], vs'[i], hn', hm, ?_, ?_, rfl, rfl⟩
        · exact List.getElem?_eq_getElem (by omega)
        · exact List.getElem?_eq_getElem (by omega)
      · rw [List.getElem?_eq_none (by omega : vs.length ≤ j), List.getElem?_eq_none (by omega : vs'.length ≤ j)]
        exact .none

theorem count_map_le {φ ψ : Elem → Bool} (h : ∀ x, φ x = true → ψ x = true) (l : List Elem) : count (l.map φ) ≤ count (l.map ψ) := by
  unfold count
  induction l with
  | nil => exact le_refl _
  | cons a l ih =>
    rw [List.map_cons, List.map_cons, List.filter_cons, List.filter_cons]
    cases h1 : φ a
    · cases h2 : ψ a
      · simpa using ih
      · simp
        omega
    · have := h a h1
      simpa [this] using ih

end Verif.CountedNet
