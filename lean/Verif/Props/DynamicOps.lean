import Verif.Lemmas.DynamicOps

namespace Verif.DynamicOps
open Verif

variable {W X Y B : Type}

/-- With no mask registered the dynamic layer is the layer itself. -/
theorem C27_unmasked [AddCommMonoid Y] (corr : W → X → Y) (bc : B → Y) (c : Conv W B) (h : c.WF)
    (hi : c.inMask = none) (ho : c.outMask = none) (x : List X) (hx : x.length = c.inC) :
    c.forward corr bc x = c.staticForward corr bc x := by
  unfold Conv.forward Conv.params Conv.staticForward
  simp only [hi, ho, and_self, if_true, bind, Except.bind]
  split
  · rename_i hc
    rw [hx, hc.1]
  · rfl

/-- Ordinary convolutions: for all masks that leave an input channel, the dynamic layer on
the active input channels gives the active outputs of the full layer on the input with the
other channels zeroed. -/
theorem C27_conv [Zero X] [AddCommMonoid Y] (corr : W → X → Y) (h0 : ∀ w, corr w 0 = 0) (bc : B → Y)
    (c : Conv W B) (h : c.WF) (hg : c.groups = 1) (hact : true ∈ c.inM) (x : List X) (hx : x.length = c.inC) :
    c.forward corr bc (active c.inM x) =
      (c.full.staticForward corr bc (zeroOff c.inM x)).map (active c.outM) := by
  have hil := inM_length h
  have hol := outM_length h
  have hcols : ∀ r ∈ c.weight, r.length = x.length := fun r hr => by rw [h.cols r hr, hg, hx, Nat.div_one]
  have hbias : ∀ bs, c.bias = some bs → bs.length = c.weight.length := fun bs hb => by rw [h.bias bs hb, h.rows]
  have hfull : c.full.staticForward corr bc (zeroOff c.inM x) =
      .ok (addBias bc c.bias (c.weight.map (dot corr (zeroOff c.inM x)))) := by
    unfold Conv.staticForward Conv.full
    simp only [hg, Nat.div_one]
    exact dense_conv _ _ _ _ _ _ (by rw [zeroOff_length _ _ (by omega), hx]) hbias
  rw [hfull, map_ok, ← select_eq_active, ← select_eq_active]
  have hsl : (select c.inM x).length = count c.inM := select_length _ _ (by omega)
  have hgr : (if c.groups = c.inC ∧ c.inC = c.outC then (select c.inM x).length else c.groups) = 1 := by
    split
    · rename_i hc
      have h1 := count_pos hact
      have h2 := count_le c.inM
      omega
    · exact hg
  unfold Conv.forward
  simp only [hgr]
  unfold Conv.params
  rw [if_pos hg]
  split
  · rename_i hm
    have hi : c.inM = List.replicate x.length true := by unfold Conv.inM; rw [hm.1, hx]; rfl
    have ho : c.outM = List.replicate c.weight.length true := by unfold Conv.outM; rw [hm.2, h.rows]; rfl
    simp only [bind, Except.bind]
    rw [hi, zeroOff_true, select_true, hg, Nat.div_one, dense_conv _ _ _ _ _ _ hx hbias, ho]
    have hl : (addBias bc c.bias (c.weight.map (dot corr x))).length = c.weight.length := by
      cases hb : c.bias with
      | none => simp [addBias]
      | some bs => simp [addBias, hbias bs hb]
    rw [← hl, select_true]
  · exact dense_main corr h0 bc c.inM c.outM c.weight c.bias x (by omega) (by rw [hol, h.rows]) hcols hbias

/-- Depthwise convolutions, when the same channels are kept at input and output. Missing: other masks, see
`C27_depthwise_violated`. -/
theorem C27_depthwise_partial [Zero X] [AddCommMonoid Y] (corr : W → X → Y) (bc : B → Y)
    (c : Conv W B) (h : c.WF) (hg : c.groups = c.inC) (hio : c.inC = c.outC) (hm : c.inM = c.outM)
    (hact : true ∈ c.inM) (h1 : c.groups ≠ 1) (x : List X) (hx : x.length = c.inC) :
    c.forward corr bc (active c.inM x) =
      (c.full.staticForward corr bc (zeroOff c.inM x)).map (active c.outM) := by
  have hil := inM_length h
  have hol := outM_length h
  have hbias : ∀ bs, c.bias = some bs → bs.length = c.weight.length := fun bs hb => by rw [h.bias bs hb, h.rows]
  have hrows := h.rows
  have hpos := h.pos
  have hone : c.inC / c.groups = 1 := by rw [hg]; exact Nat.div_self (by omega)
  have hfull : c.full.staticForward corr bc (zeroOff c.inM x) =
      .ok (addBias bc c.bias (List.zipWith (fun r a => dot corr [a] r) c.weight (zeroOff c.inM x))) := by
    unfold Conv.staticForward Conv.full
    simp only [hone]
    have : c.groups = c.weight.length := by omega
    rw [this]
    exact depthwise_conv _ _ _ _ _ (by rw [zeroOff_length _ _ (by omega)]; omega) (by omega) hbias
  rw [hfull, map_ok, ← select_eq_active, ← select_eq_active]
  have hsl : (select c.inM x).length = count c.inM := select_length _ _ (by omega)
  have hwl : (select c.outM c.weight).length = count c.outM := select_length _ _ (by omega)
  have hcp := count_pos hact
  unfold Conv.forward
  simp only [if_pos (And.intro hg hio), hsl]
  -- both branches give the selected rows
  have hpar : c.params = .ok (⟨select c.outM c.weight, 1⟩, c.bias.map (select c.outM)) := by
    unfold Conv.params
    split
    · rename_i hmm
      have ho : c.outM = List.replicate c.weight.length true := by unfold Conv.outM; rw [hmm.2, hrows]; rfl
      rw [hone, ho, select_true]
      cases hb : c.bias with
      | none => rfl
      | some bs => rw [← hbias bs hb]; simp [select_true]
    · simp only [if_neg h1, if_pos (And.intro hg hio)]
      have e : c.outMask.getD (List.replicate c.outC true) = c.outM := rfl
      simp only [e, bind, Except.bind]
      rw [maskIndex_ok _ _ (by omega)]
      simp only []
      rw [biasIndex_ok _ _ (fun bs hb => by rw [hbias bs hb]; omega), hone]
      rfl
  rw [hpar]
  simp only [bind, Except.bind]
  have hk : count c.inM = (select c.outM c.weight).length := by rw [hwl, hm]
  rw [hk, depthwise_conv _ _ _ _ _ (by rw [hsl, hk]) (by omega) (by
    intro bs hb
    cases hb0 : c.bias with
    | none => rw [hb0] at hb; simp at hb
    | some b0 =>
      rw [hb0] at hb; simp at hb; subst hb
      rw [hwl, select_length _ _ (by rw [hbias b0 hb0]; omega)])]
  rw [hm]
  have hz : (zeroOff c.outM x).length = x.length := zeroOff_length _ _ (by omega)
  rw [← addBias_select _ _ _ _ (by simp [hz]; omega) (fun bs hb => by rw [hbias bs hb]; omega)]
  congr 2
  rw [select_zipWith _ _ _ _ (by omega) (by omega)]
  exact select_zeroOff _ _ _ _ (by omega) (by omega)

/-- Grouped convolutions, when each group keeps the same numbers of channels (the kept
positions may differ between groups). Missing: groups that keep different numbers, which are refused (`C27_grouped_uneven`). -/
theorem C27_grouped_partial [Zero X] [AddCommMonoid Y] (corr : W → X → Y) (h0 : ∀ w, corr w 0 = 0) (bc : B → Y)
    (c : Conv W B) (h : c.WF) (hg1 : c.groups ≠ 1) (hnd : ¬ (c.groups = c.inC ∧ c.inC = c.outC))
    (hi : Even c.groups (c.inC / c.groups) c.inM) (ho : Even c.groups (c.outC / c.groups) c.outM)
    (x : List X) (hx : x.length = c.inC) :
    c.forward corr bc (active c.inM x) =
      (c.full.staticForward corr bc (zeroOff c.inM x)).map (active c.outM) := by
  have hil := inM_length h
  have hol := outM_length h
  have hbias : ∀ bs, c.bias = some bs → bs.length = c.weight.length := fun bs hb => by rw [h.bias bs hb, h.rows]
  have hpos := h.pos
  have hin : c.inC = c.groups * (c.inC / c.groups) := (Nat.mul_div_cancel' h.inDvd).symm
  have hout : c.outC = c.groups * (c.outC / c.groups) := (Nat.mul_div_cancel' h.outDvd).symm
  have hcols := h.cols
  have hrows := h.rows
  revert hin hout hi ho hcols
  generalize hb : c.inC / c.groups = b
  generalize ha : c.outC / c.groups = a
  intro hi ho hin hout hcols
  obtain ⟨Mi, hMi, hMil, hMik, hMic⟩ := chunks_exists c.groups b c.inM (by omega)
  obtain ⟨Mo, hMo, hMol, hMok, hMoc⟩ := chunks_exists c.groups a c.outM (by omega)
  obtain ⟨Wb, hWb, hWbl, hWbk, hWbc⟩ := chunks_exists c.groups a c.weight (by omega)
  obtain ⟨Xb, hXb, hXbl, hXbk, hXbc⟩ := chunks_exists c.groups b x (by omega)
  have hei := even_chunks hpos hi
  have heo := even_chunks hpos ho
  rw [hMic] at hei
  rw [hMoc] at heo
  have hWr := grouped_rows (groups := c.groups) (a := a) (by omega) hcols hWb hWbk
  have hks := keep_sizes Mo Mi Wb a b _ _ (fun m hm => ⟨hMok m hm, heo m hm⟩) (fun m hm => ⟨hMik m hm, hei m hm⟩) hWr
  have hkl := keep_length Mo Mi Wb (by omega) (by omega)
  have hzl : (zeroOff c.inM x).length = x.length := zeroOff_length _ _ (by omega)
  have hz : zeroOff c.inM x = (List.zipWith zeroOff Mi Xb).flatten := by
    rw [hMi, hXb]; exact zeroOff_flatten Mi Xb b (by omega) hMik hXbk
  -- full layer
  have hfull : c.full.staticForward corr bc (zeroOff c.inM x) = .ok (addBias bc c.bias
      ((List.zipWith (fun rows xs => rows.map (dot corr xs)) Wb (List.zipWith zeroOff Mi Xb)).flatten)) := by
    unfold Conv.staticForward Conv.full
    simp only [hb]
    rw [convFn_ok _ _ _ _ _ _ hpos (by simp only []; rw [hrows, hout]; exact Nat.mul_mod_right _ _)
      (by simp only []; rw [hzl, hx, Nat.mul_comm]; exact hin) hbias]
    have e1 : c.weight.length / c.groups = a := by rw [hrows, ha]
    simp only [e1, hWbc]
    have e2 : chunks c.groups b (zeroOff c.inM x) = List.zipWith zeroOff Mi Xb := by
      rw [hz]
      have := chunks_flatten b (List.zipWith zeroOff Mi Xb) (by
        intro l hl
        obtain ⟨n, hn, rfl⟩ := List.getElem_of_mem hl
        simp only [List.length_zipWith] at hn
        rw [List.getElem_zipWith, zeroOff_length _ _ (by
          rw [hMik _ (List.getElem_mem _), hXbk _ (List.getElem_mem _)])]
        exact hXbk _ (List.getElem_mem _))
      rw [List.length_zipWith] at this
      have e : min Mi.length Xb.length = c.groups := by omega
      rwa [e] at this
    rw [e2]
  rw [hfull, map_ok, ← select_eq_active, ← select_eq_active]
  generalize hci : count (Mi.headD []) = ci at hei hks
  generalize hco : count (Mo.headD []) = co at heo hks
  -- parameters
  have hKfl : (keep Mo Mi Wb).flatten.length = c.groups * co := by
    rw [List.length_flatten, List.map_congr_left (g := fun _ => co) (fun k hk => (hks k hk).1)]
    simp [hkl, hWbl]
  have hpar : c.params = .ok (⟨(keep Mo Mi Wb).flatten, ci⟩, c.bias.map (select c.outM)) := by
    unfold Conv.params
    split
    · rename_i hmm
      have hi' : c.inM = List.replicate c.inC true := by unfold Conv.inM; rw [hmm.1]; rfl
      have ho' : c.outM = List.replicate c.outC true := by unfold Conv.outM; rw [hmm.2]; rfl
      have hMot : ∀ m ∈ Mo, m = List.replicate a true := by
        intro m hm
        refine List.eq_replicate_iff.2 ⟨hMok m hm, fun y hy => ?_⟩
        have : y ∈ c.outM := by rw [hMo]; exact List.mem_flatten.2 ⟨m, hm, hy⟩
        rw [ho'] at this
        exact (List.mem_replicate.1 this).2
      have hMit : ∀ m ∈ Mi, m = List.replicate b true := by
        intro m hm
        refine List.eq_replicate_iff.2 ⟨hMik m hm, fun y hy => ?_⟩
        have : y ∈ c.inM := by rw [hMi]; exact List.mem_flatten.2 ⟨m, hm, hy⟩
        rw [hi'] at this
        exact (List.mem_replicate.1 this).2
      have hcib : ci = b := by
        cases hM : Mi with
        | nil => rw [hM] at hMil; simp at hMil; omega
        | cons m Mi' =>
          have hm : m ∈ Mi := by rw [hM]; simp
          have h1 := hei m hm
          rw [hMit m hm, count_true] at h1
          exact h1.symm
      rw [keep_true Mo Mi Wb a b (by omega) (by omega) hMot hMit hWr, ← hWb, hb, hcib]
      cases hb0 : c.bias with
      | none => rfl
      | some bs => rw [ho', ← hrows, ← hbias bs hb0]; simp [select_true]
    · have e1 : c.outMask.getD (List.replicate c.outC true) = c.outM := rfl
      have e2 : c.inMask.getD (List.replicate c.inC true) = c.inM := rfl
      simp only [if_neg hg1, if_neg hnd, e1, e2]
      unfold grouped
      simp only [ha, hb, hMic, hMoc, hci, hco]
      rw [if_neg (by push Not; exact hei), if_neg (by push Not; exact heo)]
      have hsk := select_keep Mo Mi Wb a b (by omega) (by omega) hMok hMik hWr
      rw [← hWb] at hsk
      simp only [bind, Except.bind]
      rw [maskIndex_ok _ _ (by
        rw [mask_length Mo Mi a b (by omega) hMok hMik, List.length_flatten, sum_const _ b _ hcols, hMol, hrows, hout]
        ring), hsk]
      simp only []
      rw [biasIndex_ok _ _ (fun bs hb' => by rw [hbias bs hb']; omega)]
      simp only [pure, Except.pure]
      have := chunks_flatten ci (keep Mo Mi Wb).flatten (by
        intro r hr
        obtain ⟨k, hk, hr⟩ := List.mem_flatten.1 hr
        exact (hks k hk).2 r hr)
      rw [hKfl] at this
      rw [this]
  unfold Conv.forward
  simp only [if_neg hnd, hpar, bind, Except.bind]
  have hsx : select c.inM x = (List.zipWith select Mi Xb).flatten := by
    rw [hMi, hXb]; exact select_flatten Mi Xb b (by omega) hMik hXbk
  have hsel : ∀ l ∈ List.zipWith select Mi Xb, l.length = ci := by
    intro l hl
    obtain ⟨n, hn, rfl⟩ := List.getElem_of_mem hl
    simp only [List.length_zipWith] at hn
    rw [List.getElem_zipWith, select_length _ _ (by
      rw [hMik _ (List.getElem_mem _), hXbk _ (List.getElem_mem _)])]
    exact hei _ (List.getElem_mem _)
  have hsl : (select c.inM x).length = c.groups * ci := by
    rw [hsx, List.length_flatten, sum_const _ ci _ hsel, List.length_zipWith, hMil, hXbl, Nat.min_self]
  rw [convFn_ok _ _ _ _ _ _ hpos (by simp only []; rw [hKfl]; exact Nat.mul_mod_right _ _)
    (by simp only []; rw [hsl, Nat.mul_comm]) (by
    intro bs hbs
    cases hb0 : c.bias with
    | none => rw [hb0] at hbs; simp at hbs
    | some b0 =>
      rw [hb0] at hbs; simp at hbs; subst hbs
      rw [select_length _ _ (by rw [hbias b0 hb0]; omega)]
      simp only []
      rw [hKfl, hMo, count, List.filter_flatten, List.length_flatten, List.map_map,
        sum_const (List.length ∘ List.filter id) co Mo (fun k hk => heo k hk), hMol])]
  have hlen : c.outM.length = ((List.zipWith (fun rows xs => List.map (dot corr xs) rows) Wb (List.zipWith zeroOff Mi Xb)).flatten).length := by
    rw [List.length_flatten, sum_const _ a]
    · simp only [List.length_zipWith]; rw [hol, hout, hMil, hXbl, hWbl]; simp
    · intro l hl
      obtain ⟨n, hn, rfl⟩ := List.getElem_of_mem hl
      simp only [List.length_zipWith] at hn
      rw [List.getElem_zipWith, List.length_map]
      exact hWbk _ (List.getElem_mem _)
  rw [← addBias_select _ _ _ _ hlen (fun bs hb' => by rw [hbias bs hb']; omega)]
  congr 2
  simp only [hKfl, Nat.mul_div_cancel_left _ hpos]
  have e3 : chunks c.groups co (keep Mo Mi Wb).flatten = keep Mo Mi Wb := by
    have := chunks_flatten co (keep Mo Mi Wb) (fun k hk => (hks k hk).1)
    rwa [hkl, hWbl] at this
  have e4 : chunks c.groups ci (select c.inM x) = List.zipWith select Mi Xb := by
    rw [hsx]
    have := chunks_flatten ci (List.zipWith select Mi Xb) hsel
    rw [List.length_zipWith] at this
    have e : min Mi.length Xb.length = c.groups := by omega
    rwa [e] at this
  rw [e3, e4, hMo]
  exact keep_conv corr h0 Mo Mi Wb Xb a b (by omega) (by omega) (by omega) hMok hMik hWr hXbk

/-- If some group keeps another number of channels than the first, the layer refuses. -/
theorem C27_grouped_uneven [AddCommMonoid Y] (corr : W → X → Y) (bc : B → Y)
    (c : Conv W B) (h : c.WF) (hg1 : c.groups ≠ 1) (hnd : ¬ (c.groups = c.inC ∧ c.inC = c.outC))
    (hm : ¬ (c.inMask = none ∧ c.outMask = none))
    (he : ¬ Even c.groups (c.inC / c.groups) c.inM ∨ ¬ Even c.groups (c.outC / c.groups) c.outM) (x : List X) :
    c.forward corr bc x = .error .assertion := by
  have e1 : c.outMask.getD (List.replicate c.outC true) = c.outM := rfl
  have e2 : c.inMask.getD (List.replicate c.inC true) = c.inM := rfl
  have hpar : c.params = .error .assertion := by
    unfold Conv.params
    simp only [if_neg hm, if_neg hg1, if_neg hnd, e1, e2]
    unfold grouped
    simp only []
    by_cases hi : Even c.groups (c.inC / c.groups) c.inM
    · have := even_chunks h.pos hi
      rw [if_neg (by push Not; exact this)]
      rcases he with he | he
      · exact absurd hi he
      · rw [if_pos (uneven_chunks h.pos he)]
    · rw [if_pos (uneven_chunks h.pos hi)]
  unfold Conv.forward
  simp [hpar, bind, Except.bind]

/-- Whenever the export succeeds, the exported layer gives the same result (value or
error) as the dynamic layer on every input with the active number of channels. -/
theorem C27_static [AddCommMonoid Y] (corr : W → X → Y) (bc : B → Y) (c s : Conv W B) (h : c.WF)
    (hs : c.toStatic = .ok s) (x : List X) (hx : x.length = count c.inM) :
    s.staticForward corr bc x = c.forward corr bc x := by
  unfold Conv.toStatic at hs
  cases hp : c.params with
  | error e => simp [hp, bind, Except.bind] at hs
  | ok p =>
    obtain ⟨w, b⟩ := p
    simp only [hp, bind, Except.bind] at hs
    split at hs
    · simp [throw, throwThe, MonadExceptOf.throw] at hs
    · rename_i hc
      simp only [pure, Except.pure, Except.ok.injEq] at hs
      have hgp : 0 < c.staticGroups := by
        by_contra hn
        exact hc (Or.inl (by omega))
      subst hs
      unfold Conv.staticForward Conv.forward
      simp only [hp, bind, Except.bind, Nat.mul_div_cancel _ hgp]
      have : c.staticGroups = if c.groups = c.inC ∧ c.inC = c.outC then x.length else c.groups := by
        unfold Conv.staticGroups
        cases hm : c.inMask with
        | none =>
          have : c.inM = List.replicate c.inC true := by unfold Conv.inM; rw [hm]; rfl
          rw [this, count_true] at hx
          simp only []
          split
          · omega
          · rfl
        | some m =>
          have : c.inM = m := by unfold Conv.inM; rw [hm]; rfl
          rw [this] at hx
          simp only [hx]
      rw [← this]

/-- The export of an ordinary convolution succeeds for all masks. -/
theorem C27_export (c : Conv W B) (h : c.WF) (hg : c.groups = 1) (hact : true ∈ c.inM) : ∃ s, c.toStatic = .ok s := by
  have hsg : c.staticGroups = 1 := by
    unfold Conv.staticGroups
    cases hm : c.inMask with
    | none => exact hg
    | some m =>
      have he : c.inM = m := by unfold Conv.inM; rw [hm]; rfl
      have h1 := count_pos hact
      have h2 := count_le c.inM
      have h3 := inM_length h
      rw [he] at h1 h2 h3
      simp only []
      split <;> omega
  unfold Conv.toStatic
  have : ∃ p, c.params = .ok p := by
    unfold Conv.params
    split
    · exact ⟨_, rfl⟩
    · simp only [if_pos hg]
      refine ⟨_, dense_ok _ _ _ _ ?_ ?_ ?_⟩
      · exact (outM_length h).trans h.rows.symm
      · intro r hr
        rw [h.cols r hr, hg, Nat.div_one]; exact (inM_length h).symm
      · intro bs hb; rw [h.bias bs hb, h.rows]
  obtain ⟨⟨w, b⟩, hp⟩ := this
  simp only [hp, bind, Except.bind, hsg]
  rw [if_neg (by simp [Nat.mod_one])]
  exact ⟨_, rfl⟩

/-- A depthwise convolution that keeps one channel at the input and another at the output
runs, and mixes them up: the full layer on the zeroed input gives 0 at that output. -/
theorem C27_depthwise_violated : (dw (some [true, false]) (some [false, true])).WF ∧
    (dw (some [true, false]) (some [false, true])).forward (fun w x => w * x) id (active [true, false] [5, 7]) = .ok [15] ∧
    ((dw none none).staticForward (fun w x => w * x) id (zeroOff [true, false] [5, 7])).map (active [false, true]) =
      (.ok [0] : Except Err (List Int)) := by
  refine ⟨⟨by decide, by decide, by decide, by decide, by decide, by decide, ?_, ?_⟩, by decide, by decide⟩
  · intro m hm; simp [dw] at hm; subst hm; decide
  · intro m hm; simp [dw] at hm; subst hm; decide

/-- A depthwise convolution with only an output mask runs on the active channels, but
cannot be exported. -/
theorem C27_export_violated : (dw none (some [false, true])).WF ∧
    (dw none (some [false, true])).forward (fun w x => w * x) id [7] = (.ok [21] : Except Err (List Int)) ∧
    (match (dw none (some [false, true])).toStatic with | .error e => some e | .ok _ => none) = some Err.value := by
  refine ⟨⟨by decide, by decide, by decide, by decide, by decide, by decide, ?_, ?_⟩, by decide, by decide⟩
  · intro m hm; simp [dw] at hm
  · intro m hm; simp [dw] at hm; subst hm; decide

/-- Registering a mask of another size is refused; afterwards the masks have the sizes of
the layer. -/
theorem C27_register (c : Conv W B) (m : List Bool) :
    (m.length ≠ c.inC → c.registerIn m = .error .value) ∧ (m.length ≠ c.outC → c.registerOut m = .error .value) ∧
    (∀ c', c.WF → c.registerIn m = .ok c' → c'.WF ∧ c'.inM = m) ∧
    (∀ c', c.WF → c.registerOut m = .ok c' → c'.WF ∧ c'.outM = m) := by
  refine ⟨fun h => by simp [Conv.registerIn, h], fun h => by simp [Conv.registerOut, h], ?_, ?_⟩
  · intro c' h hc
    unfold Conv.registerIn at hc
    split at hc
    · simp at hc
    · rename_i hl
      simp only [Except.ok.injEq] at hc
      subst hc
      exact ⟨⟨h.pos, h.inDvd, h.outDvd, h.rows, h.cols, h.bias,
        fun m' hm' => by simp at hm'; subst hm'; simpa using hl, h.outSize⟩, rfl⟩
  · intro c' h hc
    unfold Conv.registerOut at hc
    split at hc
    · simp at hc
    · rename_i hl
      simp only [Except.ok.injEq] at hc
      subst hc
      exact ⟨⟨h.pos, h.inDvd, h.outDvd, h.rows, h.cols, h.bias, h.inSize,
        fun m' hm' => by simp at hm'; subst hm'; simpa using hl⟩, rfl⟩

/-! ### Linear layers -/

/-- Linear layers: for all masks, the dynamic layer on the active inputs gives the active
outputs of the full layer on the input with the others zeroed. -/
theorem C27_linear [Zero X] [AddCommMonoid Y] (corr : W → X → Y) (h0 : ∀ w, corr w 0 = 0) (bc : B → Y)
    (l : Linear W B) (h : l.WF) (x : List X) (hx : x.length = l.inF) :
    l.forward corr bc (active l.inM x) =
      (l.full.forward corr bc (zeroOff l.inM x)).map (active l.outM) := by
  have hil := lin_inM_length h
  have hol := lin_outM_length h
  have hcols : ∀ r ∈ l.weight, r.length = x.length := fun r hr => by rw [h.cols r hr, hx]
  have hbias : ∀ bs, l.bias = some bs → bs.length = l.weight.length := fun bs hb => by rw [h.bias bs hb, h.rows]
  have hrows := h.rows
  have hfull : l.full.forward corr bc (zeroOff l.inM x) =
      .ok (addBias bc l.bias (l.weight.map (dot corr (zeroOff l.inM x)))) := by
    unfold Linear.forward Linear.params Linear.full
    simp only [and_self, if_true, bind, Except.bind]
    exact dense_conv _ _ _ _ _ _ (by rw [zeroOff_length _ _ (by omega), hx]) hbias
  rw [hfull, map_ok, ← select_eq_active, ← select_eq_active]
  unfold Linear.forward Linear.params
  split
  · rename_i hm
    have hi : l.inM = List.replicate x.length true := by unfold Linear.inM; rw [hm.1, hx]; rfl
    have ho : l.outM = List.replicate l.weight.length true := by unfold Linear.outM; rw [hm.2, h.rows]; rfl
    simp only [bind, Except.bind]
    rw [hi, zeroOff_true, select_true, dense_conv _ _ _ _ _ _ hx hbias, ho]
    have hl : (addBias bc l.bias (l.weight.map (dot corr x))).length = l.weight.length := by
      cases hb : l.bias with
      | none => simp [addBias]
      | some bs => simp [addBias, hbias bs hb]
    rw [← hl, select_true]
  · exact dense_main corr h0 bc l.inM l.outM l.weight l.bias x (by omega) (by omega) hcols hbias

/-- Registering a mask at a linear layer: one of another size is refused, one of the right
size is the mask in force at that side, and the other side is unchanged. -/
theorem C27_linear_register (l : Linear W B) (m : List Bool) :
    (m.length ≠ l.inF → l.registerIn m = .error .value) ∧ (m.length ≠ l.outF → l.registerOut m = .error .value) ∧
    (m.length = l.inF → l.WF → ∃ l', l.registerIn m = .ok l' ∧ l'.WF ∧ l'.inM = m ∧ l'.outM = l.outM ∧ l'.full = l.full) ∧
    (m.length = l.outF → l.WF → ∃ l', l.registerOut m = .ok l' ∧ l'.WF ∧ l'.outM = m ∧ l'.inM = l.inM ∧ l'.full = l.full) := by
  refine ⟨fun h => by simp [Linear.registerIn, h], fun h => by simp [Linear.registerOut, h], ?_, ?_⟩
  · intro hl h
    refine ⟨{ l with inMask := some m }, by rw [Linear.registerIn, if_neg (by simpa using hl)], ⟨h.rows, h.cols, h.bias, ?_, h.outSize⟩, rfl, rfl, rfl⟩
    intro m' hm'; simp at hm'; subst hm'; exact hl
  · intro hl h
    refine ⟨{ l with outMask := some m }, by rw [Linear.registerOut, if_neg (by simpa using hl)], ⟨h.rows, h.cols, h.bias, h.inSize, ?_⟩, rfl, rfl, rfl⟩
    intro m' hm'; simp at hm'; subst hm'; exact hl

/-- The export of a linear layer succeeds and gives the same result on every input. -/
theorem C27_linear_static [AddCommMonoid Y] (corr : W → X → Y) (bc : B → Y) (l : Linear W B) (h : l.WF) :
    ∃ s, l.toStatic = .ok s ∧ s.inF = count l.inM ∧ s.outF = count l.outM ∧
      ∀ x : List X, s.forward corr bc x = l.forward corr bc x := by
  have hil := lin_inM_length h
  have hol := lin_outM_length h
  have hrows := h.rows
  unfold Linear.toStatic
  have hp : ∃ w b, l.params = .ok (w, b) ∧ w.cols = count l.inM ∧ w.rows.length = count l.outM := by
    unfold Linear.params
    split
    · rename_i hm
      refine ⟨_, _, rfl, ?_, ?_⟩
      · unfold Linear.inM; rw [hm.1]; exact (count_true _).symm
      · unfold Linear.outM; rw [hm.2]; simp only [hrows]; exact (count_true _).symm
    · refine ⟨_, _, dense_ok _ _ _ _ (hol.trans hrows.symm) ?_ ?_, rfl, ?_⟩
      · intro r hr; rw [h.cols r hr]; exact hil.symm
      · intro bs hb; rw [h.bias bs hb, hrows]
      · simp only [List.length_map]
        exact select_length _ _ (hol.trans hrows.symm)
  obtain ⟨w, b, hp, h1, h2⟩ := hp
  simp only [hp, bind, Except.bind, pure, Except.pure]
  refine ⟨_, rfl, h1, h2, ?_⟩
  intro x
  unfold Linear.forward
  simp only [hp, bind, Except.bind]
  simp [Linear.params]

/-! ### Networks -/

/-- A whole chain of layers: slicing every layer gives the active outputs of the full
network in which the inactive channels are zeroed after every block. -/
theorem C27_network [AddCommMonoid X] (corr : W → X → X) (h0 : ∀ w, corr w 0 = 0) (bc : B → X)
    (bs : List (Block W B X)) (m : List Bool) (hc : Chain m bs) (x : List X) (hx : x.length = m.length) :
    runDynamic corr bc bs (active m x) = (runMasked corr bc bs (zeroOff m x)).map (active (lastMask m bs)) := by
  induction bs generalizing m x with
  | nil =>
    simp only [runDynamic, runMasked, lastMask, map_ok]
    rw [← select_eq_active, ← select_eq_active, select_zeroOff_id]
  | cons b bs ih =>
    obtain ⟨hw, hg, ha, hm, hact, hrest⟩ := hc
    have hil := inM_length hw
    have hol := outM_length hw
    have hx' : x.length = b.conv.inC := by rw [hx, ← hm, hil]
    subst hm
    have hz : (zeroOff b.conv.inM x).length = b.conv.inC := by rw [zeroOff_length _ _ hx.symm, hx']
    obtain ⟨y, hy, hyl⟩ := full_length corr bc b.conv hw hg (zeroOff b.conv.inM x) hz
    have hstep := C27_conv corr h0 bc b.conv hw hg hact x hx'
    simp only [runDynamic, runMasked, lastMask, hstep, hy, map_ok, bind, Except.bind]
    have : List.zipWith (fun (f : X → X) y => f y) (active b.conv.outM b.acts) (active b.conv.outM y) =
        active b.conv.outM (List.zipWith (fun (f : X → X) y => f y) b.acts y) := by
      rw [← select_eq_active, ← select_eq_active, ← select_eq_active, select_zipWith _ _ _ _ (by omega) (by omega)]
    have ih' := ih b.conv.outM hrest (List.zipWith (fun (f : X → X) y => f y) b.acts y) (by simp; omega)
    rw [← ih', this]

example : g2.WF ∧ Even 2 2 g2.inM ∧ Even 2 2 g2.outM ∧
    g2.forward (fun w x => w * x) id (active g2.inM [1, 10, 100, 1000]) = .ok [23, 6030] ∧
    (g2.full.staticForward (fun w x => w * x) id (zeroOff g2.inM [1, 10, 100, 1000])) = .ok [11, 23, 6030, 8040] := by
  refine ⟨⟨by decide, by decide, by decide, by decide, by decide, ?_, ?_, ?_⟩, ?_, ?_, by decide, by decide⟩
  · intro m hm; simp [g2] at hm; subst hm; decide
  · intro m hm; simp [g2] at hm; subst hm; decide
  · intro m hm; simp [g2] at hm; subst hm; decide
  · unfold Even; decide
  · unfold Even; decide

example : g1.WF ∧ true ∈ g1.inM ∧ g1.forward (fun w x => w * x) id (active g1.inM [1, 10, 100]) = .ok [624] ∧
    (g1.toStatic.map fun s => (s.inC, s.outC, s.weight, s.bias)) = .ok (2, 1, [[4, 6]], some [20]) ∧
    Chain g1.inM [⟨g1, [id, fun x => x + 1]⟩, ⟨g1', [id]⟩] ∧
    runDynamic (fun w x => w * x) id [⟨g1, [id, fun x => x + 1]⟩, ⟨g1', [id]⟩] [1, 100] = .ok [5000] := by
  refine ⟨g1_wf, by decide, by decide, by decide, ?_, by decide⟩
  exact ⟨g1_wf, rfl, rfl, rfl, by decide, g1'_wf, rfl, rfl, rfl, by decide, trivial⟩

example : (dw (some [false, true]) (some [false, true])).forward (fun w x => w * x) id [7] = .ok [21] ∧
    (Linear.mk 2 2 [[1, 2], [3, 4]] (some [10, 20]) (some [false, true]) none).forward
      (fun w x => w * x) id [(5 : Int)] = .ok [20, 40] := by decide

/-- A searchable linear layer without masks refuses an input of another width, whatever the weights. -/
theorem C27_width_refused [AddCommMonoid Y] (corr : W → X → Y) (bc : B → Y) (l : Linear W B) (x : List X) (h1 : l.inMask = none)
    (h2 : l.outMask = none) (hx : x.length ≠ l.inF) : l.forward corr bc x = .error .runtime := by
  have hp : l.params = .ok (⟨l.weight, l.inF⟩, l.bias) := by simp [Linear.params, h1, h2]
  rw [Linear.forward, hp]
  simp only [bind, Except.bind]
  rw [convFn, if_pos (by simp [hx])]

/-- A mask of the outputs that does not have one entry for each row of the weights is an `IndexError`. -/
theorem C27_mask_refused (l : Linear W B) (m : List Bool) (h : l.outMask = some m) (hm : m.length ≠ l.weight.length) :
    l.params = .error .index := by
  simp [Linear.params, h, dense, maskIndex, hm, bind, Except.bind]

example : (⟨2, 1, [[1, 2]], none, none, none⟩ : Linear ℚ ℚ).forward (· * ·) id [1, 2, 3] = .error .runtime :=
  C27_width_refused _ _ _ _ rfl rfl (by decide)

end Verif.DynamicOps
