import Verif.Props.FixSubnet
import Verif.Lemmas.SearchRun

/-! C115: what a whole evolutionary search leaves behind. -/

namespace Verif.SearchRun
open Verif Evolution Mutator

variable {N C : Type} [DecidableEq N]

/-- C115: a properly set up search of at least one epoch never fails. As long as random sampling goes on
it is not finished (nothing bounds the number of refused samples); otherwise it ends with an exported
subnet. In particular every mutated and crossed candidate can be set on the model. -/
theorem C115_never_fails (w : World N C) (hs : Sound w) (hz : Sizes w) (ds : List (Draws C))
    (hd : ∀ d ∈ ds, SaneDraws w d) (n : Int) (hn : 0 < n) (s0 : St C) :
    run w ds (start n s0) = .error .stillSampling ∨ ∃ r, run w ds (start n s0) = .ok r := by
  rcases loop_ok hs hz ds (start n s0) [] hd (start_inv w n s0) with h | ⟨st, all, h1, h2, h3, _⟩
  · exact .inl (by simp [run, h])
  · right
    have hne := h3 (by simpa [start] using hn)
    obtain ⟨c, rest, hc⟩ := List.exists_cons_of_ne_nil hne
    obtain ⟨s', a1, _, _, a4⟩ := apply_ok hs h2.agree (h2.top c (best_mem h2.best (by simp [hc]))).1.valid
    exact ⟨(c.subnet, s', all), by simp [run, h1, exportBest, hc, a1, a4]⟩

/-- C115: the exported subnet belongs to the search space, is one of the scored candidates, keeps to the
constraints, is the one set on the model at the end, and no scored candidate has a higher score. -/
theorem C115_exported (w : World N C) (hs : Sound w) (hz : Sizes w) (ds : List (Draws C))
    (hd : ∀ d ∈ ds, SaneDraws w d) (n : Int) (s0 s : St C) (sub : Subnet N C) (all : List (Member N C))
    (h : run w ds (start n s0) = .ok (sub, s, all)) :
    Valid w sub ∧ Chosen w s0 sub s ∧ Within w s0 sub ∧
    ∃ best ∈ all, best.subnet = sub ∧ ∀ c ∈ all, c.score ≤ best.score := by
  rcases loop_ok hs hz ds (start n s0) [] hd (start_inv w n s0) with h0 | ⟨st, all', h1, h2, _, _⟩
  · simp [run, h0] at h
  · simp only [List.nil_append] at h2
    cases htop : st.top with
    | nil => simp [run, h1, exportBest, htop] at h
    | cons c rest =>
      have hc : c ∈ all' := best_mem h2.best (by simp [htop])
      obtain ⟨hg, _⟩ := h2.top c hc
      obtain ⟨s', a1, a2, _, a4⟩ := apply_ok hs h2.agree hg.valid
      simp only [run, h1, exportBest, htop, a1, a4, Except.ok.injEq, Prod.mk.injEq] at h
      obtain ⟨rfl, rfl, rfl⟩ := h
      refine ⟨hg.valid, a2, hg.within, c, hc, rfl, ?_⟩
      obtain ⟨others, hp, hso, hle, _⟩ := h2.best
      rw [htop] at hp hso hle
      intro x hx
      rcases List.mem_append.1 (hp.symm.subset hx) with hx | hx
      · rcases List.mem_cons.1 hx with rfl | hx
        · exact le_refl _
        · exact (List.pairwise_cons.1 hso).1 x hx
      · exact hle c (by simp) x hx

/-- C115: every candidate that was scored belongs to the search space and keeps to the constraints; the
resources noted with it are the estimates for the model with its choices, and its score comes from a
validation of the model with its choices. -/
theorem C115_candidates (w : World N C) (hs : Sound w) (hz : Sizes w) (ds : List (Draws C))
    (hd : ∀ d ∈ ds, SaneDraws w d) (n : Int) (s0 s : St C) (sub : Subnet N C) (all : List (Member N C))
    (h : run w ds (start n s0) = .ok (sub, s, all)) :
    ∀ c ∈ all, Valid w c.subnet ∧ Within w s0 c.subnet ∧ Noted w s0 c ∧ Judged w s0 c := by
  rcases loop_ok hs hz ds (start n s0) [] hd (start_inv w n s0) with h0 | ⟨st, all', h1, h2, _, _⟩
  · simp [run, h0] at h
  · simp only [List.nil_append] at h2
    simp only [run, h1] at h
    cases he : exportBest w st with
    | error e => simp [he] at h
    | ok r =>
      simp only [he, Except.ok.injEq, Prod.mk.injEq] at h
      obtain ⟨_, _, rfl⟩ := h
      intro c hc
      obtain ⟨hg, hj⟩ := h2.top c hc
      exact ⟨hg.valid, hg.within, hg.noted, hj⟩

/-- C115: a search of `n` epochs scores `n` times the configured number of candidates. -/
theorem C115_count (w : World N C) (hs : Sound w) (hz : Sizes w) (ds : List (Draws C))
    (hd : ∀ d ∈ ds, SaneDraws w d) (n : Nat) (s0 s : St C) (sub : Subnet N C) (all : List (Member N C))
    (h : run w ds (start n s0) = .ok (sub, s, all)) : all.length = w.numCandidates * n := by
  rcases loop_ok hs hz ds (start n s0) [] hd (start_inv w n s0) with h0 | ⟨st, all', h1, _, _, h4⟩
  · simp [run, h0] at h
  · simp only [run, h1] at h
    cases he : exportBest w st with
    | error e => simp [he] at h
    | ok r =>
      simp only [he, Except.ok.injEq, Prod.mk.injEq] at h
      obtain ⟨_, _, rfl⟩ := h
      simp only [start] at h4
      have : (all'.length : Int) = ((w.numCandidates * n : Nat) : Int) := by rw [h4]; push_cast; simp
      exact_mod_cast this

/-- C115, the metric of the exported subnet, weaker than being the largest: when the evaluator always
reports something, no scored candidate was measured more than a hundredth above what the exported
subnet was measured at. Missing: being the largest, which fails by `C115_metric_violated` because
scores are rounded to two digits. -/
theorem C115_metric_partial (w : World N C) (hs : Sound w) (hz : Sizes w) (ds : List (Draws C))
    (hd : ∀ d ∈ ds, SaneDraws w d) (hm : ∀ e i s, w.validate e i s ≠ []) (n : Int) (s0 s : St C)
    (sub : Subnet N C) (all : List (Member N C)) (h : run w ds (start n s0) = .ok (sub, s, all)) :
    ∃ best ∈ all, best.subnet = sub ∧ ∃ x, Measured w s0 best x ∧
      ∀ c ∈ all, ∃ y, Measured w s0 c y ∧ y ≤ x + 1 / 100 := by
  obtain ⟨_, _, _, best, hb, hsub, hmax⟩ := C115_exported w hs hz ds hd n s0 s sub all h
  have hj := C115_candidates w hs hz ds hd n s0 s sub all h
  have key : ∀ c ∈ all, ∃ x, Measured w s0 c x := by
    intro c hc
    rcases (hj c hc).2.2.2 with hx | ⟨_, e, i, t, _, ht⟩
    · exact hx
    · exact absurd ht (hm e i t)
  obtain ⟨x, hx⟩ := key best hb
  refine ⟨best, hb, hsub, x, hx, ?_⟩
  intro c hc
  obtain ⟨y, hy⟩ := key c hc
  refine ⟨y, hy, ?_⟩
  obtain ⟨_, _, _, _, _, h1⟩ := hx
  obtain ⟨_, _, _, _, _, h2⟩ := hy
  have a1 := abs_le.1 h1
  have a2 := abs_le.1 h2
  have := hmax c hc
  linarith

theorem exWorld_sound : Sound exWorld := by
  refine ⟨⟨by decide, by decide, by decide⟩, ?_, by norm_num [exWorld], by norm_num [exWorld], ?_, ?_⟩
  · intro g _ e _ e' _ c h
    exact h
  · intro cs hcs s kb hkb
    simp only [exWorld, Option.some.injEq] at hcs
    subst hcs
    simp only [List.mem_singleton] at hkb
    subst hkb
    simp [exWorld]
  · intro e i s
    right
    simp [exWorld, List.lookup]

theorem exOffers_sane (a b : Nat) (ha : a ≤ 2) (hb : b ≤ 2) : Sane exWorld (exOffers a b) := by
  intro g _ e _
  constructor
  · simp only [Legal, exWorld, exOffers]
    rw [if_pos (by split <;> assumption)]
  · simp [Legal, exWorld, exOffers]

/-- The hypotheses of the theorems above are met by a search of two epochs, which exports the best of its four
candidates. -/
example : Sound exWorld ∧ Sizes exWorld ∧ (∀ d ∈ exDraws, SaneDraws exWorld d) := by
  refine ⟨exWorld_sound, ⟨by decide, by decide, by decide⟩, ?_⟩
  intro d hd
  simp only [exDraws, List.mem_cons, List.not_mem_nil, or_false] at hd
  rcases hd with rfl | rfl
  · refine ⟨?_, fun i => exOffers_sane _ _ (by decide) (by decide)⟩
    intro o ho
    simp only [List.mem_cons, List.not_mem_nil, or_false] at ho
    rcases ho with rfl | rfl | rfl | rfl <;> exact exOffers_sane _ _ (by decide) (by decide)
  · refine ⟨?_, fun i => exOffers_sane _ _ (by decide) (by decide)⟩
    intro o ho
    simp only [List.mem_singleton] at ho
    subst ho
    exact exOffers_sane _ _ (by decide) (by decide)

example : (run exWorld exDraws (start 2 (fun e => e))).toOption.map
    (fun r => (r.1, r.2.2.map (fun c => (c.subnet, c.score))))
    = some ([("a", 2), ("b", 1)],
        [([("a", 0), ("b", 1)], 67 / 100), ([("a", 1), ("b", 0)], 67 / 100), ([("a", 2), ("b", 1)], 2),
          ([("a", 0), ("b", 0)], 0)]) := by
  decide +kernel

example : (run exWorld exDraws (start 2 (fun e => e))).toOption.map
    (fun r => (r.2.2.map (fun c => c.res "flops"), [r.2.1 0, r.2.1 3, r.2.1 4]))
    = some ([some 2, some 2, some 6, some 0], [2, 1, 4]) := by
  decide +kernel

/-- DISAGREEMENT: scores are rounded to two digits before candidates are compared, so a candidate with a
better metric can lose to an earlier one: here 0.701 is exported although 0.702 was measured (line 226).
Accuracies reported as fractions are thus compared only up to a whole percent. -/
theorem C115_metric_violated :
    let w : World String Nat := { exWorld with
      validate := fun _ _ s => [("acc", (700 + s 0 : ℕ) / 1000)], constraints := none, numMutation := 0, numCrossover := 0 }
    let d : Draws Nat := { exDraws.head (by decide) with samples := [exOffers 1 0, exOffers 2 0] }
    (run w [d] (start 1 (fun _ => 0))).toOption.map (fun r => (r.1, r.2.2.map (fun c => (c.subnet, c.score))))
      = some ([("a", 1), ("b", 0)], [([("a", 1), ("b", 0)], 7 / 10), ([("a", 2), ("b", 0)], 7 / 10)]) ∧
    (w.validate 0 0 (fun _ => 1)).lookup "acc" = some (701 / 1000) ∧
    (w.validate 0 0 (fun _ => 2)).lookup "acc" = some (702 / 1000) := by
  decide +kernel

/-- C115: a search without epochs fails at the end: there is no best subnet to export. -/
theorem C115_no_epochs (w : World N C) (ds : List (Draws C)) (n : Int) (hn : n ≤ 0) (s0 : St C) :
    run w ds (start n s0) = .error (.raised .assertion) := by
  have h : loop w ds (start n s0) = .ok (start n s0, []) := by
    cases ds <;> rw [loop, if_neg (by simp only [start]; omega)]
  rw [run, h]
  simp [exportBest, start]

/-- DISAGREEMENT: when the elements of a group do not accept the same choices, a sampled choice is taken from
the first element only and setting it on another one fails, so the search ends with an error although every
element offers choices. -/
theorem C115_mixed_group_violated :
    let w : World String Nat := { exWorld with store := fun e c => if c ≤ e + 1 then .ok c else .error .value,
                                               groups := [("a", [1, 0])] }
    let d : Draws Nat := { exDraws.head (by decide) with samples := [exOffers 2 0] }
    (match run w [d] (start 1 (fun _ => 0)) with | .error e => some e | .ok _ => none) = some (.raised .value) := by
  decide +kernel

/-- C115, crash recovery, weaker than intended: a search that is resumed from the checkpoint of any epoch, on a
model that was searched in any way, exports the same subnet, leaves the same model and scores the same further
candidates as the uninterrupted search, provided the configured number of epochs is raised by the epoch of the
checkpoint. Missing: the same with the number of epochs left as it is, which fails by
`C115_resume_violated`. -/
theorem C115_resume_partial (w : World N C) (hs : Sound w) (hz : Sizes w) (ds more : List (Draws C))
    (hd : ∀ d ∈ ds ++ more, SaneDraws w d) (n : Int) (hn : ds.length ≤ n) (s0 s1 : St C)
    (hag : ∀ e, (∀ g ∈ w.groups, e ∉ g.2) → s1 e = s0 e) (ck : Searcher N C) (all : List (Member N C))
    (h : loop w ds (start ds.length s0) = .ok (ck, all)) :
    run w (ds ++ more) (start n s0)
      = (run w more (resume ck (start (n + ds.length) s1))).map (fun r => (r.1, r.2.1, all ++ r.2.2)) := by
  have happ := loop_append w ds more (start ds.length s0) ck n all (by simp [start]) (by simpa [start] using hn) h
  have hst : withMax n (start (N := N) ds.length s0) = start n s0 := rfl
  rw [hst] at happ
  rcases loop_ok hs hz ds (start ds.length s0) [] (fun d hd' => hd d (by simp [hd'])) (start_inv w _ s0) with
    h0 | ⟨ck', all', h1, h2, _, _⟩
  · rw [h0] at h; cases h
  rw [h, Except.ok.injEq, Prod.mk.injEq] at h1
  obtain ⟨rfl, rfl⟩ := h1
  have hep : ck.epoch = ds.length := by
    have key : ∀ (ds : List (Draws C)) (st t : Searcher N C) (all : List (Member N C)),
        st.maxEpochs = st.epoch + ds.length → loop w ds st = .ok (t, all) → t.epoch = st.maxEpochs := by
      intro ds
      induction ds with
      | nil =>
        intro st t all hm h
        rw [loop, if_neg (by simp at hm; omega)] at h
        simp only [Except.ok.injEq, Prod.mk.injEq] at h
        obtain ⟨rfl, _⟩ := h
        simpa [eq_comm] using hm
      | cons d ds ih =>
        intro st t all hm h
        simp only [List.length_cons] at hm
        push_cast at hm
        rw [loop, if_pos (by omega)] at h
        cases he : epochOf w d st with
        | error e => rw [he] at h; cases h
        | ok p =>
          obtain ⟨t1, scored⟩ := p
          rw [he] at h
          dsimp only at h
          split at h
          · cases h
          · split at h
            · cases h
            · rename_i hl
              simp only [Except.ok.injEq, Prod.mk.injEq] at h
              obtain ⟨rfl, _⟩ := h
              have hc := epoch_count he
              rw [ih t1 _ _ (by omega) hl, hc.2]
    have := key ds _ ck all (by simp [start]) h
    simpa [start] using this
  have htwin : Twin (withMax n ck) (resume ck (start (n + ds.length) s1)) :=
    ⟨rfl, by simp only [resume, start, withMax, hep]; omega, rfl, rfl⟩
  have hinv : Inv w s0 (withMax n ck) ([] ++ all) := ⟨h2.pool, h2.small, h2.top, h2.best, h2.agree⟩
  rcases loop_pair hs hz more _ _ _ (fun d hd' => hd d (by simp [hd'])) hinv htwin hag with
    ⟨k, k'⟩ | ⟨t, t', rest, k1, k1', k2, k3, k4⟩
  · rw [run, happ, k, run, k']
    rfl
  · rw [run, happ, k1, run, k1']
    simp only [Except.map]
    cases htop : t.top with
    | nil =>
      have : t'.top = [] := by rw [k2.top, htop]
      simp [exportBest, htop, this]
    | cons c l =>
      have htop' : t'.top = c :: l := by rw [k2.top, htop]
      have hv := (k3.top c (best_mem k3.best (by simp [htop]))).1.valid
      obtain ⟨u, a1, a2, _, a4⟩ := apply_ok hs k3.agree hv
      obtain ⟨u', b1, b2, _, _⟩ := apply_ok hs k4 hv
      rw [chosen_unique hv b2 a2] at b1
      simp [exportBest, htop, htop', a1, b1, a4]

example : (loop exWorld (exDraws.take 1) (start 1 (fun e => e))).toOption.map (fun r => r.1.epoch) = some 1 := by decide +kernel

/-- DISAGREEMENT: with the number of epochs left as configured, a search of two epochs that is resumed from the
checkpoint of the first runs no further epoch and exports a subnet with a third of the score of what the
uninterrupted search exports (`_max_epochs` is reduced while `_epoch` goes on from the checkpoint, line
305). -/
theorem C115_resume_violated :
    (run exWorld exDraws (start 2 (fun e => e))).toOption.map (fun r => (r.1, r.2.2.length)) = some ([("a", 2), ("b", 1)], 4) ∧
    (loop exWorld (exDraws.take 1) (start 1 (fun e => e))).toOption.bind (fun ck =>
      (run exWorld (exDraws.drop 1) (resume ck.1 (start 2 (fun e => e)))).toOption.map (fun r => (r.1, r.2.2.length)))
      = some ([("a", 0), ("b", 1)], 0) := by
  decide +kernel

/-- C115, from the search to the use of its result: the file written at the end can be made, it loads into every fresh copy
of the supernet without an error, and there every searched element is fixed to the choice of the best subnet, every other
one to what it was when the search started. Missing: elements that share a name or alias but not the choice, see
`C10_two_sources_violated`. -/
theorem C115_loaded_partial [DecidableEq C] (w : World N C) (hs : Sound w) (hz : Sizes w) (ds : List (Draws C))
    (hd : ∀ d ∈ ds, SaneDraws w d) (n : Int) (s0 s : St C) (sub : Subnet N C) (all : List (Member N C))
    (h : run w ds (start n s0) = .ok (sub, s, all)) (h0 : ∀ i, Legal w.store i (s0 i))
    (model : List (String × FixSubnet.Node)) (st fresh : FixSubnet.Store C) (hst : ∀ i, (st i).current = some (s i))
    (hc : ∀ i c, c ∈ (st i).cands ↔ Legal w.store i c) (hk : FixSubnet.KeysConsistent st model)
    (hf : FixSubnet.Fresh st fresh) :
    ∃ d, FixSubnet.exportSubnet model st = .ok d ∧ (FixSubnet.loadSubnet model d "" "" fresh).2 = none ∧
      (∀ v ∈ FixSubnet.visits model, ((FixSubnet.loadSubnet model d "" "" fresh).1 v.2).fixed = true ∧
        (∀ p ∈ sub, ∀ g ∈ w.groups, g.1 = p.1 → v.2 ∈ g.2 →
          FixSubnet.effective ((FixSubnet.loadSubnet model d "" "" fresh).1 v.2) = some p.2) ∧
        ((∀ g ∈ w.groups, v.2 ∉ g.2) →
          FixSubnet.effective ((FixSubnet.loadSubnet model d "" "" fresh).1 v.2) = some (s0 v.2))) ∧
      ∀ g ∈ w.groups, ∃ p ∈ sub, g.1 = p.1 := by
  obtain ⟨hv, hch, -, -⟩ := C115_exported w hs hz ds hd n s0 s sub all h
  obtain ⟨d, hexp⟩ := export_defined st s hst (FixSubnet.visits model) []
  have hg : ∀ g ∈ w.groups, ∃ p ∈ sub, g.1 = p.1 := by
    intro g hg
    have : g.1 ∈ sub.map (·.1) := by rw [hv.keys]; exact List.mem_map_of_mem hg
    obtain ⟨p, hp, e⟩ := List.mem_map.1 this
    exact ⟨p, hp, e.symm⟩
  have hleg : ∀ i, Legal w.store i (s i) := by
    intro i
    by_cases hi : ∃ g ∈ w.groups, i ∈ g.2
    · obtain ⟨g, hgm, hig⟩ := hi
      obtain ⟨p, hp, e⟩ := hg g hgm
      rw [hch.inside p hp g hgm e i hig]
      exact hv.legal p hp g hgm e i hig
    · push Not at hi
      rw [hch.outside i hi]
      exact h0 i
  obtain ⟨l1, l2, -⟩ := FixSubnet.C10_roundtrip_partial model st fresh d hk hf (fun i c hcur => by
    rw [hst i] at hcur
    cases hcur
    exact (hc i _).2 (hleg i)) hexp
  refine ⟨d, hexp, l1, fun v hv' => ⟨(l2 v hv').1, fun p hp g hgm e hin => ?_, fun hout => ?_⟩, hg⟩
  · rw [(l2 v hv').2, hst, hch.inside p hp g hgm e v.2 hin]
  · rw [(l2 v hv').2, hst, hch.outside v.2 hout]

example : let st : FixSubnet.Store Nat := fun i => ⟨.value, none, [0, 1, 2], some (i % 3), none, false⟩
    (FixSubnet.exportSubnet [("x", .mutable 0), ("y", .mutable 2)] st).toOption = some [("x", 0), ("y", 2)] ∧
      ∀ i c, c ∈ (st i).cands ↔ Legal exWorld.store i c := by
  refine ⟨by decide, fun i c => ?_⟩
  simp only [List.mem_cons, List.not_mem_nil, or_false, Legal, exWorld]
  split
  · simp; omega
  · simp; omega

end Verif.SearchRun
