import Verif.Lemmas.SlimUnits

/-! C109: slimmable networks use, train and deploy the normalisation layers of the chosen widths. -/

namespace Verif.SlimUnits
open Verif SeqChannel ChannelUnit

/-- Two units with three candidates each and a unit that the configuration does not name. -/
def exUnits : List SUnit :=
  [⟨"a", true, ⟨32, false, 8, 1, 9/10⟩, [.num 32, .num 8, .num 16]⟩,
   ⟨"b", true, ⟨16, false, 4, 1, 9/10⟩, [.num 16, .num 4, .num 4]⟩,
   ⟨"c", false, ⟨3, false, 1, 1, 9/10⟩, []⟩]

/-- Their normalisation layers. -/
def exNorms : List Norm := [⟨32, ["a"], []⟩, ⟨16, ["b"], []⟩, ⟨32, ["a"], []⟩, ⟨3, ["c"], []⟩]

theorem exGood : GoodNet exUnits exNorms := by
  refine ⟨by decide +kernel, ?_, ?_⟩
  · intro u hu
    simp only [exUnits, List.mem_cons, List.not_mem_nil, or_false] at hu
    rcases hu with rfl | rfl | rfl
    · refine ⟨rfl, by decide, by norm_num, ?_, fun h => by simp at h⟩
      intro c hc
      simp only [List.mem_cons, List.not_mem_nil, or_false] at hc
      rcases hc with rfl | rfl | rfl
      · exact ⟨32, rfl, by decide, by decide, by decide⟩
      · exact ⟨8, rfl, by decide, by decide, by decide⟩
      · exact ⟨16, rfl, by decide, by decide, by decide⟩
    · refine ⟨rfl, by decide, by norm_num, ?_, fun h => by simp at h⟩
      intro c hc
      simp only [List.mem_cons, List.not_mem_nil, or_false] at hc
      rcases hc with rfl | rfl | rfl
      · exact ⟨16, rfl, by decide, by decide, by decide⟩
      · exact ⟨4, rfl, by decide, by decide, by decide⟩
      · exact ⟨4, rfl, by decide, by decide, by decide⟩
    · exact ⟨rfl, by decide, by norm_num, fun c hc => (by cases hc), fun _ => ⟨3, rfl, by decide, by decide, by decide⟩⟩
  · intro m hm
    simp only [exNorms, List.mem_cons, List.not_mem_nil, or_false] at hm
    rcases hm with rfl | rfl | rfl | rfl
    · exact ⟨rfl, exUnits[0]'(by decide), List.getElem_mem _, rfl, rfl⟩
    · exact ⟨rfl, exUnits[1]'(by decide), List.getElem_mem _, rfl, rfl⟩
    · exact ⟨rfl, exUnits[0]'(by decide), List.getElem_mem _, rfl, rfl⟩
    · exact ⟨rfl, exUnits[2]'(by decide), List.getElem_mem _, rfl, rfl⟩

/-- Units in number mode with legal candidates, each normalisation layer belonging to one unit:
preparing succeeds, every unit is at its widest candidate, and every layer has further layers for
exactly the candidates of its unit. (Ratio mode and layers of several units are excluded: they fail,
see below.) -/
theorem C109_prepared_partial (A : Arith) (us : List SUnit) (norms : List Norm) (hg : GoodNet us norms) :
    ∃ net, prepare A us norms = .ok net ∧
      (∀ u ∈ us, Wide u (popcount (net.mask u.name)) ∧ ∀ j, Wide u j → j ≤ popcount (net.mask u.name)) ∧
      List.Forall₂ (fun m0 m => m.num = m0.num ∧ m.parts = m0.parts ∧
        ∀ u ∈ us, m0.parts = [u.name] → ∀ k, k ∈ m.cands ↔ Wide u k) norms net.norms := by
  obtain ⟨ps, net, hb, h1, h2, h3⟩ := prepare_ready hg A
  refine ⟨net, h1, fun u hu => ⟨h2.mask u hu, h3 u hu⟩, h2.norms.imp ?_⟩
  intro m0 m hs
  refine ⟨hs.num, hs.parts, fun u hu hp k => ?_⟩
  obtain ⟨p, hpm, hbp⟩ := built_of_mem' hb u hu
  have := hs.cands p hpm (by rw [hbp.name]; exact hp)
  rw [if_pos (List.mem_map_of_mem hpm)] at this
  rw [this, mem_widths hbp]

example : ((prepare exact exUnits exNorms).toOption.map fun net => (net.norms.map Norm.cands, popcount (net.mask "b"))) =
    some ([[8, 16, 32], [4, 16], [8, 16, 32], [3]], 16) := by decide +kernel

/-- However the choices are set, as long as every unit gets one of its candidates, the forward
pass and the conversion to static operations find a layer for every normalisation layer; it is the
one of the width set last. Missing: concatenations, see `C109_concat_violated`, and requests changed by rounding, see
`C109_rounded_violated`. -/
theorem C109_any_choices_partial (A : Arith) (us : List SUnit) (norms : List Norm) (hg : GoodNet us norms)
    (ds : List (List (String × Choice))) (d : List (String × Choice)) (hds : ∀ e ∈ ds, GoodChoices us e)
    (hd : GoodChoices us d) :
    ∃ net net' ls, prepare A us norms = .ok net ∧ (ds ++ [d]).foldlM (setChoices A) net = .ok net' ∧ run net' = .ok ls ∧
      List.Forall₂ (fun m l => ∀ u ∈ us, m.parts = [u.name] → (∃ k, Wide u k ∧ l = expected m.num k) ∧
        ∀ k : Nat, (u.name, Choice.num k) ∈ d → l = expected m.num k) norms ls := by
  obtain ⟨ps, net, hb, h1, h2, _⟩ := prepare_ready hg A
  have key : ∀ (ds : List (List (String × Choice))) (net : Net), (∀ e ∈ ds, GoodChoices us e) → Ready ps us norms net →
      ∃ net', ds.foldlM (setChoices A) net = .ok net' ∧ Ready ps us norms net' := by
    intro ds
    induction ds with
    | nil => exact fun net _ hr => ⟨net, rfl, hr⟩
    | cons e ds ih =>
      intro net he hr
      obtain ⟨n1, g1, g2, _⟩ := setChoices_ok hg hb A e net hr (he e (by simp))
      obtain ⟨n2, g3, g4⟩ := ih n1 (fun e' h' => he e' (by simp [h'])) g2
      exact ⟨n2, by rw [List.foldlM_cons, g1]; exact g3, g4⟩
  obtain ⟨n1, g1, g2⟩ := key ds net hds h2
  obtain ⟨n2, g3, g4, _, g6⟩ := setChoices_ok hg hb A d n1 g2 hd
  obtain ⟨ls, g7, g8⟩ := run_ok hg hb g4
  refine ⟨net, n2, ls, h1, ?_, g7, ?_⟩
  · rw [List.foldlM_append, g1]
    show (List.foldlM (setChoices A) n1 [d]) = _
    rw [List.foldlM_cons, g3]; rfl
  · have hmem : ∀ {ms : List Norm} {ls : List Layer}, (∀ m ∈ ms, m ∈ norms) →
        List.Forall₂ (fun m l => ∀ u ∈ us, m.parts = [u.name] → l = expected u.cfg.n (popcount (n2.mask u.name))) ms ls →
        List.Forall₂ (fun m l => ∀ u ∈ us, m.parts = [u.name] → (∃ k, Wide u k ∧ l = expected m.num k) ∧
          ∀ k : Nat, (u.name, Choice.num k) ∈ d → l = expected m.num k) ms ls := by
      intro ms ls hsub h
      induction h with
      | nil => exact .nil
      | @cons m l _ _ h _ ih =>
        refine .cons ?_ (ih fun m hm => hsub m (by simp [hm]))
        intro u hu hp
        obtain ⟨_, v, hv, hpv, hnum⟩ := hg.norms m (hsub m (by simp))
        have : u = v := uname_inj hg.names hu hv (by rw [hp] at hpv; simpa using hpv)
        subst this
        rw [hnum, h u hu hp]
        exact ⟨⟨_, g4.mask u hu, rfl⟩, fun k hk => by rw [g6 _ hk k rfl]⟩
    exact hmem (fun m hm => hm) g8

example : ((prepare exact exUnits exNorms).toOption.bind fun net =>
    ((setChoices exact net [("a", .num 8), ("b", .num 16)]).toOption.bind fun n => (run n).toOption)) =
    some [.cand 8, .own, .cand 8, .own] := by decide +kernel

/-- A training step trains every subnet: the `j`-th of them uses, in every normalisation layer, the
layer of the `j`-th candidate of its unit (the layer itself for the full width). Missing: concatenations and the ratio mode, see
`C109_concat_violated` and `C109_ratio_violated`. -/
theorem C109_train_partial (A : Arith) (us : List SUnit) (norms : List Norm) (hg : GoodNet us norms)
    (subs : List (List (String × Choice))) (hs : subnetsOf us = .ok subs) :
    ∃ net net' log, prepare A us norms = .ok net ∧ trainStep A net subs = .ok (net', log) ∧ log.length = subs.length ∧
      ∀ (j i : Nat) (m : Norm) (u : SUnit) (k : Nat), norms[i]? = some m → u ∈ us → u.named = true → m.parts = [u.name] →
        u.raw[j]? = some (.num k) → ∃ ls : List Layer, log[j]? = some ls ∧ ls[i]? = some (expected u.cfg.n k) := by
  obtain ⟨ps, net, hb, h1, h2, _⟩ := prepare_ready hg A
  obtain ⟨net', log, h3, _, h5⟩ := train_ok hg hb A subs net h2 (fun s h => subnets_good hg hs h)
  refine ⟨net, net', log, h1, h3, h5.length_eq.symm, ?_⟩
  intro j i m u k hm hu hn hp hk
  have hj : j < subs.length := by
    rw [← (subnets_get hs).1 u hu hn]; exact (List.getElem?_eq_some_iff.1 hk).1
  have hj' : j < log.length := by rw [← h5.length_eq]; exact hj
  have h6 := (List.forall₂_iff_get.1 h5).2 j hj hj'
  have hi := (List.getElem?_eq_some_iff.1 hm)
  obtain ⟨hi, hie⟩ := hi
  have hi' : i < (log.get ⟨j, hj'⟩).length := by rw [← h6.length_eq]; exact hi
  have h7 := (List.forall₂_iff_get.1 h6).2 i hi hi'
  refine ⟨log.get ⟨j, hj'⟩, by simp, ?_⟩
  have h8 := h7 u hu (by rw [List.get_eq_getElem, hie]; exact hp) k
    (subnets_mem hs (by simp) hu hn hk)
  rw [List.getElem?_eq_getElem hi']
  rw [← h8]; rfl

example : ((prepare exact exUnits exNorms).toOption.bind fun net => (subnetsOf exUnits).toOption.bind fun subs =>
    (trainStep exact net subs).toOption.map Prod.snd) =
    some [[.own, .own, .own, .own], [.cand 8, .cand 4, .cand 8, .own], [.cand 16, .cand 4, .cand 16, .own]] := by
  decide +kernel

/-- Two subnets share the layer of a normalisation layer exactly if they give its unit the same
width. -/
theorem C109_exclusive (A : Arith) (us : List SUnit) (norms : List Norm) (hg : GoodNet us norms)
    (subs : List (List (String × Choice))) (hs : subnetsOf us = .ok subs) (net net' : Net) (log : List (List Layer))
    (hp : prepare A us norms = .ok net) (ht : trainStep A net subs = .ok (net', log))
    (i : Nat) (m : Norm) (u : SUnit) (hm : norms[i]? = some m) (hu : u ∈ us) (hn : u.named = true) (hmp : m.parts = [u.name])
    (j j' k k' : Nat) (hk : u.raw[j]? = some (.num k)) (hk' : u.raw[j']? = some (.num k')) (ls ls' : List Layer)
    (hl : log[j]? = some ls) (hl' : log[j']? = some ls') : ls[i]? = ls'[i]? ↔ k = k' := by
  obtain ⟨n1, n2, log1, h1, h2, _, h4⟩ := C109_train_partial A us norms hg subs hs
  rw [hp] at h1; cases h1
  rw [ht] at h2; cases h2
  obtain ⟨l1, g1, g2⟩ := h4 j i m u k hm hu hn hmp hk
  obtain ⟨l2, g3, g4⟩ := h4 j' i m u k' hm hu hn hmp hk'
  rw [hl] at g1; cases g1
  rw [hl'] at g3; cases g3
  rw [g2, g4]
  unfold expected
  constructor
  · intro h
    by_cases e1 : k = u.cfg.n <;> by_cases e2 : k' = u.cfg.n
    · omega
    · simp [e1, e2] at h
    · simp [e1, e2] at h
    · simpa [e1, e2] using h
  · rintro rfl; rfl

/-- Deploying subnet `j` keeps, for every normalisation layer, the layer that this subnet trained,
after any training steps; a negative index counts from the end and an index out of range is
refused. Missing: the index `-1`, see `C109_deploy_last_violated`, concatenations and the ratio mode. -/
theorem C109_deploy_partial (A : Arith) (us : List SUnit) (norms : List Norm) (hg : GoodNet us norms)
    (subs : List (List (String × Choice))) (hs : subnetsOf us = .ok subs) (steps : Nat) :
    ∃ net, prepare A us norms = .ok net ∧
      ∃ net' log, trainStep A net (List.replicate steps subs).flatten = .ok (net', log) ∧
      (∀ j < subs.length, ∃ ls, deploy A net' subs j = .ok ls ∧ deploy A net' subs ((j : Int) - subs.length) = .ok ls ∧
        List.Forall₂ (fun m l => ∀ u ∈ us, u.named = true → m.parts = [u.name] → ∀ k : Nat, u.raw[j]? = some (.num k) →
          l = expected u.cfg.n k) norms ls) ∧
      ∀ i : Int, i < -(subs.length : Int) ∨ (subs.length : Int) ≤ i → deploy A net' subs i = .error .index := by
  obtain ⟨ps, net, hb, h1, h2, _⟩ := prepare_ready hg A
  obtain ⟨net', log, h3, h4, _⟩ := train_ok hg hb A (List.replicate steps subs).flatten net h2 (by
    intro s h
    obtain ⟨l, hl, hsl⟩ := List.mem_flatten.1 h
    rw [(List.mem_replicate.1 hl).2] at hsl
    exact subnets_good hg hs hsl)
  refine ⟨net, h1, net', log, h3, ?_, ?_⟩
  · intro j hj
    have hget : subs[j]? = some subs[j] := List.getElem?_eq_getElem hj
    obtain ⟨n1, g1, g2, _, g4⟩ := setChoices_ok hg hb A subs[j] net' h4 (subnets_good hg hs (List.getElem_mem hj))
    obtain ⟨ls, g5, g6⟩ := run_ok hg hb g2
    refine ⟨ls, ?_, ?_, g6.imp ?_⟩
    · unfold deploy Distiller.pyGet
      rw [if_neg (by omega), Int.toNat_natCast, hget]
      dsimp only
      rw [if_neg (by omega)]; dsimp only; rw [g1]; exact g5
    · unfold deploy Distiller.pyGet
      rw [if_pos (by omega), show ((j : Int) - subs.length + subs.length).toNat = j by omega, hget]
      dsimp only
      rw [if_neg (by omega)]; dsimp only; rw [g1]; exact g5
    · intro m l hml u hu hn hp k hk
      rw [hml u hu hp, g4 _ (subnets_mem hs hget hu hn hk) k rfl]
  · intro i hi
    unfold deploy Distiller.pyGet
    rcases hi with hi | hi
    · rw [if_pos (by omega)]
      split
      · rename_i e
        split at e <;> simp_all
      · rename_i e
        split at e
        · simp [hi] at e
        · cases e
    · rw [if_neg (by omega), List.getElem?_eq_none (by omega)]

example : ((prepare exact exUnits exNorms).toOption.bind fun net => (subnetsOf exUnits).toOption.bind fun subs =>
    (deploy exact net subs 1).toOption) = some [.cand 8, .cand 4, .cand 8, .own] := by decide +kernel

/-- DISAGREEMENT: `deploy_index` counts from the end when negative, but `-1` is the default and means
not to deploy, so the last subnet is not deployed by it although `-2` deploys the last but one. -/
theorem C109_deploy_last_violated (A : Arith) (us : List SUnit) (norms : List Norm) (r : Net × Option (List Layer)) :
    (slimmable A us norms (-1) = .ok r → r.2 = none) ∧
    ((slimmable exact exUnits exNorms (-2)).toOption.bind Prod.snd) = some [.cand 8, .cand 4, .cand 8, .own] := by
  refine ⟨fun h => ?_, by decide +kernel⟩
  unfold slimmable at h
  split at h
  · cases h
  · split at h
    · cases h
    · rw [if_pos rfl] at h
      injection h with h
      rw [← h]

/-- DISAGREEMENT: a unit whose full width is a candidate makes its normalisation layers create a
further layer of full width (with parameters of its own), but no setting of any network ever uses a
further layer of full width. -/
theorem C109_full_unused_violated (A : Arith) (us : List SUnit) (norms : List Norm) (hg : GoodNet us norms)
    (i : Nat) (m : Norm) (u : SUnit) (hm : norms[i]? = some m) (hu : u ∈ us) (hp : m.parts = [u.name])
    (hw : Wide u u.cfg.n) :
    (∃ (net : Net) (m' : Norm), prepare A us norms = .ok net ∧ net.norms[i]? = some m' ∧ m'.num ∈ m'.cands) ∧
    ∀ (net : Net) (m' : Norm) (ls : List Layer), net.norms[i]? = some m' → run net = .ok ls → ls[i]? ≠ some (.cand m'.num) := by
  constructor
  · obtain ⟨net, h1, _, h3⟩ := C109_prepared_partial A us norms hg
    obtain ⟨hi, hie⟩ := List.getElem?_eq_some_iff.1 hm
    have hi' : i < net.norms.length := by rw [← h3.length_eq]; exact hi
    obtain ⟨g1, _, g3⟩ := (List.forall₂_iff_get.1 h3).2 i hi hi'
    refine ⟨net, net.norms[i], h1, List.getElem?_eq_getElem hi', ?_⟩
    simp only [List.get_eq_getElem] at g1 g3
    rw [hie] at g1 g3
    rw [g3 u hu hp, g1]
    obtain ⟨_, v, hv, hpv, hnum⟩ := hg.norms m (List.mem_of_getElem? hm)
    have : u = v := uname_inj hg.names hu hv (by rw [hp] at hpv; simpa using hpv)
    subst this
    rw [hnum]; exact hw
  · intro net m' ls hm' hr
    have key : ∀ (ms : List Norm) (ls : List Layer) (i : Nat), (ms.mapM fun m => layerOf m (width net m)) = .ok ls →
        ms[i]? = some m' → ls[i]? ≠ some (.cand m'.num) := by
      intro ms
      induction ms with
      | nil => intro ls i _ h; simp at h
      | cons m ms ih =>
        intro ls i h hi
        rw [List.mapM_cons] at h
        cases hl : layerOf m (width net m) with
        | error e => rw [hl] at h; cases h
        | ok l =>
          cases hms : (ms.mapM fun m => layerOf m (width net m)) with
          | error e => rw [hl, hms] at h; cases h
          | ok ls' =>
            rw [hl, hms] at h
            have h : Except.ok (l :: ls') = Except.ok (ε := Err) ls := h
            injection h with h
            subst h
            cases i with
            | zero =>
              simp only [List.getElem?_cons_zero, Option.some.injEq] at hi ⊢
              subst hi
              unfold layerOf at hl
              split at hl
              · cases hl; simp
              · rename_i hne
                split at hl
                · cases hl; simpa using hne
                · cases hl
            | succ i => exact ih ls' i hms (by simpa using hi)
    exact key net.norms ls i hr hm'

/-- DISAGREEMENT: a normalisation layer that follows the concatenation of two units gets only the
candidates of the first of them. Whenever the two widths do not add up to one of those or to the full
width, the network cannot be run (nor deployed), although both units have a candidate each. -/
theorem C109_concat_violated (A : Arith) (a b : SUnit) (ha : GoodUnit a) (hb : GoodUnit b) (hne : a.name ≠ b.name)
    (ka kb : Nat) (hka : Wide a ka) (hkb : Wide b kb) (hsum : ka + kb ≠ a.cfg.n + b.cfg.n) (hnot : ¬ Wide a (ka + kb)) :
    ∃ net net', prepare A [a, b] [⟨a.cfg.n + b.cfg.n, [a.name, b.name], []⟩] = .ok net ∧
      setChoices A net [(a.name, .num ka), (b.name, .num kb)] = .ok net' ∧ run net' = .error .assertion := by
  obtain ⟨pa, h1, h2⟩ := build_ok A ha
  obtain ⟨pb, h3, h4⟩ := build_ok A hb
  obtain ⟨ca, hca⟩ : ∃ c, pa.cands.getLast? = some c := by
    rw [← Option.isSome_iff_exists]; simpa using h2.ne
  obtain ⟨cb, hcb⟩ : ∃ c, pb.cands.getLast? = some c := by
    rw [← Option.isSome_iff_exists]; simpa using h4.ne
  obtain ⟨k1, rfl, hk1⟩ := (h2.cands ca).1 (List.mem_of_getLast? hca)
  obtain ⟨k2, rfl, hk2⟩ := (h4.cands cb).1 (List.mem_of_getLast? hcb)
  obtain ⟨m1, g1, _⟩ := set_ok A ha h2 hk1
  obtain ⟨m2, g2, _⟩ := set_ok A hb h4 hk2
  obtain ⟨m3, g3, g3'⟩ := set_ok A ha h2 hka
  obtain ⟨m4, g4, g4'⟩ := set_ok A hb h4 hkb
  have hfit : pa.cands.all (fits (a.cfg.n + b.cfg.n)) = true := by
    have := fits_all ha h2
    rw [List.all_eq_true] at this ⊢
    intro c hc
    have h := this c hc
    cases c with
    | num k => simp only [fits, decide_eq_true_eq] at h ⊢; push_cast; omega
    | ratio q => simp [fits] at h
  have hn1 : normInit pa ⟨a.cfg.n + b.cfg.n, [a.name, b.name], []⟩ =
      .ok ⟨a.cfg.n + b.cfg.n, [a.name, b.name], widths pa.cands⟩ := by
    unfold normInit
    rw [if_pos ⟨by rw [h2.name]; simp, rfl⟩, if_pos hfit]
  have hn2 : normInit pb ⟨a.cfg.n + b.cfg.n, [a.name, b.name], widths pa.cands⟩ =
      .ok ⟨a.cfg.n + b.cfg.n, [a.name, b.name], widths pa.cands⟩ := by
    unfold normInit
    rw [if_neg (fun h => widths_ne h2 h.2)]
  have hp : prepare A [a, b] [⟨a.cfg.n + b.cfg.n, [a.name, b.name], []⟩] = .ok ⟨[pa, pb],
      [⟨a.cfg.n + b.cfg.n, [a.name, b.name], widths pa.cands⟩],
      Function.update (Function.update (startMask [pa, pb]) pa.name m1) pb.name m2⟩ := by
    have e1 : [a, b].mapM (build A) = .ok [pa, pb] := by
      rw [List.mapM_cons, h1, List.mapM_cons, h3]; rfl
    unfold prepare
    rw [e1]
    dsimp only
    simp only [List.foldlM_cons, List.foldlM_nil, prepUnit, List.mapM_cons, List.mapM_nil, hn1, hn2, hca, hcb, g1, g2, Bind.bind, Except.bind, Pure.pure, Except.pure]
  refine ⟨_, ⟨[pa, pb], [⟨a.cfg.n + b.cfg.n, [a.name, b.name], widths pa.cands⟩],
      Function.update (Function.update (Function.update (Function.update (startMask [pa, pb]) pa.name m1) pb.name m2) a.name m3) b.name m4⟩,
    hp, ?_, ?_⟩
  · unfold setChoices
    have e1 : (pa.name == a.name) = true := by simp [h2.name]
    have e2 : (pa.name == b.name) = false := by simp [h2.name, hne]
    have e3 : (pb.name == b.name) = true := by simp [h4.name]
    simp only [List.foldlM_cons, List.foldlM_nil, setChoice, List.find?_cons, e1, e2, e3, g3, g4, Bind.bind, Except.bind, Pure.pure, Except.pure]
  · unfold run width
    simp only [List.mapM_cons, List.mapM_nil, List.map_cons, List.map_nil, List.sum_cons, List.sum_nil]
    rw [Function.update_of_ne hne, Function.update_self, Function.update_self, g3', g4']
    unfold layerOf
    dsimp only
    rw [if_neg (by omega), if_neg (by rw [mem_widths h2]; simpa using hnot)]
    rfl

example : ((prepare exact [⟨"a", true, ⟨8, false, 1, 1, 9/10⟩, [.num 4, .num 8]⟩, ⟨"b", true, ⟨8, false, 1, 1, 9/10⟩, [.num 2, .num 8]⟩]
    [⟨16, ["a", "b"], []⟩]).toOption.map fun net =>
      ((setChoices exact net [("a", .num 4), ("b", .num 2)]).toOption.map fun n => (run n).toOption)) = some (some none) := by
  decide +kernel

/-- DISAGREEMENT: after a concatenation two subnets with different widths in both units can share one
layer, because only the sum of the widths is looked up. -/
theorem C109_concat_shared_violated :
    ((prepare exact [⟨"a", true, ⟨32, false, 8, 1, 9/10⟩, [.num 8, .num 16, .num 24]⟩,
        ⟨"b", true, ⟨32, false, 8, 1, 9/10⟩, [.num 16, .num 8, .num 24]⟩] [⟨64, ["a", "b"], []⟩]).toOption.bind fun net =>
      (trainStep exact net [[("a", .num 8), ("b", .num 16)], [("a", .num 16), ("b", .num 8)]]).toOption.map Prod.snd) =
    some [[.cand 24], [.cand 24]] := by decide +kernel

/-- DISAGREEMENT: the ratio mode that channel units offer does not work with normalisation layers:
preparing a network with such a unit and a normalisation layer of its own is always refused. -/
theorem C109_ratio_violated (A : Arith) (us : List SUnit) (norms : List Norm) (hnd : (us.map SUnit.name).Nodup)
    (u : SUnit) (hu : u ∈ us) (hr : u.cfg.ratioMode = true) (m : Norm) (hm : m ∈ norms) (hp : m.parts = [u.name])
    (hc : m.cands = []) : ∀ net, prepare A us norms ≠ .ok net := by
  refine prepare_unfit A us norms hnd u hu m hm hp hc fun p hb => ?_
  obtain ⟨hne, hall⟩ := (build_ratio A hr hb).2
  obtain ⟨c, hcm⟩ := List.exists_mem_of_ne_nil _ hne
  obtain ⟨q, rfl⟩ := hall c hcm
  exact ⟨_, hcm, rfl⟩

/-- A candidate that does not fit into a normalisation layer of its unit, because it is not positive or
larger than the layer, is refused. -/
theorem C109_unfit_refused (A : Arith) (us : List SUnit) (norms : List Norm) (hnd : (us.map SUnit.name).Nodup)
    (u : SUnit) (hu : u ∈ us) (m : Norm) (hm : m ∈ norms) (hp : m.parts = [u.name]) (hc : m.cands = []) {p : PUnit}
    (hb : build A u = .ok p) {k : Int} (hk : Choice.num k ∈ p.cands) (hw : k ≤ 0 ∨ m.num < k) :
    ∀ net, prepare A us norms ≠ .ok net := by
  refine prepare_unfit A us norms hnd u hu m hm hp hc fun q hq => ⟨.num k, ?_, ?_⟩
  · rw [hb] at hq; cases hq; exact hk
  · simp only [fits, decide_eq_false_iff_not]
    omega

example : ((build exact ⟨"a", true, ⟨28, false, 8, 1, 9/10⟩, [.num 16, .num 28]⟩).toOption.map PUnit.cands) = some [.num 16, .num 32] ∧
    (prepare exact [⟨"a", true, ⟨28, false, 8, 1, 9/10⟩, [.num 16, .num 28]⟩] [⟨28, ["a"], []⟩]).toOption.isSome = false := by
  decide +kernel

/-- DISAGREEMENT: the subnets hold the requested candidates while the units hold the rounded ones. A
request that rounding changes to something that is no request (12 of 32 channels with divisor 8)
makes every training step fail. -/
theorem C109_rounded_violated (A : Arith) (net : Net) (s : List (String × Choice)) (ss : List (List (String × Choice)))
    (nm : String) (c : Choice) (h : (nm, c) ∈ s)
    (hbad : ∀ p ∈ net.units, p.name = nm → Choice.value c ∉ p.cands.map Choice.value) :
    (∀ r, trainStep A net (s :: ss) ≠ .ok r) ∧
    ((slimmable exact [⟨"a", true, ⟨32, false, 8, 1, 9/10⟩, [.num 12, .num 32]⟩] [⟨32, ["a"], []⟩] (-1)).toOption.map fun r =>
      (r.1.units.map PUnit.cands, (trainStep exact r.1 [[("a", .num 12)], [("a", .num 32)]]).toOption.isSome)) =
      some ([[.num 16, .num 32]], false) := by
  refine ⟨?_, by decide +kernel⟩
  intro r hr
  have key : ∀ (s : List (String × Choice)) (n : Net), n.units = net.units → (nm, c) ∈ s → ∀ n', setChoices A n s ≠ .ok n' := by
    intro s
    induction s with
    | nil => intro n _ h; cases h
    | cons x s ih =>
      intro n hn hx n' he
      unfold setChoices at he
      rw [List.foldlM_cons] at he
      cases hs : setChoice A n x with
      | error e => rw [hs] at he; cases he
      | ok n1 =>
        rw [hs] at he
        have he : setChoices A n1 s = .ok n' := he
        unfold setChoice at hs
        split at hs
        · cases hs
        · rename_i u hf
          split at hs
          · cases hs
          · rename_i mk hmk
            injection hs with hs
            rcases List.mem_cons.1 hx with rfl | hx
            · have h1 := List.mem_of_find?_eq_some hf
              have h2 := List.find?_some hf
              rw [hn] at h1
              rw [C07_set_rejects A u.cfg u.cands c (hbad u h1 (by simpa using h2))] at hmk
              cases hmk
            · exact ih n1 (by rw [← hs]; exact hn) hx n' he
  rw [trainStep] at hr
  cases hs : setChoices A net s with
  | error e => rw [hs] at hr; cases hr
  | ok n1 => exact key s net rfl h n1 hs

/-- DISAGREEMENT: without units in the configuration there are no subnets; a training step then
changes nothing and trains nothing, and any deployment is refused. -/
theorem C109_no_subnets_violated (A : Arith) (us : List SUnit) (h : ∀ u ∈ us, u.named = false) (net : Net) (i : Int) :
    subnetsOf us = .ok [] ∧ trainStep A net [] = .ok (net, []) ∧ deploy A net [] i = .error .index := by
  refine ⟨?_, rfl, ?_⟩
  · unfold subnetsOf
    have : us.filter SUnit.named = [] := by
      rw [List.filter_eq_nil_iff]; intro u hu; simp [h u hu]
    rw [this]; rfl
  · unfold deploy Distiller.pyGet
    simp

/-- A choice for a unit that does not exist is a `KeyError`. -/
theorem C109_unknown (A : Arith) (net : Net) (n : String) (c : Choice) (rest : List (String × Choice))
    (h : ∀ u ∈ net.units, u.name ≠ n) : setChoices A net ((n, c) :: rest) = .error .key := by
  have h1 : net.units.find? (fun u => u.name == n) = none := by
    rw [List.find?_eq_none]
    intro u hu
    simpa using h u hu
  simp [setChoices, List.foldlM_cons, setChoice, h1, bind, Except.bind]

example (net : Net) (h : net.units = []) : setChoices exact net [("a", .num 8)] = .error .key :=
  C109_unknown _ _ _ _ _ (by simp [h])

end Verif.SlimUnits
