import Verif.Spec.SlimUnits
import Verif.Props.ChannelUnit
import Verif.Props.MutatorCfg

/-! Helper lemmas for `Verif/Props/SlimUnits.lean`. -/

namespace Verif.SlimUnits
open Verif SeqChannel ChannelUnit

theorem wide_legal {u : SUnit} (h : GoodUnit u) {k : Nat} (hk : Wide u k) : Legal u.cfg (.num k) := by
  rcases hk with hk | ⟨h0, rfl⟩
  · exact h.legal _ hk
  · exact h.full h0

theorem mem_requested {u : SUnit} (h : GoodUnit u) (c : Choice) :
    c ∈ requested u ↔ ∃ k : Nat, c = .num k ∧ Wide u k := by
  unfold requested
  split
  · rename_i h0
    rw [h.mode]
    simp only [Bool.false_eq_true, if_false, List.mem_singleton]
    constructor
    · rintro rfl; exact ⟨_, rfl, Or.inr ⟨h0, rfl⟩⟩
    · rintro ⟨k, rfl, hk | ⟨_, rfl⟩⟩
      · rw [h0] at hk; cases hk
      · rfl
  · rename_i h0
    constructor
    · intro hc
      obtain ⟨k, rfl, _⟩ := h.legal c hc
      exact ⟨k, rfl, Or.inl hc⟩
    · rintro ⟨k, rfl, hk | ⟨h1, _⟩⟩
      · exact hk
      · exact absurd h1 h0

theorem requested_ne (u : SUnit) : requested u ≠ [] := by
  unfold requested; split
  · simp
  · assumption

theorem mapM_self {α : Type} (f : α → Except Err α) : ∀ l : List α, (∀ a ∈ l, f a = .ok a) → l.mapM f = .ok l
  | [], _ => rfl
  | a :: l, h => by
    rw [List.mapM_cons, h a (by simp), mapM_self f l (fun b hb => h b (by simp [hb]))]; rfl

theorem prepareOne_legal (A : Arith) {u : SUnit} (h : GoodUnit u) {c : Choice} (hc : Legal u.cfg c) :
    prepareOne A u.cfg c = .ok c := by
  obtain ⟨k, rfl, hd, hm, hn⟩ := hc
  unfold prepareOne
  rw [h.mode]
  dsimp only
  rw [mkDiv_fixpoint u.cfg k h.divisor hd hm h.ratio]
  rfl

/-- What is known of a built unit. -/
structure Built (u : SUnit) (p : PUnit) : Prop where
  name : p.name = u.name
  cfg : p.cfg = u.cfg
  cands : ∀ c, c ∈ p.cands ↔ ∃ k : Nat, c = .num k ∧ Wide u k
  ne : p.cands ≠ []
  sorted : p.cands.Pairwise fun a b => Choice.value a ≤ Choice.value b

/-- The last candidate is the largest. -/
theorem last_largest {l : List Choice} (h : l.Pairwise fun a b => Choice.value a ≤ Choice.value b) {c : Choice}
    (hc : l.getLast? = some c) : ∀ a ∈ l, Choice.value a ≤ Choice.value c := by
  obtain ⟨l', rfl⟩ := List.getLast?_eq_some_iff.1 hc
  intro a ha
  rcases List.mem_append.1 ha with h1 | h1
  · exact (List.pairwise_append.1 h).2.2 a h1 c (by simp)
  · rw [List.mem_singleton.1 h1]

theorem build_ok (A : Arith) {u : SUnit} (h : GoodUnit u) : ∃ p, build A u = .ok p ∧ Built u p := by
  have hm : (requested u).mapM (prepareOne A u.cfg) = .ok (requested u) := by
    apply mapM_self
    intro c hc
    obtain ⟨k, rfl, hk⟩ := (mem_requested h c).1 hc
    exact prepareOne_legal A h (wide_legal h hk)
  have hpc : prepareCandidates A u.cfg (requested u) =
      .ok (sortBy (fun a b => decide (Choice.value a ≤ Choice.value b)) (requested u)) := by
    unfold prepareCandidates; rw [hm]
  refine ⟨_, by unfold build; rw [hpc], ⟨rfl, rfl, ?_, ?_, (C07_candidates_sorted A _ _ _ hpc).1⟩⟩
  · intro c
    dsimp only
    rw [mem_sortBy, mem_requested h]
  · dsimp only
    intro h0
    have := length_sortBy (le := fun a b => decide (Choice.value a ≤ Choice.value b)) (requested u)
    rw [h0] at this
    exact requested_ne u (List.length_eq_zero_iff.1 this.symm)

theorem builds_ok (A : Arith) : ∀ us : List SUnit, (∀ u ∈ us, GoodUnit u) →
    ∃ ps, us.mapM (build A) = .ok ps ∧ List.Forall₂ Built us ps
  | [], _ => ⟨[], rfl, .nil⟩
  | u :: us, h => by
    obtain ⟨p, h1, h2⟩ := build_ok A (h u (by simp))
    obtain ⟨ps, h3, h4⟩ := builds_ok A us (fun v hv => h v (by simp [hv]))
    exact ⟨p :: ps, by rw [List.mapM_cons, h1, h3]; rfl, .cons h2 h4⟩

theorem set_ok (A : Arith) {u : SUnit} (h : GoodUnit u) {p : PUnit} (hp : Built u p) {k : Nat} (hk : Wide u k) :
    ∃ mk, setOneShot A p.cfg p.cands (.num k) = .ok mk ∧ popcount mk = k := by
  obtain ⟨k', hk', hd, hm, hn⟩ := wide_legal h hk
  cases hk'
  obtain ⟨mk, h1, _, _, h4⟩ := C07_set_number_partial A u.cfg p.cands k h.mode h.divisor h.ratio hd hm (by exact_mod_cast hn)
    ((hp.cands _).2 ⟨k, rfl, hk⟩)
  rw [← hp.cfg] at h1
  exact ⟨mk, h1, by exact_mod_cast h4⟩

theorem mem_widths {u : SUnit} {p : PUnit} (hp : Built u p) (k : Nat) : k ∈ widths p.cands ↔ Wide u k := by
  unfold widths
  rw [List.mem_dedup, List.mem_filterMap]
  constructor
  · rintro ⟨c, hc, h⟩
    obtain ⟨j, rfl, hj⟩ := (hp.cands c).1 hc
    simp at h; subst h; exact hj
  · intro hk
    exact ⟨.num k, (hp.cands _).2 ⟨k, rfl, hk⟩, by simp⟩

theorem widths_ne {u : SUnit} {p : PUnit} (hp : Built u p) : widths p.cands ≠ [] := by
  obtain ⟨c, hc⟩ := List.exists_mem_of_ne_nil _ hp.ne
  obtain ⟨k, rfl, hk⟩ := (hp.cands c).1 hc
  intro h0
  have := (mem_widths hp k).2 hk
  rw [h0] at this; cases this

theorem fits_all {u : SUnit} (h : GoodUnit u) {p : PUnit} (hp : Built u p) : p.cands.all (fits u.cfg.n) = true := by
  rw [List.all_eq_true]
  intro c hc
  obtain ⟨k, rfl, hk⟩ := (hp.cands c).1 hc
  obtain ⟨k', hk', hd, hm, hn⟩ := wide_legal h hk
  cases hk'
  have := h.divisor
  simp only [fits, decide_eq_true_eq]
  unfold effMin at hm
  omega

/-- How far a layer has been prepared: it has the candidates of its unit once that is prepared. -/
structure Stage (ps : List PUnit) (done : List String) (m0 m : Norm) : Prop where
  num : m.num = m0.num
  parts : m.parts = m0.parts
  cands : ∀ p ∈ ps, m0.parts = [p.name] → m.cands = if p.name ∈ done then widths p.cands else []

theorem built_of_mem {us : List SUnit} {ps : List PUnit} (h : List.Forall₂ Built us ps) :
    ∀ p ∈ ps, ∃ u ∈ us, Built u p := by
  induction h with
  | nil => intro p hp; cases hp
  | cons h1 _ ih =>
    intro p hp
    rcases List.mem_cons.1 hp with rfl | hp
    · exact ⟨_, by simp, h1⟩
    · obtain ⟨u, hu, hb⟩ := ih p hp
      exact ⟨u, by simp [hu], hb⟩

theorem built_of_mem' {us : List SUnit} {ps : List PUnit} (h : List.Forall₂ Built us ps) :
    ∀ u ∈ us, ∃ p ∈ ps, Built u p := by
  induction h with
  | nil => intro p hp; cases hp
  | cons h1 _ ih =>
    intro p hp
    rcases List.mem_cons.1 hp with rfl | hp
    · exact ⟨_, by simp, h1⟩
    · obtain ⟨u, hu, hb⟩ := ih p hp
      exact ⟨u, by simp [hu], hb⟩

theorem built_names {us : List SUnit} {ps : List PUnit} (h : List.Forall₂ Built us ps) :
    ps.map PUnit.name = us.map SUnit.name := by
  induction h with
  | nil => rfl
  | cons h1 _ ih => simp [h1.name, ih]

theorem name_inj {ps : List PUnit} (h : (ps.map PUnit.name).Nodup) {p q : PUnit} (hp : p ∈ ps) (hq : q ∈ ps)
    (he : p.name = q.name) : p = q := List.inj_on_of_nodup_map h hp hq he

theorem uname_inj {ps : List SUnit} (h : (ps.map SUnit.name).Nodup) {p q : SUnit} (hp : p ∈ ps) (hq : q ∈ ps)
    (he : p.name = q.name) : p = q := List.inj_on_of_nodup_map h hp hq he

section
variable {us : List SUnit} {norms : List Norm} (hg : GoodNet us norms) {ps : List PUnit} (hb : List.Forall₂ Built us ps)
include hg hb

theorem nodup_ps : (ps.map PUnit.name).Nodup := by rw [built_names hb]; exact hg.names

theorem built_unique {u : SUnit} (hu : u ∈ us) {p : PUnit} (hp : p ∈ ps) (he : p.name = u.name) : Built u p := by
  obtain ⟨v, hv, hbv⟩ := built_of_mem hb p hp
  have : u = v := uname_inj hg.names hu hv (by rw [← he, hbv.name])
  subst this; exact hbv

theorem normInit_ok {done : List String} {q : PUnit} (hq : q ∈ ps) {m0 m : Norm} (hm0 : m0 ∈ norms)
    (hs : Stage ps done m0 m) : ∃ m', normInit q m = .ok m' ∧ Stage ps (done ++ [q.name]) m0 m' := by
  obtain ⟨_, u, hu, hpa, hnum⟩ := hg.norms m0 hm0
  obtain ⟨p, hp, hbp⟩ := built_of_mem' hb u hu
  have hpart : m0.parts = [p.name] := by rw [hbp.name]; exact hpa
  have hc := hs.cands p hp hpart
  have huniq : ∀ p' ∈ ps, m0.parts = [p'.name] → p' = p := fun p' hp' h' =>
    name_inj (nodup_ps hg hb) hp' hp (by rw [hpart] at h'; simpa using h'.symm)
  unfold normInit
  by_cases hqn : q.name = p.name
  · have hqp : q = p := name_inj (nodup_ps hg hb) hq hp hqn
    subst hqp
    by_cases hd : q.name ∈ done
    · rw [if_pos hd] at hc
      rw [if_neg (by rw [hc]; exact fun h => widths_ne hbp h.2)]
      refine ⟨m, rfl, hs.num, hs.parts, fun p' hp' h' => ?_⟩
      rw [huniq p' hp' h', if_pos (by simp)]; exact hc
    · rw [if_neg hd] at hc
      rw [if_pos ⟨by rw [hs.parts, hpart]; simp, hc⟩, if_pos (by rw [hs.num, hnum]; exact fits_all (hg.units u hu) hbp)]
      refine ⟨_, rfl, hs.num, hs.parts, fun p' hp' h' => ?_⟩
      rw [huniq p' hp' h', if_pos (by simp)]
  · rw [if_neg (by rw [hs.parts, hpart]; simp [hqn])]
    refine ⟨m, rfl, hs.num, hs.parts, fun p' hp' h' => ?_⟩
    rw [huniq p' hp' h', hc]
    simp [Ne.symm hqn]

theorem norms_ok {done : List String} {q : PUnit} (hq : q ∈ ps) : ∀ {ms0 ms : List Norm}, (∀ m ∈ ms0, m ∈ norms) →
    List.Forall₂ (Stage ps done) ms0 ms →
    ∃ ms', ms.mapM (normInit q) = .ok ms' ∧ List.Forall₂ (Stage ps (done ++ [q.name])) ms0 ms' := by
  intro ms0 ms hsub h
  induction h with
  | nil => exact ⟨[], rfl, .nil⟩
  | cons h1 _ ih =>
    obtain ⟨m', h2, h3⟩ := normInit_ok hg hb hq (hsub _ (by simp)) h1
    obtain ⟨ms', h4, h5⟩ := ih (fun m hm => hsub m (by simp [hm]))
    exact ⟨m' :: ms', by rw [List.mapM_cons, h2, h4]; rfl, .cons h3 h5⟩

theorem prepare_fold (A : Arith) : ∀ (todo : List PUnit) (done : List String) (ms : List Norm) (mask : String → List Bool),
    (∀ p ∈ todo, p ∈ ps) → (todo.map PUnit.name).Nodup → (∀ p ∈ todo, p.name ∉ done) →
    List.Forall₂ (Stage ps done) norms ms →
    ∃ s, todo.foldlM (prepUnit A) (ms, mask) = .ok s ∧ List.Forall₂ (Stage ps (done ++ todo.map PUnit.name)) norms s.1 ∧
      (∀ nm, nm ∉ todo.map PUnit.name → s.2 nm = mask nm) ∧
      ∀ p ∈ todo, ∃ u ∈ us, u.name = p.name ∧ ∃ k, Wide u k ∧ (∀ j, Wide u j → j ≤ k) ∧ popcount (s.2 p.name) = k
  | [], done, ms, mask, _, _, _, h => ⟨(ms, mask), rfl, by simpa using h, fun _ _ => rfl, fun p hp => by cases hp⟩
  | q :: todo, done, ms, mask, hsub, hnd, hdone, h => by
    have hq := hsub q (by simp)
    obtain ⟨ms', h1, h2⟩ := norms_ok hg hb hq (fun m hm => hm) h
    obtain ⟨u, hu, hbu⟩ := built_of_mem hb q hq
    obtain ⟨c, hc⟩ : ∃ c, q.cands.getLast? = some c := by
      rw [← Option.isSome_iff_exists]; simpa using hbu.ne
    obtain ⟨k, rfl, hk⟩ := (hbu.cands c).1 (List.mem_of_getLast? hc)
    obtain ⟨mk, h3, h4⟩ := set_ok A (hg.units u hu) hbu hk
    rw [List.map_cons, List.nodup_cons] at hnd
    have hstep : prepUnit A (ms, mask) q = .ok (ms', Function.update mask q.name mk) := by
      unfold prepUnit; dsimp only; rw [h1]; dsimp only; rw [hc]; dsimp only; rw [h3]
    obtain ⟨s, h5, h6, h7, h8⟩ := prepare_fold A todo (done ++ [q.name]) ms' (Function.update mask q.name mk)
      (fun p hp => hsub p (by simp [hp])) hnd.2 (by
        intro p hp hin
        rcases List.mem_append.1 hin with h | h
        · exact hdone p (by simp [hp]) h
        · rw [List.mem_singleton] at h
          exact hnd.1 (h ▸ List.mem_map_of_mem hp)) h2
    refine ⟨s, by rw [List.foldlM_cons, hstep]; exact h5, by simpa using h6, ?_, ?_⟩
    · intro nm hnm
      simp only [List.map_cons, List.mem_cons, not_or] at hnm
      rw [h7 nm hnm.2, Function.update_of_ne hnm.1]
    · intro p hp
      rcases List.mem_cons.1 hp with rfl | hp
      · refine ⟨u, hu, hbu.name.symm, k, hk, ?_, ?_⟩
        · intro j hj
          have := last_largest hbu.sorted hc _ ((hbu.cands _).2 ⟨j, rfl, hj⟩)
          simp only [Choice.value] at this
          exact_mod_cast this
        · rw [h7 _ hnd.1, Function.update_self, h4]
      · exact h8 p hp

/-- What holds of the network after preparing and after every setting of choices. -/
structure Ready (ps : List PUnit) (us : List SUnit) (norms : List Norm) (net : Net) : Prop where
  units : net.units = ps
  norms : List.Forall₂ (Stage ps (ps.map PUnit.name)) norms net.norms
  mask : ∀ u ∈ us, Wide u (popcount (net.mask u.name))

omit hb in
theorem prepare_ready (A : Arith) : ∃ ps net, List.Forall₂ Built us ps ∧ prepare A us norms = .ok net ∧
    Ready ps us norms net ∧ ∀ u ∈ us, ∀ j, Wide u j → j ≤ popcount (net.mask u.name) := by
  obtain ⟨ps, h1, hb⟩ := builds_ok A us hg.units
  obtain ⟨s, h2, h3, _, h5⟩ := prepare_fold hg hb A ps [] norms (startMask ps) (fun _ h => h) (nodup_ps hg hb)
    (fun _ _ => by simp) (by
      rw [List.forall₂_same]
      intro m hm
      exact ⟨rfl, rfl, fun p _ _ => by simp [(hg.norms m hm).1]⟩)
  have hmask : ∀ u ∈ us, ∃ k, Wide u k ∧ (∀ j, Wide u j → j ≤ k) ∧ popcount (s.2 u.name) = k := by
    intro u hu
    obtain ⟨p, hp, hbp⟩ := built_of_mem' hb u hu
    obtain ⟨v, hv, hn, k, h6⟩ := h5 p hp
    have : u = v := uname_inj hg.names hu hv (by rw [hn, hbp.name])
    subst this
    rw [← hn] at h6
    exact ⟨k, h6⟩
  refine ⟨ps, ⟨ps, s.1, s.2⟩, hb, by unfold prepare; rw [h1]; dsimp only; rw [h2], ⟨rfl, by simpa using h3, ?_⟩, ?_⟩
  · intro u hu
    obtain ⟨k, h6, _, h8⟩ := hmask u hu
    dsimp only; rw [h8]; exact h6
  · intro u hu j hj
    obtain ⟨k, _, h7, h8⟩ := hmask u hu
    dsimp only; rw [h8]; exact h7 j hj

theorem setChoice_ok (A : Arith) {net : Net} (hr : Ready ps us norms net) {u : SUnit} (hu : u ∈ us) {k : Nat} (hk : Wide u k) :
    ∃ mk, setChoice A net (u.name, .num k) = .ok { net with mask := Function.update net.mask u.name mk } ∧
      popcount mk = k := by
  obtain ⟨p, hp, hbp⟩ := built_of_mem' hb u hu
  have hfind : net.units.find? (fun q => q.name == u.name) = some p := by
    rw [hr.units]
    cases hf : ps.find? (fun q => q.name == u.name) with
    | none =>
      have := List.find?_eq_none.1 hf p hp
      simp [hbp.name] at this
    | some q =>
      have h1 := List.find?_some hf
      have h2 := List.mem_of_find?_eq_some hf
      rw [name_inj (nodup_ps hg hb) h2 hp (by rw [hbp.name]; simpa using h1)]
  obtain ⟨mk, h1, h2⟩ := set_ok A (hg.units u hu) hbp hk
  exact ⟨mk, by unfold setChoice; dsimp only; rw [hfind]; dsimp only; rw [h1], h2⟩

theorem setChoices_ok (A : Arith) : ∀ (cs : List (String × Choice)) (net : Net), Ready ps us norms net → GoodChoices us cs →
    ∃ net', setChoices A net cs = .ok net' ∧ Ready ps us norms net' ∧
      (∀ nm, nm ∉ cs.map Prod.fst → net'.mask nm = net.mask nm) ∧
      ∀ p ∈ cs, ∀ k : Nat, p.2 = .num k → popcount (net'.mask p.1) = k
  | [], net, hr, _ => ⟨net, rfl, hr, fun _ _ => rfl, fun p hp => by cases hp⟩
  | (nm, c) :: cs, net, hr, hc => by
    obtain ⟨u, hu, hn, k, hk, hw⟩ := hc.cands (nm, c) (by simp)
    dsimp only at hn hk
    subst hn hk
    obtain ⟨mk, h1, h2⟩ := setChoice_ok hg hb A hr hu hw
    have hnd := hc.names
    rw [List.map_cons, List.nodup_cons] at hnd
    have hr' : Ready ps us norms { net with mask := Function.update net.mask u.name mk } := by
      refine ⟨hr.units, hr.norms, fun v hv => ?_⟩
      dsimp only
      by_cases hvu : v.name = u.name
      · rw [uname_inj hg.names hv hu hvu, Function.update_self, h2]; exact hw
      · rw [Function.update_of_ne hvu]; exact hr.mask v hv
    obtain ⟨net', h3, h4, h5, h6⟩ := setChoices_ok A cs _ hr' ⟨hnd.2, fun p hp => hc.cands p (by simp [hp])⟩
    refine ⟨net', by unfold setChoices; rw [List.foldlM_cons, h1]; exact h3, h4, ?_, ?_⟩
    · intro nm hnm
      simp only [List.map_cons, List.mem_cons, not_or] at hnm
      rw [h5 nm hnm.2]; dsimp only; rw [Function.update_of_ne hnm.1]
    · intro p hp j hj
      rcases List.mem_cons.1 hp with rfl | hp
      · dsimp only at hj ⊢
        rw [h5 _ hnd.1]; dsimp only
        rw [Function.update_self, h2]
        simpa using hj
      · exact h6 p hp j hj

theorem run_ok {net : Net} (hr : Ready ps us norms net) : ∃ ls, run net = .ok ls ∧
    List.Forall₂ (fun m l => ∀ u ∈ us, m.parts = [u.name] → l = expected u.cfg.n (popcount (net.mask u.name))) norms ls := by
  have key : ∀ {ms0 ms : List Norm}, (∀ m ∈ ms0, m ∈ norms) → List.Forall₂ (Stage ps (ps.map PUnit.name)) ms0 ms →
      ∃ ls, (ms.mapM fun m => layerOf m (width net m)) = .ok ls ∧
      List.Forall₂ (fun m l => ∀ u ∈ us, m.parts = [u.name] → l = expected u.cfg.n (popcount (net.mask u.name))) ms0 ls := by
    intro ms0 ms hsub h
    induction h with
    | nil => exact ⟨[], rfl, .nil⟩
    | @cons m0 m _ _ h1 _ ih =>
      obtain ⟨ls, h2, h3⟩ := ih (fun m hm => hsub m (by simp [hm]))
      obtain ⟨_, u, hu, hpa, hnum⟩ := hg.norms m0 (hsub m0 (by simp))
      obtain ⟨p, hp, hbp⟩ := built_of_mem' hb u hu
      have hc := h1.cands p hp (by rw [hbp.name]; exact hpa)
      rw [if_pos (List.mem_map_of_mem hp)] at hc
      have hw : width net m = popcount (net.mask u.name) := by simp [width, h1.parts, hpa]
      have hl : layerOf m (width net m) = .ok (expected u.cfg.n (popcount (net.mask u.name))) := by
        rw [hw]; unfold layerOf expected
        rw [h1.num, hnum, hc]
        by_cases he : popcount (net.mask u.name) = u.cfg.n
        · rw [if_pos he, if_pos he]
        · rw [if_neg he, if_neg he, if_pos ((mem_widths hbp _).2 (hr.mask u hu))]
      refine ⟨expected u.cfg.n (popcount (net.mask u.name)) :: ls, by rw [List.mapM_cons, hl, h2]; rfl, .cons ?_ h3⟩
      intro v hv hpv
      have : u = v := uname_inj hg.names hu hv (by rw [hpa] at hpv; simpa using hpv)
      rw [← this]
  exact key (fun m hm => hm) hr.norms

end

/-- The subnets of a mutator, unit by unit. -/
theorem subnets_get {us : List SUnit} {subs : List (List (String × Choice))} (h : subnetsOf us = .ok subs) :
    (∀ u ∈ us, u.named = true → u.raw.length = subs.length) ∧
    ∀ (j : Nat) (s : List (String × Choice)), subs[j]? = some s → s = (us.filter SUnit.named).filterMap fun u => (u.raw[j]?).map fun c => (u.name, c) := by
  unfold subnetsOf at h
  cases hf : us.filter SUnit.named with
  | nil =>
    rw [hf] at h
    have h0 : subs = [] := by
      have := MutatorCfg.C88_no_subnets (V := Choice)
      rw [List.map_nil, this] at h
      injection h with h; exact h.symm
    subst h0
    refine ⟨fun u hu hn => ?_, fun j s hs => by simp at hs⟩
    have : u ∈ us.filter SUnit.named := List.mem_filter.2 ⟨hu, hn⟩
    rw [hf] at this; cases this
  | cons v vs =>
    rw [hf, List.map_cons] at h
    have hC := MutatorCfg.C88_subnets v.name v.raw (vs.map fun u => (u.name, u.raw))
    have hlen : ∀ kc ∈ vs.map (fun u => (u.name, u.raw)), kc.2.length = v.raw.length := by
      by_contra hcon
      push Not at hcon
      obtain ⟨kc, h1, h2⟩ := hcon
      rw [hC.2 ⟨kc, h1, h2⟩] at h
      cases h
    obtain ⟨r, h1, h2, h3⟩ := hC.1 hlen
    rw [h1] at h
    injection h with h
    subst h
    refine ⟨fun u hu hn => ?_, fun j s hs => ?_⟩
    · have hm : u ∈ v :: vs := by rw [← hf]; exact List.mem_filter.2 ⟨hu, hn⟩
      rw [h2]
      rcases List.mem_cons.1 hm with rfl | hm
      · rfl
      · exact hlen (u.name, u.raw) (List.mem_map.2 ⟨u, hm, rfl⟩)
    · have hj : j < v.raw.length := by
        rw [← h2]; exact (List.getElem?_eq_some_iff.1 hs).1
      have h4 := h3 j hj
      rw [hs] at h4
      injection h4 with h4
      rw [h4, ← List.map_cons (f := fun u : SUnit => (u.name, u.raw)), List.filterMap_map]
      rfl

theorem subnets_good {us : List SUnit} {norms : List Norm} (hg : GoodNet us norms)
    {subs : List (List (String × Choice))} (h : subnetsOf us = .ok subs) {s : List (String × Choice)} (hs : s ∈ subs) :
    GoodChoices us s := by
  obtain ⟨j, hj⟩ := List.mem_iff_getElem?.1 hs
  obtain ⟨h1, h2⟩ := subnets_get h
  have he := h2 j s hj
  have hjl := (List.getElem?_eq_some_iff.1 hj).1
  have hmapf : s.map Prod.fst = (us.filter SUnit.named).map SUnit.name := by
    rw [he, List.map_filterMap, ← List.filterMap_eq_map]
    apply List.filterMap_congr
    intro u hu
    obtain ⟨hu1, hu2⟩ := List.mem_filter.1 hu
    have : j < u.raw.length := by rw [h1 u hu1 hu2]; exact hjl
    simp [List.getElem?_eq_getElem this]
  refine ⟨by rw [hmapf]; exact hg.names.sublist (List.filter_sublist.map _), ?_⟩
  intro p hp
  rw [he] at hp
  obtain ⟨u, hu, hpu⟩ := List.mem_filterMap.1 hp
  obtain ⟨c, hc, rfl⟩ := Option.map_eq_some_iff.1 hpu
  have hmem := List.mem_of_getElem? hc
  have hu' := (List.mem_filter.1 hu).1
  obtain ⟨k, rfl, _⟩ := (hg.units u hu').legal c hmem
  exact ⟨u, hu', rfl, k, rfl, Or.inl hmem⟩

theorem subnets_mem {us : List SUnit} {subs : List (List (String × Choice))} (h : subnetsOf us = .ok subs)
    {j : Nat} {s : List (String × Choice)} (hj : subs[j]? = some s) {u : SUnit} (hu : u ∈ us) (hn : u.named = true)
    {c : Choice} (hc : u.raw[j]? = some c) : (u.name, c) ∈ s := by
  rw [(subnets_get h).2 j s hj]
  exact List.mem_filterMap.2 ⟨u, List.mem_filter.2 ⟨hu, hn⟩, by rw [hc]; rfl⟩

theorem train_ok {us : List SUnit} {norms : List Norm} (hg : GoodNet us norms) {ps : List PUnit}
    (hb : List.Forall₂ Built us ps) (A : Arith) : ∀ (subs : List (List (String × Choice))) (net : Net),
    Ready ps us norms net → (∀ s ∈ subs, GoodChoices us s) →
    ∃ net' log, trainStep A net subs = .ok (net', log) ∧ Ready ps us norms net' ∧
      List.Forall₂ (fun s ls => List.Forall₂ (fun m l => ∀ u ∈ us, m.parts = [u.name] → ∀ k : Nat, (u.name, Choice.num k) ∈ s →
        l = expected u.cfg.n k) norms ls) subs log
  | [], net, hr, _ => ⟨net, [], rfl, hr, .nil⟩
  | s :: ss, net, hr, hs => by
    obtain ⟨net1, h1, h2, _, h4⟩ := setChoices_ok hg hb A s net hr (hs s (by simp))
    obtain ⟨ls, h5, h6⟩ := run_ok hg hb h2
    obtain ⟨net', log, h7, h8, h9⟩ := train_ok hg hb A ss net1 h2 (fun t ht => hs t (by simp [ht]))
    refine ⟨net', ls :: log, by rw [trainStep, h1]; dsimp only; rw [h5]; dsimp only; rw [h7], h8, .cons ?_ h9⟩
    refine h6.imp ?_
    intro m l hml u hu hp k hk
    have := h4 _ hk k rfl
    rw [hml u hu hp, this]

/-- A layer whose unit comes first gets the candidates of that unit and keeps them. -/
theorem normInit_keeps {q : PUnit} {m m' : Norm} (h : normInit q m = .ok m') (hc : m.cands ≠ []) : m' = m := by
  unfold normInit at h
  rw [if_neg (fun h => hc h.2)] at h
  injection h with h; exact h.symm

/-- Candidates of a unit in ratio mode are ratios. -/
theorem build_ratio (A : Arith) {u : SUnit} (hm : u.cfg.ratioMode = true) {p : PUnit} (h : build A u = .ok p) :
    p.name = u.name ∧ p.cands ≠ [] ∧ ∀ c ∈ p.cands, ∃ q, c = .ratio q := by
  unfold build at h
  split at h
  · cases h
  · rename_i l hl
    injection h with h
    subst h
    obtain ⟨_, h2, h3⟩ := C07_candidates_sorted A _ _ _ hl
    refine ⟨rfl, ?_, ?_⟩
    · dsimp only
      intro h0
      rw [h0] at h2
      exact requested_ne u (List.length_eq_zero_iff.1 h2.symm)
    · intro c hc
      obtain ⟨r, _, hr⟩ := h3 c hc
      unfold prepareOne at hr
      rw [hm] at hr
      cases r with
      | num k => simp at hr
      | ratio q =>
        simp only at hr
        split at hr
        · cases hr
        · unfold toChoice num2ratio at hr
          rw [hm, if_pos rfl] at hr
          split at hr
          · cases hr
          · cases hr; exact ⟨_, rfl⟩

theorem prepare_unfit (A : Arith) (us : List SUnit) (norms : List Norm) (hnd : (us.map SUnit.name).Nodup)
    (u : SUnit) (hu : u ∈ us) (m : Norm) (hm : m ∈ norms) (hp : m.parts = [u.name])
    (hc : m.cands = []) (hbad : ∀ p, build A u = .ok p → ∃ c ∈ p.cands, fits m.num c = false) :
    ∀ net, prepare A us norms ≠ .ok net := by
  intro net h
  unfold prepare at h
  split at h
  · cases h
  · rename_i ps hps
    have hb : ∀ p ∈ ps, p.name = u.name → ∃ c ∈ p.cands, fits m.num c = false := by
      intro p hpm hn
      obtain ⟨v, hv, hvb⟩ := (mapM_ok_mem (build A) us ps hps).2 p hpm
      have hvn : p.name = v.name := by
        unfold build at hvb
        split at hvb
        · cases hvb
        · cases hvb; rfl
      have : u = v := uname_inj hnd hu hv (by rw [← hn, hvn])
      subst this
      exact hbad p hvb
    have hex : ∃ p ∈ ps, p.name = u.name := by
      have : ∀ (us : List SUnit) (ps : List PUnit), us.mapM (build A) = .ok ps → u ∈ us → ∃ p ∈ ps, p.name = u.name := by
        intro us
        induction us with
        | nil => intro ps _ h; cases h
        | cons v us ih =>
          intro ps h hm
          rw [List.mapM_cons] at h
          cases hv : build A v with
          | error e => rw [hv] at h; cases h
          | ok p =>
            cases hus : us.mapM (build A) with
            | error e => rw [hv, hus] at h; cases h
            | ok ps' =>
              rw [hv, hus] at h
              have h : Except.ok (p :: ps') = Except.ok (ε := Err) ps := h
              injection h with h
              subst h
              rcases List.mem_cons.1 hm with rfl | hm
              · exact ⟨p, by simp, by unfold build at hv; split at hv <;> cases hv; rfl⟩
              · obtain ⟨q, hq, hqn⟩ := ih ps' hus hm
                exact ⟨q, by simp [hq], hqn⟩
      exact this us ps hps hu
    have key : ∀ (todo : List PUnit) (ms : List Norm) (mask : String → List Bool) (s : List Norm × (String → List Bool)),
        (∀ p ∈ todo, p ∈ ps) → (∃ p ∈ todo, p.name = u.name) → m ∈ ms →
        todo.foldlM (prepUnit A) (ms, mask) = .ok s → False := by
      intro todo
      induction todo with
      | nil => rintro ms mask s _ ⟨p, hp, _⟩; cases hp
      | cons q todo ih =>
        rintro ms mask s hsub ⟨p, hpm, hpn⟩ hmm h
        rw [List.foldlM_cons] at h
        cases hq : prepUnit A (ms, mask) q with
        | error e => rw [hq] at h; cases h
        | ok s1 =>
          rw [hq] at h
          have h : List.foldlM (prepUnit A) s1 todo = .ok s := h
          unfold prepUnit at hq
          dsimp only at hq
          cases hms : ms.mapM (normInit q) with
          | error e => rw [hms] at hq; cases hq
          | ok ms' =>
            have hm' : ∃ m', m' ∈ ms' ∧ normInit q m = .ok m' := by
              have : ∀ (ms ms' : List Norm), ms.mapM (normInit q) = .ok ms' → m ∈ ms → ∃ m', m' ∈ ms' ∧ normInit q m = .ok m' := by
                intro ms
                induction ms with
                | nil => intro ms' _ h; cases h
                | cons x ms ih2 =>
                  intro ms' h hm
                  rw [List.mapM_cons] at h
                  cases hx : normInit q x with
                  | error e => rw [hx] at h; cases h
                  | ok x' =>
                    cases hr2 : ms.mapM (normInit q) with
                    | error e => rw [hx, hr2] at h; cases h
                    | ok r =>
                      rw [hx, hr2] at h
                      have h : Except.ok (x' :: r) = Except.ok (ε := Err) ms' := h
                      injection h with h
                      subst h
                      rcases List.mem_cons.1 hm with rfl | hm
                      · exact ⟨x', by simp, hx⟩
                      · obtain ⟨m', h1, h2⟩ := ih2 r hr2 hm
                        exact ⟨m', by simp [h1], h2⟩
              exact this ms ms' hms hmm
            obtain ⟨m', hm1, hm2⟩ := hm'
            by_cases hqn : q.name = u.name
            · obtain ⟨c, hcm, hcf⟩ := hb q (hsub q (by simp)) hqn
              unfold normInit at hm2
              rw [if_pos ⟨by rw [hp, hqn]; simp, hc⟩] at hm2
              rw [if_neg (fun h => by
                have := List.all_eq_true.1 h _ hcm
                rw [hcf] at this; cases this)] at hm2
              cases hm2
            · unfold normInit at hm2
              rw [if_neg (by rw [hp]; simp [hqn])] at hm2
              cases hm2
              rw [hms] at hq
              dsimp only at hq
              cases hl : q.cands.getLast? with
              | none => rw [hl] at hq; cases hq
              | some c =>
                rw [hl] at hq
                dsimp only at hq
                cases ho : setOneShot A q.cfg q.cands c with
                | error e => rw [ho] at hq; cases hq
                | ok mk =>
                  rw [ho] at hq
                  cases hq
                  exact ih ms' _ s (fun p hp => hsub p (by simp [hp])) (by
                    rcases List.mem_cons.1 hpm with rfl | hpm
                    · exact absurd hpn hqn
                    · exact ⟨p, hpm, hpn⟩) hm1 h
    split at h
    · cases h
    · rename_i s hs
      exact key ps norms (startMask ps) s (fun _ h => h) hex hm hs

end Verif.SlimUnits
