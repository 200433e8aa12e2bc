import Verif.Model.FixSubnet
import Verif.Spec.SearchRun
import Verif.Lemmas.GptqQuantizer
import Verif.Props.Evolution
import Verif.Props.Mutator

/-! Helper lemmas for `Verif/Props/SearchRun.lean`. -/

namespace Verif.SearchRun
open Verif Evolution Mutator

variable {N C : Type} [DecidableEq N]

/-- Elements outside all groups are as in `s0`. -/
def Agree (w : World N C) (s0 s : St C) : Prop := ∀ e, (∀ g ∈ w.groups, e ∉ g.2) → s e = s0 e

theorem find_mem {A : Type} {d : List (N × A)} (hn : (d.map (·.1)).Nodup) {p : N × A} (hp : p ∈ d) :
    get? d p.1 = some p.2 := by
  induction d with
  | nil => simp at hp
  | cons q d ih =>
    simp only [List.map_cons, List.nodup_cons] at hn
    rcases List.mem_cons.1 hp with rfl | hp
    · simp [get?]
    · have hne : ¬ q.1 = p.1 := fun h => hn.1 (h ▸ List.mem_map.2 ⟨p, hp, rfl⟩)
      have := ih hn.2 hp
      simp only [get?, List.find?_cons, hne, decide_false] at this ⊢
      exact this

theorem get_mem {A : Type} {d : List (N × A)} {k : N} {v : A} (h : get? d k = some v) : (k, v) ∈ d := by
  simp only [get?, Option.map_eq_some_iff] at h
  obtain ⟨p, hp, rfl⟩ := h
  have := List.find?_some hp
  simp only [decide_eq_true_eq] at this
  have hm := List.mem_of_find?_eq_some hp
  rw [← this]
  exact hm

theorem get_key {A : Type} {d : List (N × A)} {k : N} (h : k ∈ d.map (·.1)) : ∃ v, get? d k = some v := by
  cases hg : get? d k with
  | some v => exact ⟨v, rfl⟩
  | none =>
    simp only [get?, Option.map_eq_none_iff, List.find?_eq_none] at hg
    obtain ⟨p, hp, rfl⟩ := List.mem_map.1 h
    simpa using hg p hp

theorem valid_nodup {w : World N C} (hs : Sound w) {sub : Subnet N C} (hv : Valid w sub) : (sub.map (·.1)).Nodup := by
  rw [hv.keys]; exact hs.wf.names

/-- Setting a subnet of the search space succeeds. -/
theorem apply_ok {w : World N C} (hs : Sound w) {s0 s : St C} (ha : Agree w s0 s) {sub : Subnet N C}
    (hv : Valid w sub) :
    ∃ s', apply w sub s = .ok s' ∧ Chosen w s0 sub s' ∧ Agree w s0 s' ∧ currentChoices s' w.groups = .ok sub := by
  by_cases hg0 : w.groups = []
  · have hsub : sub = [] := by
      have := hv.keys
      rw [hg0] at this
      simpa using this
    refine ⟨s, by simp [apply, hg0, setChoices], ⟨by simp [hsub], ha⟩, ha, by simp [hg0, hsub, currentChoices]⟩
  · have hc : Nonempty C := by
      obtain ⟨g, hg⟩ := List.exists_mem_of_ne_nil _ hg0
      obtain ⟨v, _⟩ := get_key (d := sub) (k := g.1) (by rw [hv.keys]; exact List.mem_map.2 ⟨g, hg, rfl⟩)
      exact ⟨v⟩
    obtain ⟨c0⟩ := hc
    let f : N → C := fun n => (get? sub n).getD c0
    have hget : ∀ g ∈ w.groups, get? sub g.1 = some (f g.1) := by
      intro g hg
      obtain ⟨v, hv'⟩ := get_key (d := sub) (k := g.1) (by rw [hv.keys]; exact List.mem_map.2 ⟨g, hg, rfl⟩)
      simp [f, hv']
    obtain ⟨s', h1, h2, h3⟩ := setChoices_ok (store := w.store) (choices := sub) (f := f) w.groups hget
      hs.wf.disjoint (fun g hg e he => hv.legal (g.1, f g.1) (get_mem (hget g hg)) g hg rfl e he) s
    have hag : Agree w s0 s' := fun e he => by rw [h3 e he]; exact ha e he
    refine ⟨s', by simp [apply, h1], ⟨?_, hag⟩, hag, ?_⟩
    · intro p hp g hg hgp e he
      rw [h2 g hg e he]
      have := find_mem (valid_nodup hs hv) hp
      simp [f, hgp, this]
    · rw [current_ok s' f w.groups hs.wf.nonempty h2]
      congr 1
      apply List.ext_getElem
      · have := congrArg List.length hv.keys
        simpa using this.symm
      · intro i h1 h2
        have hk : (sub.map (·.1))[i]'(by simpa using h2) = (w.groups.map (·.1))[i]'(by simpa using h1) := by
          simp only [hv.keys]
        simp only [List.getElem_map] at hk ⊢
        have := find_mem (valid_nodup hs hv) (List.getElem_mem h2)
        rw [← hk]
        simp [f, this]

/-- The model with a subnet chosen is determined by the subnet. -/
theorem chosen_unique {w : World N C} {s0 : St C} {sub : Subnet N C} (hv : Valid w sub) {s s' : St C}
    (h : Chosen w s0 sub s) (h' : Chosen w s0 sub s') : s = s' := by
  funext e
  by_cases he : ∀ g ∈ w.groups, e ∉ g.2
  · rw [h.outside e he, h'.outside e he]
  · push Not at he
    obtain ⟨g, hg, heg⟩ := he
    obtain ⟨v, hv'⟩ := get_key (d := sub) (k := g.1) (by rw [hv.keys]; exact List.mem_map.2 ⟨g, hg, rfl⟩)
    have hm := get_mem hv'
    rw [h.inside _ hm g hg rfl e heg, h'.inside _ hm g hg rfl e heg]

/-- What is kept true of every candidate. -/
structure Good (w : World N C) (s0 : St C) (c : Member N C) : Prop where
  valid : Valid w c.subnet
  within : Within w s0 c.subnet
  noted : Noted w s0 c

theorem check_total (cs : List (String × Bound)) (results : String → Option ℚ)
    (h : ∀ kb ∈ cs, results kb.1 ≠ none) : ∃ b, check (some cs) results = .ok b := by
  simp only [check]
  induction cs with
  | nil => exact ⟨true, rfl⟩
  | cons kb rest ih =>
    obtain ⟨k, b⟩ := kb
    cases hr : results k with
    | none => exact absurd hr (h (k, b) (by simp))
    | some x =>
      simp only [checkLoop, hr]
      split
      · exact ⟨false, rfl⟩
      · exact ih (fun kb hkb => h kb (by simp [hkb]))

theorem constraints_ok {w : World N C} (hs : Sound w) {s0 s : St C} (ha : Agree w s0 s) {sub : Subnet N C}
    (hv : Valid w sub) :
    ∃ b r s', checkConstraints w sub s = .ok (b, r, s') ∧ Agree w s0 s' ∧ (b = true → Good w s0 (newCand (sub, r))) := by
  cases hc : w.constraints with
  | none =>
    refine ⟨true, fun _ => none, s, by simp [checkConstraints, hc], ha, fun _ => ⟨hv, ?_, ?_⟩⟩
    · intro t _ cs hcs; rw [hc] at hcs; cases hcs
    · intro t _; simp [hc, newCand]
  | some cs =>
    obtain ⟨s', h1, h2, h3, _⟩ := apply_ok hs ha hv
    obtain ⟨b, hb⟩ := check_total cs (w.estimate s') (hs.reports cs hc s')
    refine ⟨b, w.estimate s', s', by simp [checkConstraints, hc, h1, hb], h3, ?_⟩
    rintro rfl
    refine ⟨hv, ?_, ?_⟩
    · intro t ht cs' hcs' kb hkb
      rw [chosen_unique hv ht h2]
      exact (C14_check (some cs) (w.estimate s')).1 hb cs' (by rw [← hc, hcs']) kb hkb
    · intro t ht
      rw [chosen_unique hv ht h2]
      simp [hc, newCand]

theorem pairs_keys {gs : List (N × List Nat)} {l : List (N × C)} {R : N × List Nat → N × C → Prop}
    (hR : ∀ g p, R g p → p.1 = g.1) (h : List.Forall₂ R gs l) : l.map (·.1) = gs.map (·.1) := by
  induction h with
  | nil => rfl
  | cons h _ ih => simp [hR _ _ h, ih]

theorem pairs_mem {A B : Type} {R : A → B → Prop} {as : List A} {bs : List B} (h : List.Forall₂ R as bs) {b : B}
    (hb : b ∈ bs) : ∃ a ∈ as, R a b := by
  induction h with
  | nil => simp at hb
  | cons h _ ih =>
    rcases List.mem_cons.1 hb with rfl | hb
    · exact ⟨_, by simp, h⟩
    · obtain ⟨a, ha, hr⟩ := ih hb
      exact ⟨a, by simp [ha], hr⟩

theorem draw_ok {w : World N C} (hs : Sound w) {o : Offers C} (ho : Sane w o) :
    ∃ sub, draw w o = .ok sub ∧ Valid w sub := by
  obtain ⟨l, h1, h2⟩ := C25_sample o w.arch .random (by simp) w.groups hs.wf.nonempty
  refine ⟨l, by simp [draw, h1], ?_, ?_⟩
  · exact pairs_keys (fun g p h => h.1) h2
  · intro p hp g hg hgp e he
    obtain ⟨g', hg', hk, e', he', hv⟩ := pairs_mem h2 hp
    have hgg : g' = g := List.inj_on_of_nodup_map hs.wf.names hg' hg (by rw [hgp, hk])
    subst hgg
    have hmem : e' ∈ g'.2 := List.mem_of_mem_head? (by rw [he']; rfl)
    apply hs.same g' hg' e' hmem e he
    rw [hv]
    have := ho g' hg' e' hmem
    split
    · exact this.2
    · exact this.1

theorem cross_ok {w : World N C} (hs : Sound w) {a b : Subnet N C} (ha : Valid w a) (hb : Valid w b) {prob : ℚ}
    (hp : 0 ≤ prob ∧ prob ≤ 1) (draws : Nat → ℚ) :
    ∃ r, cross a b prob draws = .ok r ∧ Valid w r := by
  obtain ⟨r, hr⟩ : ∃ r, crossover a b prob draws = .ok r := ⟨_, by rw [crossover, if_pos ⟨hp.1, hp.2⟩]⟩
  obtain ⟨h1, h2⟩ := C15_genes a b r prob draws (valid_nodup hs hb) (fun k hk => by rw [ha.keys, ← hb.keys]; exact hk) hr
  refine ⟨r, by simp [cross, hr], by rw [h1, ha.keys], ?_⟩
  intro p hpr g hg hgp e he
  have hnr : (r.map (·.1)).Nodup := by rw [h1]; exact valid_nodup hs ha
  have hl : Evolution.lookup r p.1 = some p.2 := find_mem hnr hpr
  rcases h2 p.1 with h | h
  · exact ha.legal p (get_mem (d := a) (show get? a p.1 = some p.2 from by rw [← hl, h]; rfl)) g hg hgp e he
  · exact hb.legal p (get_mem (d := b) (show get? b p.1 = some p.2 from by rw [← hl, h]; rfl)) g hg hgp e he

theorem sample_ok {w : World N C} (hs : Sound w) (s0 : St C) : ∀ (os : List (Offers C)) (pool : List (Member N C))
    (s : St C), (∀ o ∈ os, Sane w o) → (∀ c ∈ pool, Good w s0 c) → Agree w s0 s →
    sample w os pool s = .error .stillSampling ∨
    ∃ pool' s', sample w os pool s = .ok (pool', s') ∧ (∀ c ∈ pool', Good w s0 c) ∧ Agree w s0 s' ∧
      pool'.length = max pool.length w.numCandidates
  | [], pool, s, _, hp, ha => by
    rw [sample]
    split
    · exact .inl rfl
    · exact .inr ⟨pool, s, rfl, hp, ha, by omega⟩
  | o :: os, pool, s, ho, hp, ha => by
    rw [sample]
    split
    · rename_i hlt
      obtain ⟨sub, h1, hv⟩ := draw_ok hs (ho o (by simp))
      obtain ⟨b, r, s', h2, h3, h4⟩ := constraints_ok hs ha hv
      simp only [h1, h2]
      have := sample_ok hs s0 os (if b then pool ++ [newCand (sub, r)] else pool) s' (fun o ho' => ho o (by simp [ho']))
        (by
          intro c hc
          cases b with
          | false => exact hp c (by simpa using hc)
          | true =>
            simp only [if_true, List.mem_append, List.mem_singleton] at hc
            rcases hc with hc | rfl
            · exact hp c hc
            · exact h4 rfl) h3
      rcases this with h | ⟨pool', s'', h5, h6, h7, h8⟩
      · exact .inl h
      · refine .inr ⟨pool', s'', h5, h6, h7, ?_⟩
        rw [h8]
        cases b <;> simp <;> omega
    · exact .inr ⟨pool, s, rfl, hp, ha, by omega⟩

theorem round_near (x : ℚ) : |(GptqQuantizer.rhe (x * 100) : ℚ) / 100 - x| ≤ 1 / 200 := by
  have := abs_le.1 (GptqQuantizer.rhe_near (x * 100))
  rw [abs_le]
  constructor <;> linarith

/-- A candidate after its evaluation. -/
structure After (w : World N C) (s0 : St C) (c c' : Member N C) : Prop where
  subnet : c'.subnet = c.subnet
  res : c'.res = c.res
  judged : Judged w s0 c'

theorem after_good {w : World N C} {s0 : St C} {c c' : Member N C} (h : After w s0 c c') (hg : Good w s0 c) :
    Good w s0 c' := by
  refine ⟨h.subnet ▸ hg.valid, h.subnet ▸ hg.within, ?_⟩
  intro s hs
  rw [h.res]
  exact hg.noted s (h.subnet ▸ hs)

theorem evaluate_ok {w : World N C} (hs : Sound w) (s0 : St C) (epoch : Int) : ∀ (pool : List (Member N C)) (i : Nat)
    (s : St C), (∀ c ∈ pool, Good w s0 c) → Agree w s0 s →
    ∃ scored s', evaluateFrom w epoch i pool s = .ok (scored, s') ∧ Agree w s0 s' ∧
      List.Forall₂ (After w s0) pool scored
  | [], i, s, _, ha => ⟨[], s, rfl, ha, .nil⟩
  | c :: pool, i, s, hp, ha => by
    obtain ⟨s', h1, h2, h3, _⟩ := apply_ok hs ha (hp c (by simp)).valid
    obtain ⟨x, hx, hj⟩ : ∃ x, scoreOf w (w.validate epoch i s') = .ok x ∧ Judged w s0 { c with score := x } := by
      by_cases he : w.validate epoch i s' = []
      · exact ⟨0, by simp [scoreOf, he], .inr ⟨rfl, epoch, i, s', h2, he⟩⟩
      · obtain ⟨x, hx⟩ := Option.ne_none_iff_exists'.1 ((hs.scored epoch i s').resolve_left he)
        refine ⟨GptqQuantizer.rhe (x * 100) / 100, by simp only [scoreOf, he, hx, if_false], .inl ⟨x, epoch, i, s', h2, hx, round_near x⟩⟩
    obtain ⟨scored, s'', h4, h5, h6⟩ := evaluate_ok hs s0 epoch pool (i + 1) s' (fun c hc => hp c (by simp [hc])) h3
    exact ⟨{ c with score := x } :: scored, s'', by simp [evaluateFrom, h1, hx, h4], h5, .cons ⟨rfl, rfl, hj⟩ h6⟩

theorem generate_ok {w : World N C} (hs : Sound w) (s0 : St C) (num : Nat) (attempt : Nat → Except Stop (Subnet N C))
    (hat : ∀ i, ∃ sub, attempt i = .ok sub ∧ Valid w sub) : ∀ (n iter : Nat) (acc : List (Member N C)) (s : St C),
    num * 10 - iter = n → acc.length ≤ num → (∀ c ∈ acc, Good w s0 c) → Agree w s0 s →
    ∃ acc' s', generate w num attempt iter acc s = .ok (acc', s') ∧ (∀ c ∈ acc', Good w s0 c) ∧ Agree w s0 s' ∧
      acc'.length ≤ num := by
  intro n
  induction n with
  | zero =>
    intro iter acc s hn hlen hacc ha
    rw [generate]
    split
    · rw [if_pos (by omega)]
      exact ⟨acc, s, rfl, hacc, ha, hlen⟩
    · exact ⟨acc, s, rfl, hacc, ha, hlen⟩
  | succ n ih =>
    intro iter acc s hn hlen hacc ha
    rw [generate]
    split
    · rename_i hlt
      rw [if_neg (by omega)]
      obtain ⟨sub, h1, hv⟩ := hat iter
      obtain ⟨b, r, s', h2, h3, h4⟩ := constraints_ok hs ha hv
      simp only [h1, h2]
      apply ih (iter + 1) _ s' (by omega) _ _ h3
      · cases b <;> simp <;> omega
      · intro c hc
        cases b with
        | false => exact hacc c (by simpa using hc)
        | true =>
          simp only [if_true, List.mem_append, List.mem_singleton] at hc
          rcases hc with hc | rfl
          · exact hacc c hc
          · exact h4 rfl
    · exact ⟨acc, s, rfl, hacc, ha, hlen⟩

theorem choose_ok {w : World N C} {s0 : St C} {top : List (Member N C)} (hne : top ≠ []) (hg : ∀ c ∈ top, Good w s0 c)
    (k : Nat) : ∃ sub, choose top k = .ok sub ∧ Valid w sub := by
  have hlt : k % top.length < top.length := Nat.mod_lt _ (List.length_pos_iff.2 hne)
  refine ⟨(top[k % top.length]).subnet, by simp [choose, hlt], (hg _ (List.getElem_mem hlt)).valid⟩

/-- The state of the search between epochs. -/
structure Inv (w : World N C) (s0 : St C) (st : Searcher N C) (all : List (Member N C)) : Prop where
  pool : ∀ c ∈ st.pool, Good w s0 c
  small : st.pool.length ≤ w.numCandidates
  top : ∀ c ∈ all, Good w s0 c ∧ Judged w s0 c
  best : BestOf w.topK st.top all
  agree : Agree w s0 st.model

theorem best_mem {k : Nat} {top all : List (Member N C)} (h : BestOf k top all) {c : Member N C} (hc : c ∈ top) : c ∈ all := by
  obtain ⟨rest, hp, _⟩ := h
  exact hp.subset (by simp [hc])

theorem epoch_ok {w : World N C} (hs : Sound w) (hz : Sizes w) {s0 : St C} {st : Searcher N C} {all : List (Member N C)}
    (hi : Inv w s0 st all) {d : Draws C} (hd : SaneDraws w d) :
    epochOf w d st = .error .stillSampling ∨
    ∃ st' scored, epochOf w d st = .ok (st', scored) ∧ Inv w s0 st' (all ++ scored) ∧ st'.top ≠ [] ∧
      scored.length = w.numCandidates ∧ st'.epoch = st.epoch + 1 ∧ st'.maxEpochs = st.maxEpochs := by
  rcases sample_ok hs s0 d.samples st.pool st.model hd.samples hi.pool hi.agree with h | ⟨pool, s, h1, h2, h3, h4⟩
  · exact .inl (by simp [epochOf, h])
  · right
    have hlen : pool.length = w.numCandidates := by rw [h4]; have := hi.small; omega
    have hne : pool ≠ [] := by rintro rfl; have := hz.candidates; simp at hlen; omega
    obtain ⟨scored, s1, e1, e2, e3⟩ := evaluate_ok hs s0 st.epoch pool 0 s h2 h3
    have hsg : ∀ c ∈ scored, Good w s0 c ∧ Judged w s0 c := by
      intro c hc
      obtain ⟨i, hi', rfl⟩ := List.getElem_of_mem hc
      have hl := e3.length_eq
      have := (List.forall₂_iff_get.1 e3).2 i (by omega) hi'
      exact ⟨after_good this (h2 _ (List.getElem_mem _)), this.judged⟩
    have hsl : scored.length = w.numCandidates := by rw [← e3.length_eq, hlen]
    have hb := best_step w.topK st.top all scored hi.best
    have hall : ∀ c ∈ all ++ scored, Good w s0 c ∧ Judged w s0 c := by
      intro c hc
      rcases List.mem_append.1 hc with hc | hc
      · exact hi.top c hc
      · exact hsg c hc
    set top := (sortBy byScore (scored ++ st.top)).take w.topK with htop
    have htg : ∀ c ∈ top, Good w s0 c := fun c hc => (hall c (best_mem hb hc)).1
    have htne : top ≠ [] := by
      obtain ⟨_, _, _, _, hl⟩ := hb
      intro h
      rw [h] at hl
      simp only [List.length_nil, List.length_append, hsl] at hl
      have := hz.topK
      have := hz.candidates
      omega
    obtain ⟨m, s2, g1, g2, g3, g4⟩ := generate_ok hs s0 w.numMutation (mutation w d top) (by
      intro i
      obtain ⟨a, a1, a2⟩ := choose_ok htne htg (d.mutPick i)
      obtain ⟨b, b1, b2⟩ := draw_ok hs (hd.mutations i)
      obtain ⟨r, r1, r2⟩ := cross_ok hs a2 b2 hs.mutateProb (d.mutDraw i)
      exact ⟨r, by simp [mutation, a1, b1, r1], r2⟩) _ 0 [] s1 rfl (Nat.zero_le _) (by simp) e2
    obtain ⟨c, s3, k1, k2, k3, k4⟩ := generate_ok hs s0 w.numCrossover (crossing w d top) (by
      intro i
      obtain ⟨a, a1, a2⟩ := choose_ok htne htg (d.crossFirst i)
      obtain ⟨b, b1, b2⟩ := choose_ok htne htg (d.crossSecond i)
      obtain ⟨r, r1, r2⟩ := cross_ok hs a2 b2 hs.crossoverProb (d.crossDraw i)
      exact ⟨r, by simp [crossing, a1, b1, r1], r2⟩) _ 0 [] s2 rfl (Nat.zero_le _) (by simp) g3
    have hle : (m ++ c).length ≤ w.numCandidates := by
      rw [List.length_append]; have := hz.descendants; omega
    refine ⟨⟨st.epoch + 1, st.maxEpochs, m ++ c, top, s3⟩, scored, ?_, ?_, htne, hsl, rfl, rfl⟩
    · have hbreed : breed w d st scored s1 = .ok ⟨st.epoch + 1, st.maxEpochs, m ++ c, top, s3⟩ := by
        simp only [breed, ← htop, g1, k1]
        rw [if_pos hle]
      simp [epochOf, h1, scoreAll, hne, e1, hbreed]
    · refine ⟨?_, hle, hall, hb, k3⟩
      intro x hx
      rcases List.mem_append.1 hx with hx | hx
      · exact g2 x hx
      · exact k2 x hx

theorem loop_ok {w : World N C} (hs : Sound w) (hz : Sizes w) {s0 : St C} : ∀ (ds : List (Draws C)) (st : Searcher N C)
    (all : List (Member N C)), (∀ d ∈ ds, SaneDraws w d) → Inv w s0 st all →
    loop w ds st = .error .stillSampling ∨
    ∃ st' more, loop w ds st = .ok (st', more) ∧ Inv w s0 st' (all ++ more) ∧
      (st.epoch < st.maxEpochs → st'.top ≠ []) ∧
      (more.length : Int) = w.numCandidates * max 0 (st.maxEpochs - st.epoch)
  | [], st, all, _, hi => by
    rw [loop]
    split
    · exact .inl rfl
    · refine .inr ⟨st, [], rfl, by simpa using hi, fun h => absurd h (by assumption), ?_⟩
      rw [max_eq_left (by omega)]; simp
  | d :: ds, st, all, hd, hi => by
    rw [loop]
    split
    · rename_i hlt
      rcases epoch_ok hs hz hi (hd d (by simp)) with h | ⟨st1, scored, h1, h2, h3, h4, h5, h6⟩
      · exact .inl (by simp [h])
      · simp only [h1, saved, h3, if_false]
        rcases loop_ok hs hz ds st1 (all ++ scored) (fun d hd' => hd d (by simp [hd'])) h2 with h | ⟨st', more, k1, k2, k3, k4⟩
        · exact .inl (by simp [h])
        · refine .inr ⟨st', scored ++ more, by simp [k1], by simpa [List.append_assoc] using k2, ?_, ?_⟩
          · intro _ ht
            obtain ⟨_, _, _, _, hl⟩ := k2.best
            rw [ht] at hl
            simp only [List.length_nil, List.length_append, h4] at hl
            have := hz.topK
            have := hz.candidates
            omega
          · rw [List.length_append]
            push_cast
            rw [k4, h4, h5, h6, max_eq_right (by omega), max_eq_right (by omega)]
            ring
    · refine .inr ⟨st, [], rfl, by simpa using hi, fun h => absurd h (by assumption), ?_⟩
      rw [max_eq_left (by omega)]; simp

theorem start_inv (w : World N C) (n : Int) (s0 : St C) : Inv w s0 (start n s0) [] := by
  refine ⟨by simp [start], by simp [start], by simp, ⟨[], by simp [start], by simp [start], by simp [start], by simp [start]⟩, fun _ _ => rfl⟩

/-! ### The model between checks does not matter -/

theorem check_pair {w : World N C} (hs : Sound w) {s0 s s' : St C} (ha : Agree w s0 s) (ha' : Agree w s0 s')
    {sub : Subnet N C} (hv : Valid w sub) :
    ∃ b r t t', checkConstraints w sub s = .ok (b, r, t) ∧ checkConstraints w sub s' = .ok (b, r, t') ∧
      Agree w s0 t ∧ Agree w s0 t' ∧ (b = true → Good w s0 (newCand (sub, r))) := by
  obtain ⟨b, r, t, h1, h2, h3⟩ := constraints_ok hs ha hv
  cases hc : w.constraints with
  | none =>
    simp only [checkConstraints, hc, Except.ok.injEq, Prod.mk.injEq] at h1 ⊢
    exact ⟨b, r, t, s', h1, ⟨h1.1, h1.2.1, rfl⟩, h2, ha', h3⟩
  | some cs =>
    refine ⟨b, r, t, t, h1, ?_, h2, h2, h3⟩
    obtain ⟨u, a1, a2, _, _⟩ := apply_ok hs ha hv
    obtain ⟨u', b1, b2, _, _⟩ := apply_ok hs ha' hv
    rw [chosen_unique hv b2 a2] at b1
    rw [← h1]
    simp only [checkConstraints, hc, a1, b1]

theorem sample_pair {w : World N C} (hs : Sound w) (s0 : St C) : ∀ (os : List (Offers C)) (pool : List (Member N C))
    (s s' : St C), (∀ o ∈ os, Sane w o) → Agree w s0 s → Agree w s0 s' →
    (sample w os pool s).map Prod.fst = (sample w os pool s').map Prod.fst
  | [], pool, s, s', _, _, _ => by
    rw [sample, sample]
    split <;> rfl
  | o :: os, pool, s, s', ho, ha, ha' => by
    rw [sample, sample]
    split
    · obtain ⟨sub, h1, hv⟩ := draw_ok hs (ho o (by simp))
      obtain ⟨b, r, t, t', h2, h2', h3, h3', _⟩ := check_pair hs ha ha' hv
      simp only [h1, h2, h2']
      exact sample_pair hs s0 os _ t t' (fun o ho' => ho o (by simp [ho'])) h3 h3'
    · rfl

theorem evaluate_pair {w : World N C} (hs : Sound w) (s0 : St C) (epoch : Int) (pool : List (Member N C)) (i : Nat)
    (s s' : St C) (hp : ∀ c ∈ pool, Good w s0 c) (ha : Agree w s0 s) (ha' : Agree w s0 s') :
    (evaluateFrom w epoch i pool s).map Prod.fst = (evaluateFrom w epoch i pool s').map Prod.fst := by
  cases pool with
  | nil => rfl
  | cons c pool =>
    obtain ⟨u, a1, a2, _, _⟩ := apply_ok hs ha (hp c (by simp)).valid
    obtain ⟨u', b1, b2, _, _⟩ := apply_ok hs ha' (hp c (by simp)).valid
    rw [chosen_unique (hp c (by simp)).valid b2 a2] at b1
    simp only [evaluateFrom, a1, b1]

theorem generate_pair {w : World N C} (hs : Sound w) (s0 : St C) (num : Nat) (attempt : Nat → Except Stop (Subnet N C))
    (hat : ∀ i, ∃ sub, attempt i = .ok sub ∧ Valid w sub) : ∀ (n iter : Nat) (acc : List (Member N C)) (s s' : St C),
    num * 10 - iter = n → Agree w s0 s → Agree w s0 s' →
    (generate w num attempt iter acc s).map Prod.fst = (generate w num attempt iter acc s').map Prod.fst := by
  intro n
  induction n with
  | zero =>
    intro iter acc s s' hn _ _
    rw [generate, generate]
    split
    · rw [if_pos (by omega), if_pos (by omega)]; rfl
    · rfl
  | succ n ih =>
    intro iter acc s s' hn ha ha'
    rw [generate, generate]
    split
    · rw [if_neg (by omega), if_neg (by omega)]
      obtain ⟨sub, h1, hv⟩ := hat iter
      obtain ⟨b, r, t, t', h2, h2', h3, h3', _⟩ := check_pair hs ha ha' hv
      simp only [h1, h2, h2']
      exact ih (iter + 1) _ t t' (by omega) h3 h3'
    · rfl

theorem fst_ok {A B : Type} {x y : Except Stop (A × B)} (h : x.map Prod.fst = y.map Prod.fst) {a : A} {b : B}
    (hx : x = .ok (a, b)) : ∃ b', y = .ok (a, b') := by
  subst hx
  cases y with
  | error e => simp [Except.map] at h
  | ok p =>
    simp only [Except.map, Except.ok.injEq] at h
    exact ⟨p.2, by rw [h]⟩

theorem fst_error {A B : Type} {x y : Except Stop (A × B)} (h : x.map Prod.fst = y.map Prod.fst) {e : Stop}
    (hx : x = .error e) : y = .error e := by
  subst hx
  cases y with
  | error e' => simpa [Except.map, eq_comm] using h
  | ok p => simp [Except.map] at h

/-- Two searchers that differ in the model only. -/
structure Twin (st st' : Searcher N C) : Prop where
  epoch : st'.epoch = st.epoch
  maxEpochs : st'.maxEpochs = st.maxEpochs
  pool : st'.pool = st.pool
  top : st'.top = st.top

/-- The best after an epoch. -/
theorem top_good {w : World N C} (hs : Sound w) (hz : Sizes w) {s0 : St C} {st : Searcher N C} {all : List (Member N C)}
    (hi : Inv w s0 st all) {pool scored : List (Member N C)} {s s1 : St C} (hp : ∀ c ∈ pool, Good w s0 c)
    (ha : Agree w s0 s) (hlen : pool.length = w.numCandidates)
    (he : evaluateFrom w st.epoch 0 pool s = .ok (scored, s1)) :
    (∀ c ∈ (sortBy byScore (scored ++ st.top)).take w.topK, Good w s0 c) ∧
      (sortBy byScore (scored ++ st.top)).take w.topK ≠ [] ∧ Agree w s0 s1 := by
  obtain ⟨scored', s1', e1, e2, e3⟩ := evaluate_ok hs s0 st.epoch pool 0 s hp ha
  rw [he, Except.ok.injEq, Prod.mk.injEq] at e1
  obtain ⟨rfl, rfl⟩ := e1
  have hsl : scored.length = w.numCandidates := by rw [← e3.length_eq, hlen]
  refine ⟨?_, ?_, e2⟩
  · intro c hc
    rcases List.mem_append.1 (mem_sortBy.1 (List.mem_of_mem_take hc)) with hc | hc
    · obtain ⟨i, hi', rfl⟩ := List.getElem_of_mem hc
      have hl := e3.length_eq
      have := (List.forall₂_iff_get.1 e3).2 i (by omega) hi'
      exact after_good this (hp _ (List.getElem_mem _))
    · exact (hi.top c (best_mem hi.best hc)).1
  · intro h
    have := congrArg List.length h
    simp only [List.length_take, length_sortBy, List.length_append, List.length_nil, hsl] at this
    have := hz.topK
    have := hz.candidates
    omega

/-- What a searcher saves, with the candidates scored. -/
def core (p : Searcher N C × List (Member N C)) : Int × Int × List (Member N C) × List (Member N C) × List (Member N C) :=
  (p.1.epoch, p.1.maxEpochs, p.1.pool, p.1.top, p.2)

theorem epoch_core {w : World N C} (hs : Sound w) (hz : Sizes w) {s0 : St C} {st st' : Searcher N C}
    {all : List (Member N C)} (hi : Inv w s0 st all) (ht : Twin st st') (ha : Agree w s0 st'.model) {d : Draws C}
    (hd : SaneDraws w d) : (epochOf w d st).map core = (epochOf w d st').map core := by
  have hi' : Inv w s0 st' all := ⟨by rw [ht.pool]; exact hi.pool, by rw [ht.pool]; exact hi.small, hi.top,
    by rw [ht.top]; exact hi.best, ha⟩
  have hsp := sample_pair hs s0 d.samples st.pool st.model st'.model hd.samples hi.agree ha
  rcases sample_ok hs s0 d.samples st.pool st.model hd.samples hi.pool hi.agree with h | ⟨pool, s, h1, h2, h3, h4⟩
  · have := fst_error hsp h
    simp [epochOf, h, ht.pool, this]
  · obtain ⟨s', h1'⟩ := fst_ok hsp h1
    have k3 : Agree w s0 s' := by
      rcases sample_ok hs s0 d.samples st'.pool st'.model hd.samples hi'.pool ha with h | ⟨pool', s1', k1, _, k3, _⟩
      · rw [ht.pool, h1'] at h; cases h
      · rw [ht.pool, h1', Except.ok.injEq, Prod.mk.injEq] at k1
        rw [k1.2]; exact k3
    have hlen : pool.length = w.numCandidates := by rw [h4]; have := hi.small; omega
    obtain ⟨scored, s1, e1, _⟩ := evaluate_ok hs s0 st.epoch pool 0 s h2 h3
    obtain ⟨s1', e1'⟩ := fst_ok (evaluate_pair hs s0 st.epoch pool 0 s s' h2 h3 k3) e1
    obtain ⟨htg, htne, e2⟩ := top_good hs hz hi h2 h3 hlen e1
    obtain ⟨_, _, e2'⟩ := top_good hs hz hi h2 k3 hlen e1'
    have hm : ∀ i, ∃ sub, mutation w d ((sortBy byScore (scored ++ st.top)).take w.topK) i = .ok sub ∧ Valid w sub := by
      intro i
      obtain ⟨a, a1, a2⟩ := choose_ok htne htg (d.mutPick i)
      obtain ⟨b, b1, b2⟩ := draw_ok hs (hd.mutations i)
      obtain ⟨r, r1, r2⟩ := cross_ok hs a2 b2 hs.mutateProb (d.mutDraw i)
      exact ⟨r, by simp [mutation, a1, b1, r1], r2⟩
    have hc : ∀ i, ∃ sub, crossing w d ((sortBy byScore (scored ++ st.top)).take w.topK) i = .ok sub ∧ Valid w sub := by
      intro i
      obtain ⟨a, a1, a2⟩ := choose_ok htne htg (d.crossFirst i)
      obtain ⟨b, b1, b2⟩ := choose_ok htne htg (d.crossSecond i)
      obtain ⟨r, r1, r2⟩ := cross_ok hs a2 b2 hs.crossoverProb (d.crossDraw i)
      exact ⟨r, by simp [crossing, a1, b1, r1], r2⟩
    obtain ⟨m, s2, g1, _, g3, _⟩ := generate_ok hs s0 w.numMutation _ hm _ 0 [] s1 rfl (Nat.zero_le _) (by simp) e2
    obtain ⟨m', s2', g1', _, g3', _⟩ := generate_ok hs s0 w.numMutation _ hm _ 0 [] s1' rfl (Nat.zero_le _) (by simp) e2'
    have hmm : m' = m := by
      have := generate_pair hs s0 w.numMutation _ hm _ 0 [] s1' s1 rfl e2' e2
      rw [g1, g1'] at this
      simpa [Except.map] using this
    subst hmm
    obtain ⟨c, s3, k1, _⟩ := generate_ok hs s0 w.numCrossover _ hc _ 0 [] s2 rfl (Nat.zero_le _) (by simp) g3
    obtain ⟨s3', k1'⟩ := fst_ok (generate_pair hs s0 w.numCrossover _ hc _ 0 [] s2 s2' rfl g3 g3') k1
    have hne : pool ≠ [] := by rintro rfl; have := hz.candidates; simp at hlen; omega
    simp only [epochOf, h1, ht.pool, h1', scoreAll, hne, if_false, e1, ht.epoch, e1', breed, ht.top, g1, g1', k1, k1',
      ht.maxEpochs]
    by_cases hle : (m' ++ c).length ≤ w.numCandidates
    · simp only [hle, if_true]; rfl
    · simp only [hle, if_false]

theorem epoch_pair {w : World N C} (hs : Sound w) (hz : Sizes w) {s0 : St C} {st st' : Searcher N C}
    {all : List (Member N C)} (hi : Inv w s0 st all) (ht : Twin st st') (ha : Agree w s0 st'.model) {d : Draws C}
    (hd : SaneDraws w d) :
    (epochOf w d st = .error .stillSampling ∧ epochOf w d st' = .error .stillSampling) ∨
    ∃ t t' scored, epochOf w d st = .ok (t, scored) ∧ epochOf w d st' = .ok (t', scored) ∧ Twin t t' ∧
      Inv w s0 t (all ++ scored) ∧ Agree w s0 t'.model ∧ t.top ≠ [] := by
  have hi' : Inv w s0 st' all := ⟨by rw [ht.pool]; exact hi.pool, by rw [ht.pool]; exact hi.small, hi.top,
    by rw [ht.top]; exact hi.best, ha⟩
  have hcore := epoch_core hs hz hi ht ha hd
  rcases epoch_ok hs hz hi hd with h | ⟨t, scored, h1, h2, h3, _⟩
  · rcases epoch_ok hs hz hi' hd with h' | ⟨t', scored', h1', _⟩
    · exact .inl ⟨h, h'⟩
    · rw [h, h1'] at hcore
      simp [Except.map] at hcore
  · rcases epoch_ok hs hz hi' hd with h' | ⟨t', scored', h1', h2', _⟩
    · rw [h1, h'] at hcore
      simp [Except.map] at hcore
    · rw [h1, h1'] at hcore
      simp only [Except.map, core, Except.ok.injEq, Prod.mk.injEq] at hcore
      obtain ⟨c1, c2, c3, c4, rfl⟩ := hcore
      exact .inr ⟨t, t', scored, h1, h1', ⟨c1.symm, c2.symm, c3.symm, c4.symm⟩, h2, h2'.agree, h3⟩

theorem loop_pair {w : World N C} (hs : Sound w) (hz : Sizes w) {s0 : St C} : ∀ (ds : List (Draws C))
    (st st' : Searcher N C) (all : List (Member N C)), (∀ d ∈ ds, SaneDraws w d) → Inv w s0 st all → Twin st st' →
    Agree w s0 st'.model →
    (loop w ds st = .error .stillSampling ∧ loop w ds st' = .error .stillSampling) ∨
    ∃ t t' more, loop w ds st = .ok (t, more) ∧ loop w ds st' = .ok (t', more) ∧ Twin t t' ∧
      Inv w s0 t (all ++ more) ∧ Agree w s0 t'.model
  | [], st, st', all, _, hi, ht, ha => by
    rw [loop, loop, ht.epoch, ht.maxEpochs]
    split
    · exact .inl ⟨rfl, rfl⟩
    · exact .inr ⟨st, st', [], rfl, rfl, ht, by simpa using hi, ha⟩
  | d :: ds, st, st', all, hd, hi, ht, ha => by
    rw [loop, loop, ht.epoch, ht.maxEpochs]
    split
    · rcases epoch_pair hs hz hi ht ha (hd d (by simp)) with ⟨h, h'⟩ | ⟨t, t', scored, h1, h1', h2, h3, h4, h5⟩
      · exact .inl (by simp [h, h'])
      · simp only [h1, h1', saved, h2.top, h5, if_false]
        rcases loop_pair hs hz ds t t' (all ++ scored) (fun d hd' => hd d (by simp [hd'])) h3 h2 h4 with
          ⟨h, h'⟩ | ⟨u, u', more, k1, k1', k2, k3, k4⟩
        · exact .inl (by simp [h, h'])
        · exact .inr ⟨u, u', scored ++ more, by simp [k1], by simp [k1'], k2, by simpa [List.append_assoc] using k3, k4⟩
    · exact .inr ⟨st, st', [], rfl, rfl, ht, by simpa using hi, ha⟩

/-- The number of epochs only decides when to stop. -/
def withMax (n : Int) (st : Searcher N C) : Searcher N C := { st with maxEpochs := n }

theorem epoch_max (w : World N C) (d : Draws C) (st : Searcher N C) (n : Int) :
    epochOf w d (withMax n st) = (epochOf w d st).map fun p => (withMax n p.1, p.2) := by
  simp only [epochOf, withMax]
  cases h1 : sample w d.samples st.pool st.model with
  | error e => rfl
  | ok p =>
    obtain ⟨pool, s⟩ := p
    dsimp only
    cases h2 : scoreAll w st.epoch pool s with
    | error e => rfl
    | ok q =>
      obtain ⟨scored, s'⟩ := q
      dsimp only
      simp only [breed]
      cases h3 : generate w w.numMutation (mutation w d ((sortBy byScore (scored ++ st.top)).take w.topK)) 0 [] s' with
      | error e => rfl
      | ok q =>
        obtain ⟨m, s1⟩ := q
        dsimp only
        cases h4 : generate w w.numCrossover (crossing w d ((sortBy byScore (scored ++ st.top)).take w.topK)) 0 [] s1 with
        | error e => rfl
        | ok q =>
          obtain ⟨c, s2⟩ := q
          dsimp only
          by_cases hle : (m ++ c).length ≤ w.numCandidates
          · simp only [hle, if_true]; rfl
          · simp only [hle, if_false]; rfl

theorem epoch_count {w : World N C} {d : Draws C} {st t : Searcher N C} {scored : List (Member N C)}
    (h : epochOf w d st = .ok (t, scored)) : t.epoch = st.epoch + 1 ∧ t.maxEpochs = st.maxEpochs := by
  simp only [epochOf] at h
  split at h
  · cases h
  · split at h
    · cases h
    · split at h
      · cases h
      · rename_i hb
        simp only [Except.ok.injEq, Prod.mk.injEq] at h
        obtain ⟨rfl, rfl⟩ := h
        simp only [breed] at hb
        split at hb
        · cases hb
        · split at hb
          · cases hb
          · split at hb
            · simp only [Except.ok.injEq] at hb
              subst hb
              exact ⟨rfl, rfl⟩
            · cases hb

theorem loop_append (w : World N C) : ∀ (ds more : List (Draws C)) (st t : Searcher N C) (n : Int) (all : List (Member N C)),
    st.maxEpochs = st.epoch + ds.length → st.maxEpochs ≤ n → loop w ds st = .ok (t, all) →
    loop w (ds ++ more) (withMax n st) =
      (loop w more (withMax n t)).map fun p => (p.1, all ++ p.2)
  | [], more, st, t, n, all, hm, hn, h => by
    rw [loop, if_neg (by simp at hm; omega)] at h
    simp only [Except.ok.injEq, Prod.mk.injEq] at h
    obtain ⟨rfl, rfl⟩ := h
    simp only [List.nil_append]
    cases loop w more (withMax n st) <;> rfl
  | d :: ds, more, st, t, n, all, hm, hn, h => by
    simp only [List.length_cons] at hm
    push_cast at hm
    rw [loop, if_pos (by omega)] at h
    cases he : epochOf w d st with
    | error e => rw [he] at h; cases h
    | ok p =>
      obtain ⟨t1, scored⟩ := p
      rw [he] at h
      dsimp only at h
      cases hsv : saved t1 with
      | error e => rw [hsv] at h; cases h
      | ok _ =>
        rw [hsv] at h
        dsimp only at h
        cases hl : loop w ds t1 with
        | error e => rw [hl] at h; cases h
        | ok q =>
          obtain ⟨t2, rest⟩ := q
          rw [hl] at h
          simp only [Except.ok.injEq, Prod.mk.injEq] at h
          obtain ⟨rfl, rfl⟩ := h
          have hc := epoch_count he
          have ih := loop_append w ds more t1 t2 n rest (by omega) (by omega) hl
          have hsv' : saved (withMax n t1) = .ok () := hsv
          rw [List.cons_append, loop, if_pos (show (withMax n st).epoch < (withMax n st).maxEpochs by
            simp only [withMax]; omega), epoch_max, he]
          simp only [Except.map, hsv', ih]
          cases loop w more (withMax n t2) with
          | error e => rfl
          | ok q => simp


theorem export_defined {V : Type} (st : FixSubnet.Store V) (s : St V) (hst : ∀ i, (st i).current = some (s i)) :
    ∀ (vs : List (String × FixSubnet.Id)) (d : FixSubnet.Desc V), ∃ d', FixSubnet.exportLoop st vs d = .ok d'
  | [], d => ⟨d, rfl⟩
  | (n, i) :: vs, d => by
    obtain ⟨d', h⟩ := export_defined st s hst vs (d.put ((st i).aka.getD n) (s i))
    refine ⟨d', ?_⟩
    rw [FixSubnet.exportLoop, FixSubnet.dump, hst i]
    exact h

end Verif.SearchRun
