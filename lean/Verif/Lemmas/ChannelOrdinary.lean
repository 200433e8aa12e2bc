import Verif.Spec.ChannelOrdinary
import Verif.Lemmas.ChannelPlain

/-! Graphs with flattened maps and concatenations have a regular plan: helper lemmas for `Verif/Props/ChannelOrdinary.lean`. -/

namespace Verif.ChannelNodes
open Verif

/-- The tensor has the unit of one of the tensors `R`. -/
def Based (R : List Nat) (L : Lay) (t : Nat) : Prop := t < L.len.length ∧ ∃ u ∈ R, L.u u = L.u t

/-- Tensors that share their unit go on doing so. -/
def Keeps (L L' : Lay) : Prop := L.len.length ≤ L'.len.length ∧
  ∀ t u, t < L.len.length → u < L.len.length → L.u t = L.u u → L'.u t = L'.u u

theorem Keeps.refl (L : Lay) : Keeps L L := ⟨le_refl _, fun _ _ _ _ h => h⟩

theorem Keeps.trans {L L' L'' : Lay} (h : Keeps L L') (h' : Keeps L' L'') : Keeps L L'' :=
  ⟨le_trans h.1 h'.1, fun t u ht hu e => h'.2 t u (lt_of_lt_of_le ht h.1) (lt_of_lt_of_le hu h.1) (h.2 t u ht hu e)⟩

theorem More.keeps {L L' : Lay} (m : More L L') : Keeps L L' :=
  ⟨by rw [m.len]; omega, fun t u ht hu e => by rw [m.u t ht, m.u u hu, e]⟩

theorem join_keeps {L : Lay} (hG : L.Good) (a b g : Nat) : Keeps L (L.join a b g) :=
  ⟨le_refl _, fun t u ht hu e => by rw [join_u hG _ _ _ ht, join_u hG _ _ _ hu, e]⟩

theorem Based.keep {R R' : List Nat} {L L' : Lay} (hF : Flat R L) (hk : Keeps L L') (hR : ∀ u ∈ R, u ∈ R') {t : Nat} (h : Based R L t) :
    Based R' L' t := by
  obtain ⟨h1, u, hu, e⟩ := h
  exact ⟨lt_of_lt_of_le h1 hk.1, u, hR u hu, hk.2 u t (hF u hu).1 h1 e⟩

theorem Based.self {R : List Nat} {L : Lay} (hF : Flat R L) {t : Nat} (h : t ∈ R) : Based R L t := ⟨(hF t h).1, t, h, rfl⟩

theorem glue_keeps {L L' : Lay} (hG : L.Good) {t u : Nat} (h : L.glue t u = some L') : Keeps L L' := by
  unfold Lay.glue at h
  split at h
  · cases h; exact join_keeps hG _ _ _
  · cases h

theorem bind_keeps {R : List Nat} {L L' : Lay} (hG : L.Good) (h : Flat R L) {t v : Nat} (ht : t ∈ R) (hv : v ∈ R) (hl : L.l t = L.l v)
    (hb : Lay.bind [t] [v] L = some L') : Keeps L L' := by
  obtain ⟨L1, e1, -⟩ := glue_flat hG h ht hv hl
  simp only [Lay.bind, if_pos hl, e1, Option.some.injEq] at hb
  rw [← hb]
  exact glue_keeps hG e1

theorem bindAll_keeps {R : List Nat} {t : Nat} (ht : t ∈ R) : ∀ (vs : List Nat) (L L' : Lay), L.Good → Flat R L → (∀ v ∈ vs, v ∈ R) →
    (∀ v ∈ vs, L.l t = L.l v) → Lay.bindAll [t] (vs.map (fun v => [v])) L = some L' → Keeps L L'
  | [], L, L', _, _, _, _, h => by
    simp only [List.map_nil, Lay.bindAll, Option.some.injEq] at h
    rw [← h]; exact Keeps.refl L
  | v :: vs, L, L', hG, hF, hv, hl, h => by
    obtain ⟨L1, e1, e2, e3, e4⟩ := bind_flat hG hF ht (hv v (by simp)) (hl v (by simp))
    have hl1 : ∀ x, L1.l x = L.l x := fun x => by unfold Lay.l; rw [e2]
    simp only [List.map_cons, Lay.bindAll, e1] at h
    exact (bind_keeps hG hF ht (hv v (by simp)) (hl v (by simp)) e1).trans
      (bindAll_keeps ht vs L1 L' e3 e4 (fun w hw => hv w (by simp [hw])) (fun w hw => by rw [hl1, hl1]; exact hl w (by simp [hw])) h)

theorem collapse_ord {R : List Nat} {e0 e : Nat} (he : e0 ∈ R) : ∀ (v : List Nat) (L : Lay), L.Good → Flat R L → e < L.len.length → L.u e = L.u e0 →
    L.n e0 = 1 → (∀ t ∈ v, Based R L t) →
    Flat R (Lay.collapse e v L) ∧ (Lay.collapse e v L).Good ∧ Keeps L (Lay.collapse e v L) ∧ (Lay.collapse e v L).len = L.len ∧
      (Lay.collapse e v L).n e0 = 1
  | [], L, hG, hF, _, _, h1, _ => ⟨hF, hG, Keeps.refl L, rfl, h1⟩
  | t :: v, L, hG, hF, hel, heu, h1, hb => by
    obtain ⟨t1, u, hu, eu⟩ := hb t (by simp)
    obtain ⟨f, g⟩ := flat_join hG hF hu he (Or.inr h1)
    rw [h1, Nat.gcd_one_right, eu, ← heu] at f g
    have hk : Keeps L (L.join (L.u t) (L.u e) 1) := join_keeps hG _ _ _
    have he0 := (hF e0 he).1
    have hn : (L.join (L.u t) (L.u e) 1).n e0 = 1 := by
      rw [join_n hG _ _ _ (hG.ut t t1) he0, if_pos (Or.inr heu.symm)]
    obtain ⟨a1, a2, a3, a4, a5⟩ := collapse_ord he v (L.join (L.u t) (L.u e) 1) g f hel (hk.2 e e0 hel he0 heu) hn
      (fun x hx => (hb x (by simp [hx])).keep hF hk (fun _ h => h))
    exact ⟨a1, a2, hk.trans a3, a4, a5⟩

theorem finish_ord {R : List Nat} {e : Nat} (he : e ∈ R) : ∀ (vs : List (List Nat)) (L : Lay), L.Good → Flat R L → L.l e = 1 →
    (∀ v ∈ vs, v ≠ [] ∧ L.size v ≤ 2 ^ 32 ∧ ∀ t ∈ v, Based R L t) → (∀ n ∈ L.len, n ≤ 2 ^ 32) →
    Flat R (Lay.finish e vs L) ∧ (Lay.finish e vs L).Good ∧ Keeps L (Lay.finish e vs L) ∧ ∀ n ∈ (Lay.finish e vs L).len, n ≤ 2 ^ 32
  | [], L, hG, hF, _, _, hS => ⟨hF, hG, Keeps.refl L, hS⟩
  | v :: vs, L, hG, hF, h1, hv, hS => by
    obtain ⟨v1, v2, v3⟩ := hv v (by simp)
    obtain ⟨e1, e2, e3, e4⟩ := hF e he
    have hpos : 0 < L.size v := by
      match v, v1, v3 with
      | t :: v, _, v3 =>
        have := (hG.fill t (v3 t (by simp)).1).1
        simp [Lay.size]; omega
    obtain ⟨m, m1, m2, m3, m4⟩ := spread_more hG e1 (L.size v)
    have g1 := spread_good hG e1 hpos
    have f1 := flat_more hF m
    have ne : (L.spread e (L.size v)).n e = 1 := by
      rw [m.n e e1]
      rcases e3 with e3 | e3
      · exact e3
      · rw [e3, h1]
    obtain ⟨c1, c2, c3, c4, c5⟩ := collapse_ord (e := L.len.length) he v (L.spread e (L.size v)) g1 f1 (by rw [m.len]; omega)
      (by rw [m1, m.u e e1]) ne (fun t ht => (v3 t ht).keep hF m.keeps (fun _ h => h))
    have hk := m.keeps.trans c3
    have hlen : (Lay.collapse L.len.length v (L.spread e (L.size v))).len = L.len ++ [L.size v] := by
      rw [c4]; simp [Lay.spread, h1]
    have hl : ∀ x < L.len.length, (Lay.collapse L.len.length v (L.spread e (L.size v))).l x = L.l x := by
      intro x hx
      unfold Lay.l
      rw [hlen]
      exact getD_left hx
    obtain ⟨a1, a2, a3, a4⟩ := finish_ord he vs _ c2 c1 (by rw [hl e e1]; exact h1) (by
      intro w hw
      obtain ⟨w1, w2, w3⟩ := hv w (by simp [hw])
      refine ⟨w1, ?_, fun t ht => (w3 t ht).keep hF hk (fun _ h => h)⟩
      have : (Lay.collapse L.len.length v (L.spread e (L.size v))).size w = L.size w := by
        unfold Lay.size
        congr 1
        exact List.map_congr_left (fun t ht => hl t (w3 t ht).1)
      rw [this]; exact w2) (by
      rw [hlen]
      intro n hn
      rcases List.mem_append.1 hn with hn | hn
      · exact hS n hn
      · have : n = L.size v := by simpa using hn
        rw [this]; exact v2)
    exact ⟨a1, a2, hk.trans a3, a4⟩

/-- What a node leaves behind. -/
structure Left (R : List Nat) (L : Lay) (k : Kind) (gs : List Form) (f : Form) (p : PRec) (R' : List Nat) (L' : Lay) : Prop where
  sub : ∀ u ∈ R, u ∈ R'
  new : ∀ u ∈ R', u ∈ R ∨ p.inp = [u] ∨ p.out = [u]
  flat : Flat R' L'
  keeps : Keeps L L'
  based : ∀ t, t ∈ p.inp ∨ t ∈ p.out ∨ t ∈ p.ret → Based R' L' t
  small : ∀ n ∈ L'.len, n ≤ 2 ^ 32
  whole : f = .whole → ∃ c ∈ R', p.ret = [c]
  single : f = .flat → ∃ c, p.ret = [c]
  direct : k ≠ .cat → (∀ r, k ≠ .expand r) → (∀ g ∈ gs, g = Form.whole) → ∃ a ∈ R', ∃ b ∈ R', p.inp = [a] ∧ p.out = [b]

theorem ord_node {R : List Nat} {L : Lay} (hG : L.Good) (hF : Flat R L) (hS : ∀ n ∈ L.len, n ≤ 2 ^ 32) {k : Kind} (hz : SizedKind k)
    (vs : List (List Nat)) (gs : List Form) (f : Form)
    (hv : (∃ n, k = .input n) ∨ ∀ v ∈ vs, v ≠ [] ∧ L.size v ≤ 2 ^ 32 ∧ ∀ t ∈ v, Based R L t)
    (hg : List.Forall₂ (fun v g => (g = .whole → ∃ c ∈ R, v = [c]) ∧ (g = Form.flat → ∃ c, v = [c])) vs gs)
    (hf : formOf gs ⟨"", k, List.range gs.length, none⟩ = some f) {s s' : S} {r : Rec} (hr : r.ret.length ≤ 2 ^ 32)
    (h : forwardNode k (vs.map L.whole) s = .ok (r, s')) :
    ∃ p R' L', planNode k vs L = some (p, L') ∧ Left R L k gs f p R' L' := by
  have snew : ∀ n, n ≤ 2 ^ 32 → ∀ m ∈ (L.new n).len, m ≤ 2 ^ 32 := by
    intro n hn m hm
    rcases List.mem_append.1 (show m ∈ L.len ++ [n] from hm) with hm | hm
    · exact hS m hm
    · have : m = n := by simpa using hm
      omega
  have hsub : ∀ (R : List Nat) (x : Nat), ∀ u ∈ R, u ∈ R ++ [x] := fun R x u hu => List.mem_append.2 (Or.inl hu)
  cases k with
  | input n =>
    have fl := flat_new hG hF n
    refine ⟨⟨[L.len.length], [L.len.length], [L.len.length]⟩, R ++ [L.len.length], L.new n, by simp only [planNode]; rw [if_pos hz.1],
      hsub R _, ?_, fl, (new_more hG n).1.keeps, ?_, snew n hz.2, fun _ => ⟨_, by simp, rfl⟩, fun _ => ⟨_, rfl⟩,
      fun _ _ _ => ⟨_, by simp, _, by simp, rfl, rfl⟩⟩
    · intro u hu
      rcases List.mem_append.1 hu with hu | hu
      · exact Or.inl hu
      · right; left; have : u = L.len.length := by simpa using hu
        rw [this]
    · intro t ht
      have : t = L.len.length := by simpa using ht
      rw [this]; exact Based.self fl (by simp)
  | mix n =>
    have hv' := hv.resolve_left (by rintro ⟨m, hm⟩; cases hm)
    match vs, hv', h with
    | [], _, h => cases h
    | [v], hv', _ =>
      have fl := flat_new hG hF n
      have kp := (new_more hG n).1.keeps
      refine ⟨⟨v, [L.len.length], [L.len.length]⟩, R ++ [L.len.length], L.new n, by simp only [planNode]; rw [if_pos hz.1],
        hsub R _, ?_, fl, kp, ?_, snew n hz.2, fun _ => ⟨_, by simp, rfl⟩, fun _ => ⟨_, rfl⟩, ?_⟩
      · intro u hu
        rcases List.mem_append.1 hu with hu | hu
        · exact Or.inl hu
        · right; right; have : u = L.len.length := by simpa using hu
          rw [this]
      · intro t ht
        have : t ∈ v ∨ t = L.len.length := by simpa using ht
        rcases this with ht | rfl
        · exact ((hv' v (by simp)).2.2 t ht).keep hF kp (hsub R _)
        · exact Based.self fl (by simp)
      · intro _ _ hw
        match gs, hg, hw with
        | g :: gs, hg, hw =>
          obtain ⟨c, hc, e⟩ := (List.forall₂_cons.1 hg).1.1 (hw g (by simp))
          exact ⟨c, hsub R _ c hc, _, by simp, e, rfl⟩
    | _ :: _ :: _, _, h => cases h
  | passUnion =>
    have hv' := hv.resolve_left (by rintro ⟨m, hm⟩; cases hm)
    match vs, gs, hv', hg, hf, h with
    | [], _, _, _, _, h => cases h
    | v :: vs, g :: gs, hv', hg, hf, _ =>
      obtain ⟨hg1, -⟩ := List.forall₂_cons.1 hg
      have hfg : g = f := by simpa [formOf, List.range_succ_eq_map] using hf
      subst hfg
      refine ⟨⟨v, v, v⟩, R, L, rfl, fun _ h => h, fun _ h => Or.inl h, hF, Keeps.refl L, ?_, hS, hg1.1, hg1.2, fun _ _ hw => ?_⟩
      swap
      · obtain ⟨c, hc, e⟩ := hg1.1 (hw g (by simp))
        exact ⟨c, hc, c, hc, e, e⟩
      intro t ht
      have ht' : t ∈ v := by simpa using ht
      exact (hv' v (by simp)).2.2 t ht'
  | pass =>
    have hv' := hv.resolve_left (by rintro ⟨m, hm⟩; cases hm)
    match vs, gs, hv', hg, hf, h with
    | [], _, _, _, _, h => cases h
    | [v], g :: gs, hv', hg, hf, _ =>
      obtain ⟨hg1, -⟩ := List.forall₂_cons.1 hg
      have hfg : g = f := by simpa [formOf, List.range_succ_eq_map] using hf
      subst hfg
      have g1 := new_good hG Nat.one_pos
      have f2 := flat_new g1 (flat_new hG hF 1) 1
      have hlen : (L.new 1).len.length = L.len.length + 1 := by simp [Lay.new]
      have kp : Keeps L ((L.new 1).new 1) := (new_more hG 1).1.keeps.trans (new_more g1 1).1.keeps
      rw [hlen] at f2
      refine ⟨⟨[L.len.length], [L.len.length + 1], v⟩, R ++ [L.len.length] ++ [L.len.length + 1], (L.new 1).new 1, rfl,
        fun u hu => hsub _ _ u (hsub _ _ u hu), ?_, f2, kp, ?_, ?_, ?_, hg1.2,
        fun _ _ _ => ⟨_, by simp, _, by simp, rfl, rfl⟩⟩
      · intro u hu
        have : u ∈ R ∨ u = L.len.length ∨ u = L.len.length + 1 := by
          simp only [List.mem_append, List.mem_cons, List.not_mem_nil, or_false] at hu
          tauto
        rcases this with h | rfl | rfl
        · exact Or.inl h
        · exact Or.inr (Or.inl rfl)
        · exact Or.inr (Or.inr rfl)
      · intro t ht
        have : t = L.len.length ∨ t = L.len.length + 1 ∨ t ∈ v := by simpa using ht
        rcases this with rfl | rfl | ht
        · exact Based.self f2 (by simp)
        · exact Based.self f2 (by simp)
        · exact ((hv' v (by simp)).2.2 t ht).keep hF kp (fun u hu => hsub _ _ u (hsub _ _ u hu))
      · intro m hm
        rcases List.mem_append.1 (show m ∈ (L.len ++ [1]) ++ [1] from hm) with hm | hm
        · exact snew 1 (by norm_num) m hm
        · have : m = 1 := by simpa using hm
          rw [this]; norm_num
      · intro hw
        obtain ⟨c, hc, e⟩ := hg1.1 hw
        exact ⟨c, hsub _ _ c (hsub _ _ c hc), e⟩
    | _ :: _ :: _, _, _, _, _, h => cases h
  | bind =>
    have hall : ∀ v ∈ vs, ∃ c ∈ R, v = [c] := by
      have h1 : ∀ g ∈ gs, g = Form.whole := by
        simp only [formOf] at hf
        split at hf
        · rename_i hc
          intro g hg'
          obtain ⟨i, hi⟩ := List.mem_iff_getElem?.1 hg'
          have := hc i (List.mem_range.2 (List.getElem?_eq_some_iff.1 hi).1)
          rw [hi] at this
          cases this; rfl
        · cases hf
      intro v hv
      obtain ⟨i, hi⟩ := List.mem_iff_getElem?.1 hv
      have hlt : i < gs.length := by rw [← hg.length_eq]; exact (List.getElem?_eq_some_iff.1 hi).1
      have hgi : gs[i]? = some gs[i] := List.getElem?_eq_getElem hlt
      have := hg.get (List.getElem?_eq_some_iff.1 hi).1 hlt
      obtain ⟨h3, h4⟩ := List.getElem?_eq_some_iff.1 hi
      simp only [List.get_eq_getElem, h4] at this
      exact this.1 (h1 _ (List.getElem_mem hlt))
    have hws : ∃ ws : List Nat, vs = ws.map (fun c => [c]) ∧ ∀ c ∈ ws, c ∈ R := by
      clear hg hf h hv hz
      induction vs with
      | nil => exact ⟨[], rfl, by simp⟩
      | cons v vs ih =>
        obtain ⟨c, hc, e⟩ := hall v (by simp)
        obtain ⟨ws, e1, e2⟩ := ih (fun w hw => hall w (by simp [hw]))
        refine ⟨c :: ws, by rw [e, e1]; rfl, ?_⟩
        intro x hx
        rcases List.mem_cons.1 hx with rfl | hx
        · exact hc
        · exact e2 x hx
    obtain ⟨ws, e, hws⟩ := hws
    subst e
    match ws, hws, h with
    | [], _, h => cases h
    | v :: ws, hws, h =>
      have hvR := hws v (by simp)
      have hl : ∀ w ∈ ws, L.l v = L.l w := by
        simp only [forwardNode, List.map_cons, List.map_map] at h
        cases hb : bindLoop (L.whole [v]) (ws.map (L.whole ∘ fun c => [c])) s with
        | error e => rw [hb] at h; cases h
        | ok s1 =>
          intro w hw
          have := bindLoop_length _ _ _ hb (L.whole [w]) (List.mem_map.2 ⟨w, hw, rfl⟩)
          rw [whole_single, whole_single] at this
          exact this
      obtain ⟨L', e1, e2, e3, e4⟩ := bindAll_flat hvR ws L hG hF (fun w hw => hws w (by simp [hw])) hl
      have kp := bindAll_keeps hvR ws L L' hG hF (fun w hw => hws w (by simp [hw])) hl e1
      refine ⟨⟨[v], [v], [v]⟩, R, L', by simp only [planNode, List.map_cons, e1], fun _ h => h, fun _ h => Or.inl h, e4, kp, ?_, by rw [e2]; exact hS,
        fun _ => ⟨v, hvR, rfl⟩, fun _ => ⟨v, rfl⟩, fun _ _ _ => ⟨v, hvR, v, hvR, rfl, rfl⟩⟩
      intro t ht
      have : t = v := by simpa using ht
      rw [this]; exact Based.self e4 hvR
  | cat =>
    have hv' := hv.resolve_left (by rintro ⟨m, hm⟩; cases hm)
    have hfj : f = .joined := by simpa [formOf] using hf.symm
    subst hfj
    refine ⟨⟨vs.flatten, vs.flatten, vs.flatten⟩, R, L, rfl, fun _ h => h, fun _ h => Or.inl h, hF, Keeps.refl L, ?_, hS,
      nofun, nofun, fun h => absurd rfl h⟩
    intro t ht
    have ht' : t ∈ vs.flatten := by tauto
    obtain ⟨v, hv1, hv2⟩ := List.mem_flatten.1 ht'
    exact (hv' v hv1).2.2 t hv2
  | expand n =>
    have hv' := hv.resolve_left (by rintro ⟨m, hm⟩; cases hm)
    match vs, gs, hv', hg, hf, h with
    | [], _, _, _, _, h => cases h
    | [v], g :: gs, hv', hg, hf, h =>
      obtain ⟨hg1, hg2⟩ := List.forall₂_cons.1 hg
      have : gs = [] := by cases hg2; rfl
      subst this
      have hs : (∃ c, v = [c]) ∧ f = .flat := by
        cases g with
        | whole =>
          obtain ⟨c, _, e⟩ := hg1.1 rfl
          exact ⟨⟨c, e⟩, by simpa [formOf, List.range_succ] using hf.symm⟩
        | flat => exact ⟨hg1.2 rfl, by simpa [formOf, List.range_succ] using hf.symm⟩
        | joined => simp [formOf, List.range_succ] at hf
      obtain ⟨⟨c, rfl⟩, rfl⟩ := hs
      obtain ⟨hb1, hb2⟩ := (hv' [c] (by simp)).2.2 c (by simp)
      have hn : 0 < n := by
        simp only [forwardNode, List.map_cons, List.map_nil, single] at h
        by_cases h0 : n = 0
        · rw [if_pos h0] at h; cases h
        · omega
      obtain ⟨m, m1, m2, m3, m4⟩ := spread_more hG hb1 n
      have fl := flat_more hF m
      have hbN : Based R (L.spread c n) L.len.length := by
        obtain ⟨u, hu, eu⟩ := hb2
        exact ⟨by rw [m.len]; omega, u, hu, by rw [m1, m.u u (hF u hu).1, eu]⟩
      refine ⟨⟨[c], [L.len.length], [L.len.length]⟩, R, L.spread c n, by simp only [planNode]; rw [if_pos hn], fun _ h => h, fun _ h => Or.inl h, fl,
        m.keeps, ?_, ?_, nofun, fun _ => ⟨_, rfl⟩, fun _ h => absurd rfl (h n)⟩
      · intro t ht
        have : t = c ∨ t = L.len.length := by simpa using ht
        rcases this with rfl | rfl
        · exact Based.keep hF m.keeps (fun _ h => h) ⟨hb1, hb2⟩
        · exact hbN
      · intro x hx
        rcases List.mem_append.1 (show x ∈ L.len ++ [n * L.l c] from hx) with hx | hx
        · exact hS x hx
        · have hx' : x = n * L.l c := by simpa using hx
          simp only [forwardNode, List.map_cons, List.map_nil, single] at h
          rw [if_neg (by omega)] at h
          simp only [Except.ok.injEq, Prod.mk.injEq] at h
          rw [← h.1] at hr
          have : (expandT (L.whole [c]) n s).1.length = n * L.l c := by
            simp only [expandT, fresh, elemsOf, List.length_map, List.length_range]
            rw [whole_single]
          dsimp only at hr
          omega
    | _ :: _ :: _, _, _, _, _, h => cases h
  | stop =>
    have hv' := hv.resolve_left (by rintro ⟨m, hm⟩; cases hm)
    obtain ⟨m, m1, m2, m3, m4⟩ := new_more hG 1
    have fl := flat_new hG hF 1
    obtain ⟨a1, a2, a3, a4⟩ := finish_ord (R := R ++ [L.len.length]) (e := L.len.length) (by simp) vs (L.new 1)
      (new_good hG Nat.one_pos) fl m3 (by
        intro v hv
        obtain ⟨w1, w2, w3⟩ := hv' v hv
        refine ⟨w1, ?_, fun t ht => (w3 t ht).keep hF m.keeps (hsub R _)⟩
        have : (L.new 1).size v = L.size v := by
          unfold Lay.size
          congr 1
          exact List.map_congr_left (fun t ht => m.l t (w3 t ht).1)
        rw [this]; exact w2) (snew 1 (by norm_num))
    refine ⟨⟨[L.len.length], [L.len.length], [L.len.length]⟩, R ++ [L.len.length], Lay.finish L.len.length vs (L.new 1), by simp only [planNode],
      hsub R _, ?_, a1, m.keeps.trans a3, ?_, a4, fun _ => ⟨_, by simp, rfl⟩, fun _ => ⟨_, rfl⟩,
      fun _ _ _ => ⟨_, by simp, _, by simp, rfl, rfl⟩⟩
    · intro u hu
      rcases List.mem_append.1 hu with hu | hu
      · exact Or.inl hu
      · right; left; have : u = L.len.length := by simpa using hu
        rw [this]
    · intro t ht
      have : t = L.len.length := by simpa using ht
      rw [this]; exact Based.self a1 (by simp)
  | group g o => simp [formOf] at hf
  | groupNorm g c => simp [formOf] at hf

theorem formOf_local {fs gs : List Form} {n : Node} (h : n.prev.map (fun i => fs[i]?) = gs.map some) :
    formOf fs n = formOf gs ⟨"", n.kind, List.range gs.length, none⟩ := by
  obtain ⟨nm, k, prev, md⟩ := n
  dsimp only at h ⊢
  cases k <;> try rfl
  case bind =>
    have : (∀ i ∈ prev, fs[i]? = some Form.whole) ↔ ∀ i ∈ List.range gs.length, gs[i]? = some Form.whole := by
      constructor
      · intro ha i hi
        have hlt := List.mem_range.1 hi
        have hm : gs[i] ∈ gs := List.getElem_mem hlt
        have : some gs[i] ∈ prev.map (fun i => fs[i]?) := by rw [h]; exact List.mem_map.2 ⟨_, hm, rfl⟩
        obtain ⟨j, hj, e⟩ := List.mem_map.1 this
        rw [List.getElem?_eq_getElem hlt, ← e]
        exact ha j hj
      · intro ha i hi
        have : fs[i]? ∈ gs.map some := by rw [← h]; exact List.mem_map.2 ⟨i, hi, rfl⟩
        obtain ⟨g, hg, e⟩ := List.mem_map.1 this
        obtain ⟨j, hj⟩ := List.mem_iff_getElem?.1 hg
        have := ha j (List.mem_range.2 (List.getElem?_eq_some_iff.1 hj).1)
        rw [← e, ← hj]
        exact this
    simp only [formOf]
    by_cases hc : ∀ i ∈ prev, fs[i]? = some Form.whole
    · rw [if_pos hc, if_pos (this.1 hc)]
    · rw [if_neg hc, if_neg (fun hx => hc (this.2 hx))]
  case expand r =>
    match prev, gs, h with
    | [], [], _ => rfl
    | [i], [g], h =>
      have : fs[i]? = some g := by simpa using h
      simp [formOf, this, List.range_succ]
    | _ :: _ :: _, _ :: _ :: _, _ => simp [formOf, List.range_succ_eq_map]
    | [_], _ :: _ :: _, h => simp at h
    | _ :: _ :: _, [_], h => simp at h
  case passUnion =>
    match prev, gs, h with
    | [], [], _ => rfl
    | i :: _, g :: _, h =>
      have : fs[i]? = some g := by have := h; simp only [List.map_cons, List.cons.injEq] at this; exact this.1
      simp [formOf, this, List.range_succ_eq_map]
  case pass =>
    match prev, gs, h with
    | [], [], _ => rfl
    | i :: _, g :: _, h =>
      have : fs[i]? = some g := by have := h; simp only [List.map_cons, List.cons.injEq] at this; exact this.1
      simp [formOf, this, List.range_succ_eq_map]

/-- The single tensors of the records of a node whose module may be shared. -/
def Two (R : List Nat) (p : PRec) : Prop := ∃ a ∈ R, ∃ b ∈ R, p.inp = [a] ∧ p.out = [b]

/-- What holds along the graph. -/
structure InvO (ns : List Node) (fs : List Form) (ps : List PRec) (R : List Nat) (L : Lay) : Prop where
  forms : List.Forall₂ (fun f p => (f = Form.whole → ∃ c ∈ R, p.ret = [c]) ∧ (f = Form.flat → ∃ c, p.ret = [c])) fs ps
  based : ∀ p ∈ ps, ∀ t, t ∈ p.inp ∨ t ∈ p.out ∨ t ∈ p.ret → Based R L t
  single : ∀ u ∈ R, [u] ∈ tensors ps
  flat : Flat R L
  small : ∀ n ∈ L.len, n ≤ 2 ^ 32
  direct : List.Forall₂ (fun n p => ∀ fs', fs <+: fs' → Direct fs' n → Two R p) ns ps

theorem inputs_ord {ns : List Node} {fs : List Form} {ps : List PRec} {R : List Nat} {L : Lay} (hI : InvO ns fs ps R L) (hf : ∀ p ∈ ps, L.Fits p)
    (hs : ∀ p ∈ ps, (L.real p).ret.length ≤ 2 ^ 32) : ∀ (is : List Nat) (ts : List Tensor),
    inputsOf (ps.map L.real) is = .ok ts → ∃ (vs : List (List Nat)) (gs : List Form), planInputs ps is = some vs ∧ ts = vs.map L.whole ∧
      (∀ v ∈ vs, v ≠ [] ∧ L.size v ≤ 2 ^ 32 ∧ ∀ t ∈ v, Based R L t) ∧
      List.Forall₂ (fun v g => (g = .whole → ∃ c ∈ R, v = [c]) ∧ (g = Form.flat → ∃ c, v = [c])) vs gs ∧
      is.map (fun i => fs[i]?) = gs.map some
  | [], ts, h => by
    simp only [inputsOf, Except.ok.injEq] at h
    exact ⟨[], [], rfl, h.symm, by simp, .nil, rfl⟩
  | i :: is, ts, h => by
    simp only [inputsOf] at h
    cases h1 : (ps.map L.real)[i]? with
    | none => rw [h1] at h; cases h
    | some r =>
      cases h2 : inputsOf (ps.map L.real) is with
      | error e => rw [h1, h2] at h; cases h
      | ok us =>
        rw [h1, h2] at h
        simp only [Except.ok.injEq] at h
        obtain ⟨vs, gs, e1, e2, e3, e4, e5⟩ := inputs_ord hI hf hs is us h2
        rw [List.getElem?_map] at h1
        cases h3 : ps[i]? with
        | none => rw [h3] at h1; cases h1
        | some p =>
          rw [h3] at h1
          simp only [Option.map_some, Option.some.injEq] at h1
          have hp := List.mem_of_getElem? h3
          obtain ⟨hlt, hget⟩ := List.getElem?_eq_some_iff.1 h3
          have hlt' : i < fs.length := by rw [hI.forms.length_eq]; exact hlt
          have hfp := hI.forms.get hlt' hlt
          simp only [List.get_eq_getElem, hget] at hfp
          refine ⟨p.ret :: vs, fs[i] :: gs, ?_, ?_, ?_, ?_, ?_⟩
          · simp only [planInputs, h3, e1]
          · rw [← h, ← h1, e2]; rfl
          · intro v hv
            rcases List.mem_cons.1 hv with rfl | hv
            · refine ⟨(hf p hp).ret.2, ?_, fun t ht => hI.based p hp t (Or.inr (Or.inr ht))⟩
              rw [← whole_length]; exact hs p hp
            · exact e3 v hv
          · exact .cons hfp e4
          · rw [List.map_cons, List.map_cons, e5, List.getElem?_eq_getElem hlt']

theorem forall₂_snoc {α β : Type} {P : α → β → Prop} {a : List α} {b : List β} {x : α} {y : β} (h : List.Forall₂ P a b) (hx : P x y) :
    List.Forall₂ P (a ++ [x]) (b ++ [y]) := by
  induction h with
  | nil => exact .cons hx .nil
  | cons h1 _ ih => exact .cons h1 ih

theorem invO_snoc {ns : List Node} {fs : List Form} {ps : List PRec} {R R' : List Nat} {L L0 L' : Lay} {n : Node} {gs : List Form} {f : Form}
    {p : PRec} (hI : InvO ns fs ps R L) (hk : Keeps L L0) (hl : Left R L0 n.kind gs f p R' L')
    (hg : n.prev.map (fun i => fs[i]?) = gs.map some) :
    InvO (ns ++ [n]) (fs ++ [f]) (ps ++ [p]) R' L' := by
  have kp := hk.trans hl.keeps
  refine ⟨?_, ?_, ?_, hl.flat, hl.small, ?_⟩
  · refine forall₂_snoc (hI.forms.imp ?_) ⟨hl.whole, hl.single⟩
    rintro a b ⟨h1, h2⟩
    exact ⟨fun h => by obtain ⟨c, hc, e⟩ := h1 h; exact ⟨c, hl.sub c hc, e⟩, h2⟩
  · intro q hq t ht
    rcases List.mem_append.1 hq with hq | hq
    · exact (hI.based q hq t ht).keep hI.flat kp hl.sub
    · rw [List.mem_singleton.1 hq] at ht
      exact hl.based t ht
  · intro u hu
    unfold tensors
    rw [List.flatMap_append]
    rcases hl.new u hu with h | h
    · exact List.mem_append.2 (Or.inl (hI.single u h))
    · refine List.mem_append.2 (Or.inr ?_)
      rcases h with h | h <;> simp [h]
  · refine forall₂_snoc (hI.direct.imp ?_) ?_
    · intro a b h fs' hp hd
      obtain ⟨x, hx, y, hy, e⟩ := h fs' ((List.prefix_append _ _).trans hp) hd
      exact ⟨x, hl.sub x hx, y, hl.sub y hy, e⟩
    · rintro fs' hp ⟨d1, d2, d3⟩
      refine hl.direct d1 d2 ?_
      intro g hgm
      have : some g ∈ n.prev.map (fun i => fs[i]?) := by rw [hg]; exact List.mem_map.2 ⟨g, hgm, rfl⟩
      obtain ⟨i, hi, e⟩ := List.mem_map.1 this
      have h1 := d3 i hi
      obtain ⟨tl, htl⟩ := (List.prefix_append fs [f]).trans hp
      have hlt := (List.getElem?_eq_some_iff.1 e).1
      rw [← htl, List.getElem?_append_left hlt, e] at h1
      cases h1; rfl

theorem step_ord {inputs : Nat} (h0 : 0 < inputs ∧ inputs ≤ 2 ^ 32) {n : Node} (hz : SizedKind n.kind) (hst : n.prev = [] → ∃ k, n.kind = .input k)
    {ns : List Node} {fs : List Form} {f : Form} {ps : List PRec} {R : List Nat} {s s' : S} {L : Lay} {r : Rec} (hG : L.Good)
    (hI : InvO ns fs ps R L) (hf : ∀ p ∈ ps, L.Fits p) (hs : ∀ p ∈ ps, (L.real p).ret.length ≤ 2 ^ 32) (hr : r.ret.length ≤ 2 ^ 32)
    (hform : formOf fs n = some f) (h : step inputs n (ps.map L.real) s = .ok (r, s')) :
    ∃ p R' L', planStep inputs n ps L = some (p, L') ∧ InvO (ns ++ [n]) (fs ++ [f]) (ps ++ [p]) R' L' := by
  unfold step at h
  unfold planStep
  by_cases hp : n.prev = []
  · rw [if_pos hp, if_pos h0.1]
    obtain ⟨k, hk⟩ := hst hp
    obtain ⟨m, -⟩ := new_more hG inputs
    have i5 : n.prev.map (fun i => fs[i]?) = ([] : List Form).map some := by rw [hp]; rfl
    rw [formOf_local i5] at hform
    rw [hk] at hz hform
    obtain ⟨p, R', L', e1, e2⟩ := ord_node (R := R) (L := L.new inputs) (new_good hG h0.1) (flat_more hI.flat m) (by
      intro m hm
      rcases List.mem_append.1 (show m ∈ L.len ++ [inputs] from hm) with hm | hm
      · exact hI.small m hm
      · have : m = inputs := by simpa using hm
        omega) (k := .input k) hz [] [] f (Or.inl ⟨k, rfl⟩) .nil hform (s := s) (r := same (fresh k s).1) (s' := (fresh k s).2) (by
        simp only [same, fresh, elemsOf, List.length_map, List.length_range]
        exact hz.2) rfl
    rw [← hk] at e2
    exact ⟨p, R', L', by rw [hk]; exact e1, invO_snoc hI m.keeps e2 i5⟩
  · rw [if_neg hp] at h ⊢
    cases hi : inputsOf (ps.map L.real) n.prev with
    | error e => rw [hi] at h; cases h
    | ok ts =>
      rw [hi] at h
      dsimp only at h
      obtain ⟨vs, gs, i1, i2, i3, i4, i5⟩ := inputs_ord hI hf hs _ _ hi
      rw [i1]
      dsimp only
      rw [i2] at h
      rw [formOf_local i5] at hform
      obtain ⟨p, R', L', e1, e2⟩ := ord_node hG hI.flat hI.small hz vs gs f (Or.inr i3) i4 hform hr h
      exact ⟨p, R', L', e1, invO_snoc hI (Keeps.refl L) e2 i5⟩

theorem forwardAll_prefix {inputs : Nat} : ∀ (nodes : List Node) (done recs : List Rec) (s s' : S),
    forwardAll inputs nodes done s = .ok (recs, s') → done <+: recs
  | [], done, recs, s, s', h => by
    simp only [forwardAll, Except.ok.injEq, Prod.mk.injEq] at h
    rw [h.1]
  | n :: rest, done, recs, s, s', h => by
    simp only [forwardAll] at h
    cases h1 : step inputs n done s with
    | error e => rw [h1] at h; cases h
    | ok x =>
      rw [h1] at h
      exact (List.prefix_append _ _).trans (forwardAll_prefix rest _ recs _ s' h)

theorem all_ord {inputs : Nat} (h0 : 0 < inputs ∧ inputs ≤ 2 ^ 32) : ∀ (nodes ns : List Node) (fs fs' : List Form) (ps : List PRec) (R : List Nat)
    (s s' : S) (L : Lay) (recs : List Rec), (∀ n ∈ nodes, SizedKind n.kind) → (∀ n ∈ nodes, n.prev = [] → ∃ k, n.kind = .input k) →
    forms nodes fs = some fs' → Sim s L → (∀ p ∈ ps, L.Fits p) → InvO ns fs ps R L → (∀ r ∈ recs, r.ret.length ≤ 2 ^ 32) →
    forwardAll inputs nodes (ps.map L.real) s = .ok (recs, s') →
    ∃ qs R' L', planAll inputs nodes ps L = some (qs, L') ∧ InvO (ns ++ nodes) fs' qs R' L'
  | [], ns, fs, fs', ps, R, s, s', L, recs, _, _, hform, _, _, hI, _, _ => by
    simp only [forms, Option.some.injEq] at hform
    subst hform
    exact ⟨ps, R, L, rfl, by rw [List.append_nil]; exact hI⟩
  | n :: rest, ns, fs, fs', ps, R, s, s', L, recs, hz, hst, hform, hs, hf, hI, hb, h => by
    simp only [forms] at hform
    cases hf1 : formOf fs n with
    | none => rw [hf1] at hform; cases hform
    | some f =>
    rw [hf1] at hform
    dsimp only at hform
    have hpre := forwardAll_prefix _ _ _ _ _ h
    simp only [forwardAll] at h
    cases h1 : step inputs n (ps.map L.real) s with
    | error e => rw [h1] at h; cases h
    | ok x =>
      obtain ⟨r, s1⟩ := x
      rw [h1] at h
      dsimp only at h
      have hpre1 := forwardAll_prefix _ _ _ _ _ h
      obtain ⟨p, R1, L1, e1, e2⟩ := step_ord h0 (hz n (by simp)) (hst n (by simp)) hs.good hI hf
        (fun p hp => hb _ (hpre.subset (List.mem_map.2 ⟨p, hp, rfl⟩))) (hb r (hpre1.subset (by simp))) hf1 h1
      obtain ⟨s2, f1, f2, f3, f4⟩ := sim_step hs hf e1
      rw [h1] at f1
      simp only [Except.ok.injEq, Prod.mk.injEq] at f1
      obtain ⟨rfl, rfl⟩ := f1
      have hps : ps.map L.real ++ [L1.real p] = (ps ++ [p]).map L1.real := by
        rw [List.map_append, List.map_cons, List.map_nil]
        congr 1
        exact List.map_congr_left fun q hq => (f4.real (hf q hq)).symm
      rw [hps] at h
      obtain ⟨qs, R2, L2, g1, g2⟩ := all_ord h0 rest (ns ++ [n]) (fs ++ [f]) fs' (ps ++ [p]) R1 s1 s' L1 recs (fun m hm => hz m (by simp [hm]))
        (fun m hm => hst m (by simp [hm])) hform f2 (by
        intro q hq
        rcases List.mem_append.1 hq with hq | hq
        · exact f4.fits (hf q hq)
        · have : q = p := by simpa using hq
          rw [this]; exact f3) e2 hb h
      refine ⟨qs, R2, L2, ?_, by rw [List.append_assoc] at g2; exact g2⟩
      simp only [planAll, e1]
      exact g1

theorem into_ord {R : List Nat} (m : Nat) (r : PRec) : ∀ (l : List (Node × PRec)) (s s' : S) (L : Lay),
    (∀ q ∈ l, q.1.module = some m → Two R r ∧ Two R q.2) →
    L.Good → Flat R L → mergeInto m (L.real r) (l.map (fun q => (q.1, L.real q.2))) s = .ok s' →
    ∃ L', planInto m r l L = some L' ∧ L'.len = L.len ∧ L'.Good ∧ Flat R L' ∧ Keeps L L'
  | [], s, s', L, _, hG, hF, _ => ⟨L, rfl, rfl, hG, hF, Keeps.refl L⟩
  | (n, q) :: rest, s, s', L, hq, hG, hF, h => by
    simp only [List.map_cons, mergeInto] at h
    simp only [planInto]
    by_cases hm : n.module = some m
    · rw [if_pos hm] at h ⊢
      obtain ⟨⟨a, ma, b, mb, er, er'⟩, a', ma', b', mb', eq, eq'⟩ := hq (n, q) (by simp) hm
      dsimp only at eq eq'
      unfold unionT at h
      by_cases h1 : (L.real r).inp.length = (L.real q).inp.length
      · rw [if_pos h1] at h
        dsimp only at h
        by_cases h2 : (L.real r).out.length = (L.real q).out.length
        · rw [if_pos h2] at h
          dsimp only at h
          have h1' : L.l a = L.l a' := by
            simp only [Lay.real] at h1
            rwa [er, eq, whole_single, whole_single] at h1
          have h2' : L.l b = L.l b' := by
            simp only [Lay.real] at h2
            rwa [er', eq', whole_single, whole_single] at h2
          obtain ⟨L1, e1, e2, e3, e4⟩ := bind_flat hG hF ma ma' h1'
          have hl1 : ∀ x, L1.l x = L.l x := fun x => by unfold Lay.l; rw [e2]
          have h2'' : L1.l b = L1.l b' := by rw [hl1, hl1]; exact h2'
          obtain ⟨L2, f1, f2, f3, f4⟩ := bind_flat e3 e4 mb mb' h2''
          have k1 := bind_keeps hG hF ma ma' h1' e1
          have k2 := bind_keeps e3 e4 mb mb' h2'' f1
          have hlen : L2.len = L.len := by rw [f2, e2]
          have hreal : ∀ p, L2.real p = L.real p := by
            intro p
            have hl2 : ∀ x, L2.l x = L.l x := fun x => by unfold Lay.l; rw [hlen]
            unfold Lay.real Lay.whole
            simp only [hl2]
          obtain ⟨L3, g1, g2, g3, g4, g5⟩ := into_ord m r rest _ s' L2 (fun x hx => hq x (by simp [hx])) f3 f4 (by
            rw [hreal]
            rw [show (rest.map fun q => (q.1, L2.real q.2)) = rest.map fun q => (q.1, L.real q.2) from
              List.map_congr_left fun x _ => by rw [hreal]]
            exact h)
          refine ⟨L3, ?_, by rw [g2, hlen], g3, g4, (k1.trans k2).trans g5⟩
          rw [er, eq, e1]
          dsimp only
          rw [er', eq', f1]
          dsimp only
          exact g1
        · rw [if_neg h2] at h; cases h
      · rw [if_neg h1] at h; cases h
    · rw [if_neg hm] at h ⊢
      exact into_ord m r rest s s' L (fun x hx => hq x (by simp [hx])) hG hF h

theorem merge_ord {R : List Nat} : ∀ (l : List (Node × PRec)) (seen : List Nat) (s s' : S) (L : Lay),
    l.Pairwise (fun q q' => ∀ m, q.1.module = some m → q'.1.module = some m → Two R q.2 ∧ Two R q'.2) →
    L.Good → Flat R L → merge seen (l.map (fun q => (q.1, L.real q.2))) s = .ok s' →
    ∃ L', planMerge seen l L = some L' ∧ L'.len = L.len ∧ Flat R L' ∧ Keeps L L'
  | [], seen, s, s', L, _, _, hF, _ => ⟨L, rfl, rfl, hF, Keeps.refl L⟩
  | (n, r) :: rest, seen, s, s', L, hq, hG, hF, h => by
    obtain ⟨hq1, hq2⟩ := List.pairwise_cons.1 hq
    simp only [List.map_cons, merge] at h
    simp only [planMerge]
    cases hm : n.module with
    | none =>
      rw [hm] at h
      exact merge_ord rest seen s s' L hq2 hG hF h
    | some m =>
      rw [hm] at h
      dsimp only at h ⊢
      by_cases hs : m ∈ seen
      · rw [if_pos hs] at h ⊢
        exact merge_ord rest seen s s' L hq2 hG hF h
      · rw [if_neg hs] at h ⊢
        cases h1 : mergeInto m (L.real r) (rest.map fun q => (q.1, L.real q.2)) s with
        | error e => rw [h1] at h; cases h
        | ok s1 =>
          rw [h1] at h
          dsimp only at h
          obtain ⟨L1, e1, e2, e3, e4, e5⟩ := into_ord m r rest s s1 L (fun x hx hxm => hq1 x hx m hm hxm) hG hF h1
          have hreal : ∀ p, L1.real p = L.real p := by
            intro p
            have hl2 : ∀ x, L1.l x = L.l x := fun x => by unfold Lay.l; rw [e2]
            unfold Lay.real Lay.whole
            simp only [hl2]
          rw [e1]
          dsimp only
          obtain ⟨L2, f1, f2, f3, f4⟩ := merge_ord rest (m :: seen) s1 s' L1 hq2 e3 e4 (by
            rw [show (rest.map fun q => (q.1, L1.real q.2)) = rest.map fun q => (q.1, L.real q.2) from
              List.map_congr_left fun x _ => by rw [hreal]]
            exact h)
          exact ⟨L2, f1, by rw [f2, e2], f3, e5.trans f4⟩

theorem zip_pairwise {R : List Nat} {fs : List Form} : ∀ (nodes : List Node) (qs : List PRec),
    nodes.Pairwise (fun n n' => ∀ m, n.module = some m → n'.module = some m → Direct fs n ∧ Direct fs n') →
    List.Forall₂ (fun n p => Direct fs n → Two R p) nodes qs →
    (nodes.zip qs).Pairwise (fun q q' => ∀ m, q.1.module = some m → q'.1.module = some m → Two R q.2 ∧ Two R q'.2)
  | [], _, _, _ => by simp
  | n :: nodes, q :: qs, hp, hd => by
    obtain ⟨p1, p2⟩ := List.pairwise_cons.1 hp
    obtain ⟨d1, d2⟩ := List.forall₂_cons.1 hd
    rw [List.zip_cons_cons, List.pairwise_cons]
    refine ⟨?_, zip_pairwise nodes qs p2 d2⟩
    intro x hx m h1 h2
    have hn := (List.of_mem_zip hx).1
    obtain ⟨a, b⟩ := p1 x.1 hn m h1 h2
    obtain ⟨i, hi⟩ := List.mem_iff_getElem?.1 hx
    rw [List.getElem?_zip_eq_some] at hi
    obtain ⟨i1, j1⟩ := List.getElem?_eq_some_iff.1 hi.1
    obtain ⟨i2, j2⟩ := List.getElem?_eq_some_iff.1 hi.2
    have := d2.get i1 i2
    simp only [List.get_eq_getElem, j1, j2] at this
    exact ⟨d1 a, this b⟩

/-- Graphs of ordinary layers with flattened maps and concatenations that go through have a regular plan. -/
theorem ord_plan {inputs : Nat} (h0 : 0 < inputs ∧ inputs ≤ 2 ^ 32) {nodes : List Node} {fs : List Form} (hn : Ordinary nodes fs) {recs : List Rec}
    {s : S} (h : forward inputs nodes = .ok (recs, s)) (hb : ∀ r ∈ recs, r.ret.length ≤ 2 ^ 32) :
    ∃ ps L, plan inputs nodes = some (ps, L) ∧ Regular ps L := by
  have sim0 : Sim ⟨[], []⟩ ⟨[], [], [], []⟩ := sim_init
  have inv0 : InvO [] [] [] [] ⟨[], [], [], []⟩ := ⟨.nil, by simp, by simp, by intro t ht; simp at ht, by simp, .nil⟩
  unfold forward at h
  cases h1 : forwardAll inputs nodes [] ⟨[], []⟩ with
  | error e => rw [h1] at h; cases h
  | ok x =>
    obtain ⟨rs, s1⟩ := x
    rw [h1] at h
    dsimp only at h
    cases h2 : merge [] (nodes.zip rs) s1 with
    | error e => rw [h2] at h; cases h
    | ok s2 =>
      rw [h2] at h
      simp only [Except.ok.injEq, Prod.mk.injEq] at h
      obtain ⟨rfl, rfl⟩ := h
      obtain ⟨qs, R, L1, e1, e2⟩ := all_ord h0 nodes [] [] fs [] [] ⟨[], []⟩ s1 ⟨[], [], [], []⟩ rs hn.sized hn.start hn.form sim0 (by simp)
        inv0 hb h1
      obtain ⟨s3, a1, a2, a3, a4⟩ := sim_all inputs nodes [] ⟨[], []⟩ ⟨[], [], [], []⟩ qs L1 sim0 (by simp) e1
      rw [List.map_nil, h1] at a1
      simp only [Except.ok.injEq, Prod.mk.injEq] at a1
      obtain ⟨rfl, rfl⟩ := a1
      rw [show nodes.zip (qs.map L1.real) = (nodes.zip qs).map (fun q => (q.1, L1.real q.2)) from by
        rw [List.zip_map_right]; rfl] at h2
      have hz := zip_pairwise nodes qs hn.shared (e2.direct.imp fun a b hh hd => hh fs (List.prefix_refl _) hd)
      obtain ⟨L2, b1, b2, b3, b4⟩ := merge_ord (nodes.zip qs) [] s1 s2 L1 hz a2.good e2.flat h2
      refine ⟨qs, L2, ?_, ?_, by rw [b2]; exact e2.small⟩
      · unfold plan
        rw [e1]
        dsimp only
        rw [b1]
      · intro v hv t ht
        obtain ⟨p, hp, hvp⟩ := List.mem_flatMap.1 (show v ∈ qs.flatMap (fun p => [p.inp, p.out]) from hv)
        have hbt : Based R L1 t := by
          have : v = p.inp ∨ v = p.out := by simpa using hvp
          rcases this with rfl | rfl
          · exact e2.based p hp t (Or.inl ht)
          · exact e2.based p hp t (Or.inr (Or.inl ht))
        obtain ⟨-, u, hu, eu⟩ := hbt.keep e2.flat b4 (fun _ h => h)
        obtain ⟨u1, u2, u3, u4⟩ := b3 u hu
        by_cases hone : L2.n t = 1
        · obtain ⟨w, hw, w1, w2⟩ := u4 (by rw [n_of eu]; exact hone)
          exact ⟨[w], e2.single w hw, w, by simp, w1.trans eu, by rw [if_pos hone]; exact ⟨rfl, w2⟩⟩
        · exact ⟨[u], e2.single u hu, u, by simp, eu, by rw [if_neg hone]; exact u2⟩

end Verif.ChannelNodes
