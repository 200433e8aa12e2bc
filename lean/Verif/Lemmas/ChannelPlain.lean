import Verif.Spec.ChannelPlain
import Verif.Lemmas.ChannelNodes

/-! Graphs of ordinary layers always have a regular plan: helper lemmas for `Verif/Props/ChannelPlain.lean`. -/

namespace Verif.ChannelNodes
open Verif

/-- Tensors whose units have one channel per channel of the tensor, or one channel for all. -/
def Flat (R : List Nat) (L : Lay) : Prop :=
  ∀ t ∈ R, t < L.len.length ∧ L.r t = 1 ∧ (L.n t = 1 ∨ L.n t = L.l t) ∧ (L.n t = 1 → ∃ u ∈ R, L.u u = L.u t ∧ L.l u = 1)

/-- `L'` is `L` with one tensor more. -/
structure More (L L' : Lay) : Prop where
  len : L'.len.length = L.len.length + 1
  u : ∀ t < L.len.length, L'.u t = L.u t
  r : ∀ t < L.len.length, L'.r t = L.r t
  l : ∀ t < L.len.length, L'.l t = L.l t
  n : ∀ t < L.len.length, L'.n t = L.n t

theorem new_more {L : Lay} (hG : L.Good) (n : Nat) : More L (L.new n) ∧ (L.new n).u L.len.length = L.len.length ∧
    (L.new n).r L.len.length = 1 ∧ (L.new n).l L.len.length = n ∧ (L.new n).n L.len.length = n := by
  have hu : ∀ t < L.len.length, (L.new n).u t = L.u t := fun t ht => getD_left (by rw [hG.lu]; exact ht)
  have hw : ∀ a < L.len.length, (L.new n).w a = L.w a := fun t ht => getD_left (by rw [hG.lw]; exact ht)
  have uN : (L.new n).u L.len.length = L.len.length := getD_last hG.lu.symm
  refine ⟨⟨by simp [Lay.new], hu, fun t ht => getD_left (by rw [hG.lr]; exact ht), fun t ht => getD_left ht, ?_⟩, uN,
    getD_last hG.lr.symm, getD_last rfl, ?_⟩
  · intro t ht; unfold Lay.n; rw [hu t ht, hw _ (hG.ut t ht)]
  · unfold Lay.n; rw [uN]; exact getD_last hG.lw.symm

theorem spread_more {L : Lay} (hG : L.Good) {t : Nat} (ht : t < L.len.length) (r : Nat) : More L (L.spread t r) ∧
    (L.spread t r).u L.len.length = L.u t ∧ (L.spread t r).r L.len.length = r * L.r t ∧
    (L.spread t r).l L.len.length = r * L.l t ∧ (L.spread t r).n L.len.length = L.n t := by
  have hu : ∀ s < L.len.length, (L.spread t r).u s = L.u s := fun t ht => getD_left (by rw [hG.lu]; exact ht)
  have hw : ∀ a < L.len.length, (L.spread t r).w a = L.w a := fun t ht => getD_left (by rw [hG.lw]; exact ht)
  have uN : (L.spread t r).u L.len.length = L.u t := getD_last hG.lu.symm
  refine ⟨⟨by simp [Lay.spread], hu, fun t ht => getD_left (by rw [hG.lr]; exact ht), fun t ht => getD_left ht, ?_⟩, uN,
    getD_last hG.lr.symm, getD_last rfl, ?_⟩
  · intro t ht; unfold Lay.n; rw [hu t ht, hw _ (hG.ut t ht)]
  · unfold Lay.n; rw [uN, hw _ (hG.ut t ht)]

theorem new_good {L : Lay} (hG : L.Good) {n : Nat} (hn : 0 < n) : (L.new n).Good := by
  obtain ⟨m, e1, e2, e3, e4⟩ := new_more hG n
  refine ⟨by simp [Lay.new, hG.lu], by simp [Lay.new, hG.lr], by simp [Lay.new, hG.lw], ?_, ?_⟩
  · intro t ht
    rw [m.len] at ht ⊢
    by_cases h : t < L.len.length
    · rw [m.u t h]; have := hG.ut t h; omega
    · have : t = L.len.length := by omega
      rw [this, e1]; omega
  · intro t ht
    rw [m.len] at ht
    by_cases h : t < L.len.length
    · rw [m.l t h, m.r t h, m.n t h]; exact hG.fill t h
    · have : t = L.len.length := by omega
      rw [this, e2, e3, e4]; exact ⟨hn, 1, by ring⟩

theorem spread_good {L : Lay} (hG : L.Good) {a r : Nat} (ha : a < L.len.length) (hr : 0 < r) : (L.spread a r).Good := by
  obtain ⟨m, e1, e2, e3, e4⟩ := spread_more hG ha r
  refine ⟨by simp [Lay.spread, hG.lu], by simp [Lay.spread, hG.lr], by simp [Lay.spread, hG.lw], ?_, ?_⟩
  · intro t ht
    rw [m.len] at ht ⊢
    by_cases h : t < L.len.length
    · rw [m.u t h]; have := hG.ut t h; omega
    · have : t = L.len.length := by omega
      rw [this, e1]; have := hG.ut a ha; omega
  · intro t ht
    rw [m.len] at ht
    by_cases h : t < L.len.length
    · rw [m.l t h, m.r t h, m.n t h]; exact hG.fill t h
    · have : t = L.len.length := by omega
      rw [this, e2, e3, e4]
      obtain ⟨p, k, hk⟩ := hG.fill a ha
      exact ⟨Nat.mul_pos hr p, k, by rw [hk]; ring⟩

theorem flat_more {R : List Nat} {L L' : Lay} (h : Flat R L) (m : More L L') : Flat R L' := by
  intro t ht
  obtain ⟨h1, h2, h3, h4⟩ := h t ht
  refine ⟨by rw [m.len]; omega, by rw [m.r t h1]; exact h2, by rw [m.n t h1, m.l t h1]; exact h3, ?_⟩
  rw [m.n t h1]
  intro hn
  obtain ⟨u, hu, e1, e2⟩ := h4 hn
  have hu' := (h u hu).1
  exact ⟨u, hu, by rw [m.u u hu', m.u t h1]; exact e1, by rw [m.l u hu']; exact e2⟩

theorem flat_new {R : List Nat} {L : Lay} (hG : L.Good) (h : Flat R L) (n : Nat) : Flat (R ++ [L.len.length]) (L.new n) := by
  obtain ⟨m, e1, e2, e3, e4⟩ := new_more hG n
  have h' := flat_more h m
  intro t ht
  rcases List.mem_append.1 ht with ht | ht
  · obtain ⟨h1, h2, h3, h4⟩ := h' t ht
    refine ⟨h1, h2, h3, fun hn => ?_⟩
    obtain ⟨u, hu, hh⟩ := h4 hn
    exact ⟨u, List.mem_append.2 (Or.inl hu), hh⟩
  · have ht' : t = L.len.length := by simpa using ht
    subst ht'
    refine ⟨by rw [m.len]; omega, e2, Or.inr (by rw [e3, e4]), fun hn => ⟨L.len.length, by simp, rfl, ?_⟩⟩
    rw [e3, ← e4]; exact hn

/-- The width of a unit by one of its tensors. -/
theorem n_of {L : Lay} {t x : Nat} (h : L.u x = L.u t) : L.n x = L.n t := by unfold Lay.n; rw [h]

theorem flat_join {R : List Nat} {L : Lay} (hG : L.Good) (h : Flat R L) {t v : Nat} (ht : t ∈ R) (hv : v ∈ R)
    (hl : L.l t = L.l v ∨ L.n v = 1) :
    Flat R (L.join (L.u t) (L.u v) (Nat.gcd (L.n t) (L.n v))) ∧ (L.join (L.u t) (L.u v) (Nat.gcd (L.n t) (L.n v))).Good := by
  obtain ⟨t1, t2, t3, t4⟩ := h t ht
  obtain ⟨v1, v2, v3, v4⟩ := h v hv
  have hut := hG.ut t t1
  refine ⟨?_, join_good hG _ _ _ hut ?_⟩
  swap
  · intro x _ hx
    rcases hx with hx | hx
    · rw [n_of hx]; exact Nat.gcd_dvd_left _ _
    · rw [n_of hx]; exact Nat.gcd_dvd_right _ _
  intro x hx
  obtain ⟨x1, x2, x3, x4⟩ := h x hx
  refine ⟨x1, x2, ?_, ?_⟩
  · rw [join_n hG _ _ _ hut x1]
    by_cases hc : L.u x = L.u t ∨ L.u x = L.u v
    · rw [if_pos hc]
      by_cases a : L.n t = 1
      · left; rw [a]; exact Nat.gcd_one_left _
      · by_cases b : L.n v = 1
        · left; rw [b]; exact Nat.gcd_one_right _
        · have e1 : L.n t = L.l t := t3.resolve_left a
          have e2 : L.n v = L.l v := v3.resolve_left b
          have e3 : L.l t = L.l v := hl.resolve_right b
          have e4 : L.n t = L.n v := by rw [e1, e2, e3]
          rw [← e4, Nat.gcd_self]
          have hx' : L.n x = L.n t := by
            rcases hc with hc | hc
            · exact n_of hc
            · rw [n_of hc, e4]
          rw [← hx']; exact x3
    · rw [if_neg hc]; exact x3
  · have key : ∀ w ∈ R, L.l w = 1 → (L.u w = L.u t ∨ L.u w = L.u v) → (L.u x = L.u t ∨ L.u x = L.u v) →
        ∃ u ∈ R, (L.join (L.u t) (L.u v) (Nat.gcd (L.n t) (L.n v))).u u = (L.join (L.u t) (L.u v) (Nat.gcd (L.n t) (L.n v))).u x ∧
          L.l u = 1 := by
      intro w hw hw1 hc hc'
      refine ⟨w, hw, ?_, hw1⟩
      rw [join_u hG _ _ _ (h w hw).1, join_u hG _ _ _ x1]
      have e : ∀ c, c = L.u t ∨ c = L.u v → (if c = L.u v then L.u t else c) = L.u t := by
        intro c hc
        by_cases hcv : c = L.u v
        · rw [if_pos hcv]
        · rw [if_neg hcv]; exact hc.resolve_right hcv
      rw [e _ hc, e _ hc']
    rw [join_n hG _ _ _ hut x1]
    by_cases hc : L.u x = L.u t ∨ L.u x = L.u v
    · rw [if_pos hc]
      intro hg
      by_cases a : L.n t = 1
      · obtain ⟨w, hw, w1, w2⟩ := t4 a
        exact key w hw w2 (Or.inl w1) hc
      · by_cases b : L.n v = 1
        · obtain ⟨w, hw, w1, w2⟩ := v4 b
          exact key w hw w2 (Or.inr w1) hc
        · have e1 : L.n t = L.l t := t3.resolve_left a
          have e2 : L.n v = L.l v := v3.resolve_left b
          have e3 : L.l t = L.l v := hl.resolve_right b
          rw [e1, e2, ← e3, Nat.gcd_self, ← e1] at hg
          exact absurd hg a
    · rw [if_neg hc]
      intro hn
      obtain ⟨w, hw, w1, w2⟩ := x4 hn
      refine ⟨w, hw, ?_, w2⟩
      rw [join_u hG _ _ _ (h w hw).1, join_u hG _ _ _ x1, w1]

theorem glue_flat {R : List Nat} {L : Lay} (hG : L.Good) (h : Flat R L) {t v : Nat} (ht : t ∈ R) (hv : v ∈ R)
    (hl : L.l t = L.l v) : ∃ L', L.glue t v = some L' ∧ L'.len = L.len ∧ L'.Good ∧ Flat R L' := by
  obtain ⟨t1, t2, t3, t4⟩ := h t ht
  obtain ⟨v1, v2, v3, v4⟩ := h v hv
  obtain ⟨f, g⟩ := flat_join hG h ht hv (Or.inl hl)
  refine ⟨L.join (L.u t) (L.u v) (Nat.gcd (L.n t) (L.n v)), ?_, rfl, g, f⟩
  unfold Lay.glue
  rw [if_pos]
  refine ⟨by rw [hl], Or.inr (Or.inr (by rw [t2, v2])), ?_⟩
  rcases t3 with a | a
  · left; rw [a]; exact Nat.one_dvd _
  · rcases v3 with b | b
    · right; rw [b]; exact Nat.one_dvd _
    · left; rw [a, b, hl]

theorem bind_flat {R : List Nat} {L : Lay} (hG : L.Good) (h : Flat R L) {t v : Nat} (ht : t ∈ R) (hv : v ∈ R)
    (hl : L.l t = L.l v) : ∃ L', Lay.bind [t] [v] L = some L' ∧ L'.len = L.len ∧ L'.Good ∧ Flat R L' := by
  obtain ⟨L', e1, e2, e3, e4⟩ := glue_flat hG h ht hv hl
  refine ⟨L', ?_, e2, e3, e4⟩
  simp only [Lay.bind, if_pos hl, e1]

theorem bindAll_flat {R : List Nat} {t : Nat} (ht : t ∈ R) : ∀ (vs : List Nat) (L : Lay), L.Good → Flat R L → (∀ v ∈ vs, v ∈ R) →
    (∀ v ∈ vs, L.l t = L.l v) → ∃ L', Lay.bindAll [t] (vs.map (fun v => [v])) L = some L' ∧ L'.len = L.len ∧ L'.Good ∧ Flat R L'
  | [], L, hG, h, _, _ => ⟨L, rfl, rfl, hG, h⟩
  | v :: vs, L, hG, h, hv, hl => by
    obtain ⟨L1, e1, e2, e3, e4⟩ := bind_flat hG h ht (hv v (by simp)) (hl v (by simp))
    have hl1 : ∀ x, L1.l x = L.l x := fun x => by unfold Lay.l; rw [e2]
    obtain ⟨L2, f1, f2, f3, f4⟩ := bindAll_flat ht vs L1 e3 e4 (fun w hw => hv w (by simp [hw]))
      (fun w hw => by rw [hl1, hl1]; exact hl w (by simp [hw]))
    refine ⟨L2, ?_, by rw [f2, e2], f3, f4⟩
    simp only [List.map_cons, Lay.bindAll, e1]
    exact f1

theorem finish_flat {R : List Nat} {e : Nat} (he : e ∈ R) : ∀ (vs : List Nat) (L : Lay), L.Good → Flat R L → L.l e = 1 → (∀ v ∈ vs, v ∈ R) →
    Flat R (Lay.finish e (vs.map (fun v => [v])) L) ∧ (Lay.finish e (vs.map (fun v => [v])) L).Good ∧
      ∃ more, (Lay.finish e (vs.map (fun v => [v])) L).len = L.len ++ more ∧ ∀ n ∈ more, ∃ v ∈ vs, n = L.l v
  | [], L, hG, h, _, _ => ⟨h, hG, [], by simp [Lay.finish], by simp⟩
  | v :: vs, L, hG, h, h1, hv => by
    have hvR := hv v (by simp)
    obtain ⟨v1, v2, v3, v4⟩ := h v hvR
    obtain ⟨e1, e2, e3, e4⟩ := h e he
    have hsz : L.size [v] = L.l v := by simp [Lay.size]
    have hpos : 0 < L.l v := (hG.fill v v1).1
    obtain ⟨m, m1, m2, m3, m4⟩ := spread_more hG e1 (L.l v)
    have g1 := spread_good hG e1 hpos
    have f1 := flat_more h m
    have ne : (L.spread e (L.l v)).n e = 1 := by
      rw [m.n e e1]
      rcases e3 with e3 | e3
      · exact e3
      · rw [e3, h1]
    obtain ⟨f2, g2⟩ := flat_join g1 f1 hvR he (Or.inr ne)
    rw [ne, Nat.gcd_one_right] at f2 g2
    have hj : Lay.collapse L.len.length [v] (L.spread e (L.size [v])) =
        (L.spread e (L.l v)).join ((L.spread e (L.l v)).u v) ((L.spread e (L.l v)).u e) 1 := by
      rw [hsz]
      simp only [Lay.collapse]
      rw [m1, m.u e e1]
    have hlen : (L.spread e (L.l v)).len = L.len ++ [L.l v] := by
      simp [Lay.spread, h1]
    have hl' : ∀ x < L.len.length, ((L.spread e (L.l v)).join ((L.spread e (L.l v)).u v) ((L.spread e (L.l v)).u e) 1).l x = L.l x := m.l
    obtain ⟨f3, g3, more, l1, l2⟩ := finish_flat he vs _ g2 f2 (by rw [hl' e e1]; exact h1) (fun w hw => hv w (by simp [hw]))
    simp only [List.map_cons, Lay.finish]
    rw [hj]
    refine ⟨f3, g3, L.l v :: more, ?_, ?_⟩
    · rw [l1]
      show (L.spread e (L.l v)).len ++ more = _
      rw [hlen]; simp
    · intro n hn
      rcases List.mem_cons.1 hn with rfl | hn
      · exact ⟨v, by simp, rfl⟩
      · obtain ⟨w, hw, hw'⟩ := l2 n hn
        exact ⟨w, by simp [hw], by rw [hw', hl' w (h w (hv w (by simp [hw]))).1]⟩

/-! ### Graphs -/

/-- The tensors that layers hold. -/
def held (ps : List PRec) : List Nat := ps.flatMap (fun p => p.inp ++ p.out)

/-- Tensors of records are single, and units are flat. -/
structure Inv (ps : List PRec) (L : Lay) : Prop where
  single : ∀ p ∈ ps, ∃ a b c, p = ⟨[a], [b], [c]⟩ ∧ c ∈ held ps
  flat : Flat (held ps) L
  small : ∀ n ∈ L.len, n ≤ 2 ^ 32

theorem flat_congr {R R' : List Nat} {L : Lay} (h : Flat R L) (he : ∀ x, x ∈ R' ↔ x ∈ R) : Flat R' L := by
  intro t ht
  obtain ⟨h1, h2, h3, h4⟩ := h t ((he t).1 ht)
  refine ⟨h1, h2, h3, fun hn => ?_⟩
  obtain ⟨u, hu, hh⟩ := h4 hn
  exact ⟨u, (he u).2 hu, hh⟩

theorem whole_single (L : Lay) (v : Nat) : (L.whole [v]).length = L.l v := by simp [Lay.whole, elemsOf]

theorem bindLoop_length {t : Tensor} : ∀ (l : List Tensor) (s s' : S), bindLoop t l s = .ok s' → ∀ u ∈ l, t.length = u.length
  | [], _, _, _ => by simp
  | u :: l, s, s', h => by
    simp only [bindLoop] at h
    unfold unionT at h
    by_cases he : t.length = u.length
    · rw [if_pos he] at h
      dsimp only at h
      intro w hw
      rcases List.mem_cons.1 hw with rfl | hw
      · exact he
      · exact bindLoop_length l _ s' h w hw
    · rw [if_neg he] at h
      cases h

theorem plain_node {R : List Nat} {L : Lay} (hG : L.Good) (hF : Flat R L) (hS : ∀ n ∈ L.len, n ≤ 2 ^ 32) {k : Kind} (hk : PlainKind k)
    (vs : List Nat) (hv : (∃ n, k = .input n) ∨ ∀ v ∈ vs, v ∈ R) {s s' : S} {r : Rec}
    (h : forwardNode k (vs.map (fun v => L.whole [v])) s = .ok (r, s')) :
    ∃ a b c L', planNode k (vs.map (fun v => [v])) L = some (⟨[a], [b], [c]⟩, L') ∧ c ∈ R ++ [a, b] ∧ Flat (R ++ [a, b]) L' ∧
      ∀ n ∈ L'.len, n ≤ 2 ^ 32 := by
  have hle : ∀ t, t < L.len.length → L.l t ≤ 2 ^ 32 := by
    intro t ht
    refine hS _ ?_
    unfold Lay.l
    rw [List.getD_eq_getElem?_getD, List.getElem?_eq_getElem ht]
    exact List.getElem_mem ht
  have snew : ∀ n, n ≤ 2 ^ 32 → ∀ m ∈ (L.new n).len, m ≤ 2 ^ 32 := by
    intro n hn m hm
    rcases List.mem_append.1 (show m ∈ L.len ++ [n] from hm) with hm | hm
    · exact hS m hm
    · have : m = n := by simpa using hm
      omega
  cases k with
  | input n =>
    refine ⟨L.len.length, L.len.length, L.len.length, L.new n, by simp only [planNode]; rw [if_pos hk.1], by simp,
      flat_congr (flat_new hG hF n) (by intro x; simp), snew n hk.2⟩
  | mix n =>
    have hv' : ∀ v ∈ vs, v ∈ R := by
      rcases hv with ⟨m, hm⟩ | hv
      · cases hm
      · exact hv
    match vs, hv', h with
    | [], _, h => cases h
    | [v], hv', _ =>
      have hvR := hv' v (by simp)
      refine ⟨v, L.len.length, L.len.length, L.new n, by simp only [planNode, List.map_cons, List.map_nil]; rw [if_pos hk.1], by simp,
        flat_congr (flat_new hG hF n) (by intro x; simp only [List.mem_append, List.mem_cons, List.not_mem_nil, or_false]; constructor
                                          · rintro (h | rfl | h)
                                            · exact Or.inl h
                                            · exact Or.inl hvR
                                            · exact Or.inr h
                                          · rintro (h | h)
                                            · exact Or.inl h
                                            · exact Or.inr (Or.inr h)), snew n hk.2⟩
    | _ :: _ :: _, _, h => cases h
  | passUnion =>
    have hv' : ∀ v ∈ vs, v ∈ R := by
      rcases hv with ⟨m, hm⟩ | hv
      · cases hm
      · exact hv
    match vs, hv', h with
    | [], _, h => cases h
    | v :: _, hv', _ =>
      have hvR := hv' v (by simp)
      refine ⟨v, v, v, L, by simp only [planNode, List.map_cons], by simp, flat_congr hF (by
        intro x; simp only [List.mem_append, List.mem_cons, List.not_mem_nil, or_false]; constructor
        · rintro (h | rfl | rfl)
          · exact h
          · exact hvR
          · exact hvR
        · exact Or.inl), hS⟩
  | pass =>
    have hv' : ∀ v ∈ vs, v ∈ R := by
      rcases hv with ⟨m, hm⟩ | hv
      · cases hm
      · exact hv
    match vs, hv', h with
    | [], _, h => cases h
    | [v], hv', _ =>
      have hvR := hv' v (by simp)
      have g1 := new_good hG Nat.one_pos
      have f2 := flat_new g1 (flat_new hG hF 1) 1
      have hlen : (L.new 1).len.length = L.len.length + 1 := by simp [Lay.new]
      rw [hlen] at f2
      refine ⟨L.len.length, L.len.length + 1, v, (L.new 1).new 1, by simp only [planNode, List.map_cons, List.map_nil], by simp [hvR],
        flat_congr f2 (by intro x; simp), ?_⟩
      intro m hm
      rcases List.mem_append.1 (show m ∈ (L.len ++ [1]) ++ [1] from hm) with hm | hm
      · exact snew 1 (by norm_num) m hm
      · have : m = 1 := by simpa using hm
        rw [this]; norm_num
    | _ :: _ :: _, _, h => cases h
  | bind =>
    have hv' : ∀ v ∈ vs, v ∈ R := by
      rcases hv with ⟨m, hm⟩ | hv
      · cases hm
      · exact hv
    match vs, hv', h with
    | [], _, h => cases h
    | v :: ws, hv', h =>
      have hvR := hv' v (by simp)
      have hl : ∀ w ∈ ws, L.l v = L.l w := by
        simp only [forwardNode, List.map_cons] at h
        cases hb : bindLoop (L.whole [v]) (ws.map (fun v => L.whole [v])) s with
        | error e => rw [hb] at h; cases h
        | ok s1 =>
          intro w hw
          have := bindLoop_length _ _ _ hb (L.whole [w]) (List.mem_map.2 ⟨w, hw, rfl⟩)
          rw [whole_single, whole_single] at this
          exact this
      obtain ⟨L', e1, e2, e3, e4⟩ := bindAll_flat hvR ws L hG hF (fun w hw => hv' w (by simp [hw])) hl
      refine ⟨v, v, v, L', by simp only [planNode, List.map_cons, e1], by simp, flat_congr e4 (by
        intro x; simp only [List.mem_append, List.mem_cons, List.not_mem_nil, or_false]; constructor
        · rintro (h | rfl | rfl)
          · exact h
          · exact hvR
          · exact hvR
        · exact Or.inl), by rw [e2]; exact hS⟩
  | stop =>
    have hv' : ∀ v ∈ vs, v ∈ R := by
      rcases hv with ⟨m, hm⟩ | hv
      · cases hm
      · exact hv
    obtain ⟨m, m1, m2, m3, m4⟩ := new_more hG 1
    obtain ⟨f, g, more, l1, l2⟩ := finish_flat (R := R ++ [L.len.length]) (e := L.len.length) (by simp) vs (L.new 1)
      (new_good hG Nat.one_pos) (flat_new hG hF 1) m3 (fun v hv => by simp [hv' v hv])
    refine ⟨L.len.length, L.len.length, L.len.length, Lay.finish L.len.length (vs.map (fun v => [v])) (L.new 1), by simp only [planNode],
      by simp, flat_congr f (by intro x; simp), ?_⟩
    rw [l1]
    intro n hn
    rcases List.mem_append.1 hn with hn | hn
    · exact snew 1 (by norm_num) n hn
    · obtain ⟨v, hv, rfl⟩ := l2 n hn
      have := (hF v (hv' v hv)).1
      rw [m.l v this]
      exact hle v this
  | cat => exact absurd hk id
  | expand _ => exact absurd hk id
  | group _ _ => exact absurd hk id
  | groupNorm _ _ => exact absurd hk id

theorem inputs_plain {L : Lay} {ps : List PRec} (hI : Inv ps L) : ∀ (is : List Nat) (ts : List Tensor),
    inputsOf (ps.map L.real) is = .ok ts → ∃ vs : List Nat, planInputs ps is = some (vs.map (fun v => [v])) ∧
      ts = vs.map (fun v => L.whole [v]) ∧ ∀ v ∈ vs, v ∈ held ps
  | [], ts, h => by
    simp only [inputsOf, Except.ok.injEq] at h
    exact ⟨[], rfl, h.symm, by simp⟩
  | i :: is, ts, h => by
    simp only [inputsOf] at h
    cases h1 : (ps.map L.real)[i]? with
    | none => rw [h1] at h; cases h
    | some r =>
      cases h2 : inputsOf (ps.map L.real) is with
      | error e => rw [h1, h2] at h; cases h
      | ok us =>
        rw [h1, h2] at h
        simp only [Except.ok.injEq] at h
        obtain ⟨vs, e1, e2, e3⟩ := inputs_plain hI is us h2
        rw [List.getElem?_map] at h1
        cases h3 : ps[i]? with
        | none => rw [h3] at h1; cases h1
        | some p =>
          rw [h3] at h1
          simp only [Option.map_some, Option.some.injEq] at h1
          obtain ⟨a, b, c, hp, hc⟩ := hI.single p (List.mem_of_getElem? h3)
          refine ⟨c :: vs, ?_, ?_, ?_⟩
          · simp only [planInputs, h3, e1]
            rw [hp]; rfl
          · rw [← h, ← h1, e2, hp]; rfl
          · intro v hv
            rcases List.mem_cons.1 hv with rfl | hv
            · exact hc
            · exact e3 v hv

theorem held_append (ps : List PRec) (a b c : Nat) : held (ps ++ [⟨[a], [b], [c]⟩]) = held ps ++ [a, b] := by
  simp [held]

theorem inv_snoc {ps : List PRec} {L L' : Lay} (hI : Inv ps L) {a b c : Nat} (hc : c ∈ held ps ++ [a, b]) (hF : Flat (held ps ++ [a, b]) L')
    (hS : ∀ n ∈ L'.len, n ≤ 2 ^ 32) : Inv (ps ++ [⟨[a], [b], [c]⟩]) L' := by
  refine ⟨?_, by rw [held_append]; exact hF, hS⟩
  intro p hp
  rw [held_append]
  rcases List.mem_append.1 hp with hp | hp
  · obtain ⟨a', b', c', e, h⟩ := hI.single p hp
    exact ⟨a', b', c', e, List.mem_append.2 (Or.inl h)⟩
  · have : p = ⟨[a], [b], [c]⟩ := by simpa using hp
    exact ⟨a, b, c, this, hc⟩

theorem step_plain {inputs : Nat} (h0 : 0 < inputs ∧ inputs ≤ 2 ^ 32) {n : Node} (hn : PlainNode n) {ps : List PRec} {s s' : S} {L : Lay}
    {r : Rec} (hG : L.Good) (hI : Inv ps L) (h : step inputs n (ps.map L.real) s = .ok (r, s')) :
    ∃ p L', planStep inputs n ps L = some (p, L') ∧ Inv (ps ++ [p]) L' := by
  unfold step at h
  unfold planStep
  by_cases hp : n.prev = []
  · rw [if_pos hp, if_pos h0.1]
    obtain ⟨k, hk⟩ := hn.2 hp
    have hpk := hn.1
    rw [hk] at hpk ⊢
    obtain ⟨m, -⟩ := new_more hG inputs
    obtain ⟨a, b, c, L', e1, e2, e3, e4⟩ := plain_node (R := held ps) (L := L.new inputs) (new_good hG h0.1) (flat_more hI.flat m) (by
      intro m hm
      rcases List.mem_append.1 (show m ∈ L.len ++ [inputs] from hm) with hm | hm
      · exact hI.small m hm
      · have : m = inputs := by simpa using hm
        omega) (k := .input k) hpk [L.len.length] (Or.inl ⟨k, rfl⟩) (s := s) (r := same (fresh k s).1) (s' := (fresh k s).2) rfl
    exact ⟨_, L', e1, inv_snoc hI e2 e3 e4⟩
  · rw [if_neg hp] at h ⊢
    cases hi : inputsOf (ps.map L.real) n.prev with
    | error e => rw [hi] at h; cases h
    | ok ts =>
      rw [hi] at h
      dsimp only at h
      obtain ⟨vs, i1, i2, i3⟩ := inputs_plain hI _ _ hi
      rw [i1]
      dsimp only
      rw [i2] at h
      obtain ⟨a, b, c, L', e1, e2, e3, e4⟩ := plain_node hG hI.flat hI.small hn.1 vs (Or.inr i3) h
      exact ⟨_, L', e1, inv_snoc hI e2 e3 e4⟩

theorem all_plain {inputs : Nat} (h0 : 0 < inputs ∧ inputs ≤ 2 ^ 32) : ∀ (nodes : List Node) (ps : List PRec) (s s' : S) (L : Lay)
    (recs : List Rec), (∀ n ∈ nodes, PlainNode n) → Sim s L → (∀ p ∈ ps, L.Fits p) → Inv ps L →
    forwardAll inputs nodes (ps.map L.real) s = .ok (recs, s') → ∃ qs L', planAll inputs nodes ps L = some (qs, L') ∧ Inv qs L'
  | [], ps, s, s', L, recs, _, _, _, hI, _ => ⟨ps, L, rfl, hI⟩
  | n :: rest, ps, s, s', L, recs, hn, hs, hf, hI, h => by
    simp only [forwardAll] at h
    cases h1 : step inputs n (ps.map L.real) s with
    | error e => rw [h1] at h; cases h
    | ok x =>
      obtain ⟨r, s1⟩ := x
      obtain ⟨p, L1, e1, e2⟩ := step_plain h0 (hn n (by simp)) hs.good hI h1
      obtain ⟨s2, f1, f2, f3, f4⟩ := sim_step hs hf e1
      rw [h1] at f1
      simp only [Except.ok.injEq, Prod.mk.injEq] at f1
      obtain ⟨rfl, rfl⟩ := f1
      rw [h1] at h
      dsimp only at h
      have hps : ps.map L.real ++ [L1.real p] = (ps ++ [p]).map L1.real := by
        rw [List.map_append, List.map_cons, List.map_nil]
        congr 1
        exact List.map_congr_left fun q hq => (f4.real (hf q hq)).symm
      rw [hps] at h
      obtain ⟨qs, L2, g1, g2⟩ := all_plain h0 rest (ps ++ [p]) s1 s' L1 recs (fun m hm => hn m (by simp [hm])) f2 (by
        intro q hq
        rcases List.mem_append.1 hq with hq | hq
        · exact f4.fits (hf q hq)
        · have : q = p := by simpa using hq
          rw [this]; exact f3) e2 h
      refine ⟨qs, L2, ?_, g2⟩
      simp only [planAll, e1]
      exact g1

theorem into_plain {ps : List PRec} (m : Nat) (r : PRec) (hr : r ∈ ps) : ∀ (l : List (Node × PRec)) (s s' : S) (L : Lay), (∀ q ∈ l, q.2 ∈ ps) →
    L.Good → Inv ps L → mergeInto m (L.real r) (l.map (fun q => (q.1, L.real q.2))) s = .ok s' →
    ∃ L', planInto m r l L = some L' ∧ L'.len = L.len ∧ L'.Good ∧ Inv ps L'
  | [], s, s', L, _, hG, hI, _ => ⟨L, rfl, rfl, hG, hI⟩
  | (n, q) :: rest, s, s', L, hq, hG, hI, h => by
    simp only [List.map_cons, mergeInto] at h
    simp only [planInto]
    by_cases hm : n.module = some m
    · rw [if_pos hm] at h ⊢
      obtain ⟨a, b, c, er, _⟩ := hI.single r hr
      obtain ⟨a', b', c', eq', _⟩ := hI.single q (hq (n, q) (by simp))
      have ma : a ∈ held ps := List.mem_flatMap.2 ⟨r, hr, by rw [er]; simp⟩
      have mb : b ∈ held ps := List.mem_flatMap.2 ⟨r, hr, by rw [er]; simp⟩
      have ma' : a' ∈ held ps := List.mem_flatMap.2 ⟨q, hq (n, q) (by simp), by rw [eq']; simp⟩
      have mb' : b' ∈ held ps := List.mem_flatMap.2 ⟨q, hq (n, q) (by simp), by rw [eq']; simp⟩
      unfold unionT at h
      by_cases h1 : (L.real r).inp.length = (L.real q).inp.length
      · rw [if_pos h1] at h
        dsimp only at h
        by_cases h2 : (L.real r).out.length = (L.real q).out.length
        · rw [if_pos h2] at h
          dsimp only at h
          have h1' : L.l a = L.l a' := by
            rw [er, eq'] at h1
            have := h1
            simp only [Lay.real] at this
            rwa [whole_single, whole_single] at this
          have h2' : L.l b = L.l b' := by
            rw [er, eq'] at h2
            have := h2
            simp only [Lay.real] at this
            rwa [whole_single, whole_single] at this
          obtain ⟨L1, e1, e2, e3, e4⟩ := bind_flat hG hI.flat ma ma' h1'
          have hl1 : ∀ x, L1.l x = L.l x := fun x => by unfold Lay.l; rw [e2]
          obtain ⟨L2, f1, f2, f3, f4⟩ := bind_flat e3 e4 mb mb' (by rw [hl1, hl1]; exact h2')
          have hlen : L2.len = L.len := by rw [f2, e2]
          have hreal : ∀ p, L2.real p = L.real p := by
            intro p
            have hl2 : ∀ x, L2.l x = L.l x := fun x => by unfold Lay.l; rw [hlen]
            unfold Lay.real Lay.whole
            simp only [hl2]
          have hI2 : Inv ps L2 := ⟨hI.single, f4, by rw [hlen]; exact hI.small⟩
          obtain ⟨L3, g1, g2, g3, g4⟩ := into_plain m r hr rest _ s' L2 (fun x hx => hq x (by simp [hx])) f3 hI2 (by
            rw [hreal]
            rw [show (rest.map fun q => (q.1, L2.real q.2)) = rest.map fun q => (q.1, L.real q.2) from
              List.map_congr_left fun x _ => by rw [hreal]]
            exact h)
          refine ⟨L3, ?_, by rw [g2, hlen], g3, g4⟩
          rw [er, eq']
          dsimp only
          rw [e1]
          dsimp only
          rw [f1]
          dsimp only
          rw [er] at g1
          exact g1
        · rw [if_neg h2] at h; cases h
      · rw [if_neg h1] at h; cases h
    · rw [if_neg hm] at h ⊢
      exact into_plain m r hr rest s s' L (fun x hx => hq x (by simp [hx])) hG hI h

theorem merge_plain {ps : List PRec} : ∀ (l : List (Node × PRec)) (seen : List Nat) (s s' : S) (L : Lay), (∀ q ∈ l, q.2 ∈ ps) →
    L.Good → Inv ps L → merge seen (l.map (fun q => (q.1, L.real q.2))) s = .ok s' →
    ∃ L', planMerge seen l L = some L' ∧ Inv ps L'
  | [], seen, s, s', L, _, _, hI, _ => ⟨L, rfl, hI⟩
  | (n, r) :: rest, seen, s, s', L, hq, hG, hI, h => by
    simp only [List.map_cons, merge] at h
    simp only [planMerge]
    cases hm : n.module with
    | none =>
      rw [hm] at h
      exact merge_plain rest seen s s' L (fun x hx => hq x (by simp [hx])) hG hI h
    | some m =>
      rw [hm] at h
      dsimp only at h ⊢
      by_cases hs : m ∈ seen
      · rw [if_pos hs] at h ⊢
        exact merge_plain rest seen s s' L (fun x hx => hq x (by simp [hx])) hG hI h
      · rw [if_neg hs] at h ⊢
        cases h1 : mergeInto m (L.real r) (rest.map fun q => (q.1, L.real q.2)) s with
        | error e => rw [h1] at h; cases h
        | ok s1 =>
          rw [h1] at h
          dsimp only at h
          obtain ⟨L1, e1, e2, e3, e4⟩ := into_plain m r (hq (n, r) (by simp)) rest s s1 L (fun x hx => hq x (by simp [hx])) hG hI h1
          have hreal : ∀ p, L1.real p = L.real p := by
            intro p
            have hl2 : ∀ x, L1.l x = L.l x := fun x => by unfold Lay.l; rw [e2]
            unfold Lay.real Lay.whole
            simp only [hl2]
          rw [e1]
          dsimp only
          refine merge_plain rest (m :: seen) s1 s' L1 (fun x hx => hq x (by simp [hx])) e3 e4 ?_
          rw [show (rest.map fun q => (q.1, L1.real q.2)) = rest.map fun q => (q.1, L.real q.2) from
            List.map_congr_left fun x _ => by rw [hreal]]
          exact h

/-- Graphs of ordinary layers that go through have a regular plan. -/
theorem plain_plan {inputs : Nat} (h0 : 0 < inputs ∧ inputs ≤ 2 ^ 32) {nodes : List Node} (hn : ∀ n ∈ nodes, PlainNode n) {recs : List Rec}
    {s : S} (h : forward inputs nodes = .ok (recs, s)) : ∃ ps L, plan inputs nodes = some (ps, L) ∧ Regular ps L := by
  have sim0 : Sim ⟨[], []⟩ ⟨[], [], [], []⟩ := sim_init
  have inv0 : Inv [] ⟨[], [], [], []⟩ := ⟨by simp, by intro t ht; simp [held] at ht, by simp⟩
  unfold forward at h
  cases h1 : forwardAll inputs nodes [] ⟨[], []⟩ with
  | error e => rw [h1] at h; cases h
  | ok x =>
    obtain ⟨rs, s1⟩ := x
    rw [h1] at h
    dsimp only at h
    obtain ⟨qs, L1, e1, e2⟩ := all_plain h0 nodes [] ⟨[], []⟩ s1 ⟨[], [], [], []⟩ rs hn sim0 (by simp) inv0 h1
    obtain ⟨s2, a1, a2, a3, a4⟩ := sim_all inputs nodes [] ⟨[], []⟩ ⟨[], [], [], []⟩ qs L1 sim0 (by simp) e1
    rw [List.map_nil, h1] at a1
    simp only [Except.ok.injEq, Prod.mk.injEq] at a1
    obtain ⟨rfl, rfl⟩ := a1
    cases h2 : merge [] (nodes.zip (qs.map L1.real)) s1 with
    | error e => rw [h2] at h; cases h
    | ok s2 =>
      rw [show nodes.zip (qs.map L1.real) = (nodes.zip qs).map (fun q => (q.1, L1.real q.2)) from by
        rw [List.zip_map_right]; rfl] at h2
      obtain ⟨L2, b1, b2⟩ := merge_plain (ps := qs) (nodes.zip qs) [] s1 s2 L1 (fun q hq => (List.of_mem_zip hq).2) a2.good e2 h2
      refine ⟨qs, L2, ?_, ?_, b2.small⟩
      · unfold plan
        rw [e1]
        dsimp only
        rw [b1]
      · intro v hv t ht
        obtain ⟨p, hp, hvp⟩ := List.mem_flatMap.1 (show v ∈ qs.flatMap (fun p => [p.inp, p.out]) from hv)
        have hsingle : ∀ u ∈ held qs, [u] ∈ tensors qs := by
          intro u hu
          obtain ⟨q, hq, hu⟩ := List.mem_flatMap.1 hu
          obtain ⟨a, b, c, e, _⟩ := b2.single q hq
          refine List.mem_flatMap.2 ⟨q, hq, ?_⟩
          rw [e] at hu ⊢
          have : u = a ∨ u = b := by simpa using hu
          rcases this with rfl | rfl <;> simp
        have hth : t ∈ held qs := by
          refine List.mem_flatMap.2 ⟨p, hp, ?_⟩
          have : v = p.inp ∨ v = p.out := by simpa using hvp
          rcases this with rfl | rfl
          · exact List.mem_append.2 (Or.inl ht)
          · exact List.mem_append.2 (Or.inr ht)
        obtain ⟨t1, t2, t3, t4⟩ := b2.flat t hth
        by_cases hone : L2.n t = 1
        · obtain ⟨u, hu, u1, u2⟩ := t4 hone
          exact ⟨[u], hsingle u hu, u, by simp, u1, by rw [if_pos hone]; exact ⟨rfl, u2⟩⟩
        · exact ⟨[t], hsingle t hth, t, by simp, rfl, by rw [if_neg hone]; exact t2⟩

end Verif.ChannelNodes
