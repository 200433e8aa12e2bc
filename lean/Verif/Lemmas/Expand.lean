import Verif.Spec.Expand

/-! Helper lemmas for `Verif/Props/Expand.lean`. -/

/-! C48: expanding the channels of a network. -/
namespace Verif.Expand
open Verif.DynamicOps (select chunks count select_map select_zipWith select_append select_true
  chunks_flatten count_true)

theorem place_length {α : Type} (z : α) (m : List Bool) (src : List α) :
    (place z m src).length = m.length := by
  induction m generalizing src with
  | nil => simp [place]
  | cons b m ih =>
      cases b
      · simp [place, ih]
      · cases src <;> simp [place, ih]

theorem count_cons (b : Bool) (m : List Bool) :
    count (b :: m) = (if b then 1 else 0) + count m := by
  cases b <;> simp [count]; omega

theorem count_append (m m' : List Bool) : count (m ++ m') = count m + count m' := by
  simp [count]

theorem select_place {α : Type} (z : α) (m : List Bool) (src : List α)
    (h : src.length = count m) : select m (place z m src) = src := by
  induction m generalizing src with
  | nil => simp [count] at h; simp [place, select, h]
  | cons b m ih =>
      rw [count_cons] at h
      cases b
      · simp [place, select, ih src (by simpa using h)]
      · cases src with
        | nil => simp at h; try omega
        | cons s src => simp [place, select, ih src (by simp at h; omega)]

theorem scatter_place {α : Type} (z : α) (m : List Bool) (src : List α)
    (h : count m ≤ src.length) :
    scatter m src (List.replicate m.length z) = .ok (place z m src) := by
  induction m generalizing src with
  | nil => simp [scatter, place]
  | cons b m ih =>
      rw [count_cons] at h
      cases b
      · simp [scatter, place, List.replicate_succ, ih src (by simpa using h), Functor.map,
          Except.map]
      · cases src with
        | nil => simp at h; try omega
        | cons s src =>
            simp [scatter, place, List.replicate_succ, ih src (by simp at h; omega),
              Functor.map, Except.map]

theorem place_append {α : Type} (z : α) (m m' : List Bool) (s s' : List α)
    (h : s.length = count m) : place z (m ++ m') (s ++ s') = place z m s ++ place z m' s' := by
  induction m generalizing s with
  | nil => simp [count] at h; simp [place, h]
  | cons b m ih =>
      rw [count_cons] at h
      cases b
      · simp [place, ih s (by simpa using h)]
      · cases s with
        | nil => simp at h; try omega
        | cons a s => simp [place, ih s (by simp at h; omega)]

theorem place_blocks {α : Type} (z : α) (Z : List α) (B : Bool → List Bool) (m : List Bool)
    (src : List (List α)) (hZ : place z (B false) [] = Z) (h0 : count (B false) = 0)
    (h : src.length = count m) (hs : ∀ s ∈ src, s.length = count (B true)) :
    place z (m.flatMap B) src.flatten = (place Z m (src.map (place z (B true)))).flatten := by
  induction m generalizing src with
  | nil => simp [count] at h; simp [place]
  | cons b m ih =>
      rw [count_cons] at h
      cases b
      · have := place_append z (B false) (m.flatMap B) [] src.flatten (by simp [h0])
        rw [List.nil_append] at this
        simp only [List.flatMap_cons, this, hZ, place, List.flatten_cons]
        rw [ih src (by simpa using h) hs]
      · cases src with
        | nil => simp at h; try omega
        | cons s src =>
            simp only [List.flatMap_cons, List.flatten_cons, List.map_cons, place]
            rw [place_append z _ _ _ _ (hs s (by simp)),
              ih src (by simp at h; omega) (fun t ht => hs t (by simp [ht]))]

theorem count_blocks (B : Bool → List Bool) (m : List Bool) (h0 : count (B false) = 0) :
    count (m.flatMap B) = count m * count (B true) := by
  induction m with
  | nil => simp [count]
  | cons b m ih =>
      rw [List.flatMap_cons, count_append, ih, count_cons]
      cases b
      · simp [h0]
      · simp [Nat.add_mul]

theorem count_false (n : Nat) : count (List.replicate n false) = 0 := by
  simp [count]

theorem place_false {α : Type} (z : α) (n : Nat) :
    place z (List.replicate n false) [] = List.replicate n z := by
  induction n with
  | zero => rfl
  | succ n ih => simp [List.replicate_succ, place, ih]

theorem place_all {α : Type} (z : α) (src : List α) :
    place z (List.replicate src.length true) src = src := by
  induction src with
  | nil => rfl
  | cons s src ih => simp [List.replicate_succ, place, ih]

theorem mem_place {α : Type} (z : α) (m : List Bool) (src : List α) (x : α)
    (h : x ∈ place z m src) : x = z ∨ x ∈ src := by
  induction m generalizing src with
  | nil => simp [place] at h
  | cons b m ih =>
      cases b
      · simp only [place, List.mem_cons] at h
        rcases h with h | h
        · exact .inl h
        · exact ih src h
      · cases src with
        | nil =>
            simp only [place, List.mem_cons] at h
            rcases h with h | h
            · exact .inl h
            · rcases ih [] h with h | h
              · exact .inl h
              · cases h
        | cons s src =>
            simp only [place, List.mem_cons] at h
            rcases h with h | h
            · exact .inr (by simp [h])
            · rcases ih src h with h | h
              · exact .inl h
              · exact .inr (by simp [h])

theorem flatMap_false (mi : List Bool) (c : Nat) :
    (mi.flatMap fun i => List.replicate c (false && i)) = List.replicate (mi.length * c) false := by
  induction mi with
  | nil => simp
  | cons b mi ih =>
      rw [List.flatMap_cons, ih]
      simp only [Bool.false_and, List.length_cons, Nat.add_mul, one_mul]
      rw [Nat.add_comm, List.replicate_add]

theorem expandVector_eq (z : ℚ) (mo : List Bool) (c : Nat) (old : List (List ℚ))
    (h : old.length = count mo) (hc : ∀ k ∈ old, k.length = c) :
    expandVector mo c (List.replicate (mo.length * c) z) old =
      .ok (place (List.replicate c z) mo old) := by
  have hlen : (mo.flatMap fun o => List.replicate c o).length = mo.length * c := by
    simp [List.length_flatMap]
  have hcnt : count (mo.flatMap fun o => List.replicate c o) = count mo * c := by
    rw [count_blocks (fun o => List.replicate c o) mo (count_false c), count_true]
  have hold : old.flatten.length = count mo * c := by
    rw [List.length_flatten, List.eq_replicate_iff.mpr (⟨by simp, by simpa using hc⟩ :
      (old.map List.length).length = old.length ∧ ∀ b ∈ old.map List.length, b = c)]
    simp [h]
  have hs := scatter_place z (mo.flatMap fun o => List.replicate c o) old.flatten
    (by rw [hcnt, hold])
  rw [hlen] at hs
  have hm : old.map (place z (List.replicate c true)) = old := by
    conv_rhs => rw [← List.map_id old]
    apply List.map_congr_left
    intro k hk
    rw [← hc k hk]; exact place_all z k
  simp only [expandVector, hs, bind, Except.bind, pure, Except.pure]
  rw [place_blocks z (List.replicate c z) (fun o => List.replicate c o) mo old (place_false z c)
    (count_false c) h (by intro s hs; rw [count_true]; exact hc s hs), hm]
  have hl : (place (List.replicate c z) mo old).length = mo.length := place_length ..
  rw [← hl, chunks_flatten]
  intro l hl
  rcases mem_place _ _ _ _ hl with rfl | h
  · simp
  · exact hc l h

theorem expandBias_eq (z : ℚ) (mo : List Bool) (old : List ℚ) (h : old.length = count mo) :
    expandBias mo (List.replicate mo.length z) old = .ok (place z mo old) := by
  have := expandVector_eq z mo 1 (old.map ([·])) (by simpa using h) (by simp)
  rw [Nat.mul_one] at this
  simp only [expandBias, this, bind, Except.bind, pure, Except.pure]
  congr 1
  clear this h
  induction mo generalizing old with
  | nil => simp [place]
  | cons b mo ih =>
      cases b
      · simpa [place] using ih old
      · cases old with
        | nil => simpa [place] using ih []
        | cons s old => simpa [place] using ih old

theorem expandMatrix_eq (mo mi : List Bool) (c : Nat) (old : List (List (List ℚ)))
    (h : old.length = count mo) (hr : ∀ r ∈ old, r.length = count mi ∧ ∀ k ∈ r, k.length = c) :
    expandMatrix mo mi c (List.replicate (mo.length * (mi.length * c)) 0) old =
      .ok (place (List.replicate mi.length (List.replicate c 0)) mo
        (old.map (place (List.replicate c 0) mi))) := by
  set B : Bool → List Bool := fun o => mi.flatMap fun i => List.replicate c (o && i) with hB
  have hB0 : B false = List.replicate (mi.length * c) false := flatMap_false mi c
  have hB1 : B true = mi.flatMap fun i => List.replicate c i := by simp [hB]
  have hc0 : count (B false) = 0 := by rw [hB0]; exact count_false _
  have hc1 : count (B true) = count mi * c := by
    rw [hB1, count_blocks (fun o => List.replicate c o) mi (count_false c), count_true]
  have hBl : ∀ o, (B o).length = mi.length * c := by
    intro o; simp [hB, List.length_flatMap]
  have hlen : (mo.flatMap B).length = mo.length * (mi.length * c) := by
    simp [List.length_flatMap, hBl]
  have hrow : ∀ r ∈ old, r.flatten.length = count mi * c := by
    intro r hr'
    rw [List.length_flatten, List.eq_replicate_iff.mpr (⟨by simp, by simpa using (hr r hr').2⟩ :
      (r.map List.length).length = r.length ∧ ∀ b ∈ r.map List.length, b = c)]
    simp [(hr r hr').1]
  have hsrc : (old.map List.flatten).flatten.length = count mo * (count mi * c) := by
    rw [List.length_flatten, List.eq_replicate_iff.mpr (⟨by simp, by simpa using hrow⟩ :
      ((old.map List.flatten).map List.length).length = old.length ∧
        ∀ b ∈ (old.map List.flatten).map List.length, b = count mi * c)]
    simp [h]
  have hs := scatter_place (0 : ℚ) (mo.flatMap B) (old.map List.flatten).flatten
    (by rw [count_blocks B mo hc0, hc1, hsrc])
  rw [hlen] at hs
  have hpl : ∀ r ∈ old, place (0 : ℚ) (B true) r.flatten =
      (place (List.replicate c 0) mi r).flatten := by
    intro r hr'
    rw [hB1, place_blocks 0 (List.replicate c 0) (fun o => List.replicate c o) mi r
      (place_false 0 c) (count_false c) (hr r hr').1
      (by intro s hs; rw [count_true]; exact (hr r hr').2 s hs)]
    congr 2
    conv_rhs => rw [← List.map_id r]
    apply List.map_congr_left
    intro k hk
    rw [← (hr r hr').2 k hk]; exact place_all 0 k
  simp only [expandMatrix]
  rw [show (mo.flatMap fun o => mi.flatMap fun i => List.replicate c (o && i)) = mo.flatMap B
    from rfl, hs]
  simp only [bind, Except.bind, pure, Except.pure]
  rw [place_blocks 0 (List.replicate (mi.length * c) 0) B mo (old.map List.flatten)
    (by rw [hB0]; exact place_false 0 _) hc0 (by simpa using h)
    (by
      intro s hs
      obtain ⟨r, hr', rfl⟩ := List.mem_map.mp hs
      rw [hc1]; exact hrow r hr')]
  rw [List.map_map, show old.map (place 0 (B true) ∘ List.flatten) =
    old.map (fun r => (place (List.replicate c 0) mi r).flatten) from
      List.map_congr_left (fun r hr' => hpl r hr')]
  set R := place (List.replicate (mi.length * c) (0 : ℚ)) mo
    (old.map (fun r => (place (List.replicate c 0) mi r).flatten)) with hR
  have hRl : R.length = mo.length := place_length ..
  have hblock : ∀ K : List (List ℚ), K.length = mi.length → (∀ k ∈ K, k.length = c) →
      K.flatten.length = mi.length * c := by
    intro K h1 h2
    rw [List.length_flatten, List.eq_replicate_iff.mpr (⟨by simp, by simpa using h2⟩ :
      (K.map List.length).length = K.length ∧ ∀ b ∈ K.map List.length, b = c)]
    simp [h1]
  have hrk : ∀ r ∈ old, ∀ k ∈ place (List.replicate c (0 : ℚ)) mi r, k.length = c := by
    intro r hr' k hk
    rcases mem_place _ _ _ _ hk with rfl | hk
    · simp
    · exact (hr r hr').2 k hk
  have hRm : ∀ l ∈ R, l.length = mi.length * c := by
    intro l hl
    rcases mem_place _ _ _ _ hl with rfl | hl
    · simp
    · obtain ⟨r, hr', rfl⟩ := List.mem_map.mp hl
      exact hblock _ (place_length ..) (hrk r hr')
  rw [← hRl, chunks_flatten _ R hRm, hR]
  congr 1
  clear_value R B
  clear hs hR hRl hRm hpl hsrc hrow hlen hBl hc1 hc0 hB1 hB0 hB h
  have hch : ∀ K : List (List ℚ), K.length = mi.length → (∀ k ∈ K, k.length = c) →
      chunks mi.length c K.flatten = K := by
    intro K h1 h2
    rw [← h1]; exact chunks_flatten c K h2
  have hz : chunks mi.length c (List.replicate (mi.length * c) (0 : ℚ)) =
      List.replicate mi.length (List.replicate c 0) := by
    have := hch (List.replicate mi.length (List.replicate c 0)) (by simp) (by simp)
    rwa [List.flatten_replicate_replicate] at this
  induction mo generalizing old with
  | nil => simp [place]
  | cons b mo ih =>
      cases b
      · simp only [place, List.map_cons, hz]
        rw [ih old hr hrk]
      · cases old with
        | nil =>
            simp only [place, List.map_cons, hz, List.map_nil]
            have := ih [] (by simp) (by simp)
            simp only [List.map_nil] at this
            rw [this]
        | cons r old =>
            simp only [place, List.map_cons]
            rw [ih old (fun r hr' => hr r (by simp [hr'])) (fun r hr' => hrk r (by simp [hr'])),
              hch _ (place_length ..) (hrk r (by simp))]

variable {X : Type} [AddCommGroup X]

theorem dot_place (act : List ℚ → X → X) (zk : List ℚ) (h0 : ∀ x, act zk x = 0)
    (mi : List Bool) (row : List (List ℚ)) (x : List X) (h : row.length = count mi)
    (hx : x.length = mi.length) :
    (List.zipWith act (place zk mi row) x).sum = (List.zipWith act row (select mi x)).sum := by
  induction mi generalizing row x with
  | nil => simp [count] at h; simp [place, select, h]
  | cons b mi ih =>
      cases x with
      | nil => simp at hx
      | cons x xs =>
          rw [count_cons] at h
          cases b
          · simp [place, select, h0, ih row xs (by simpa using h) (by simpa using hx)]
          · cases row with
            | nil => simp at h; try omega
            | cons r row =>
                simp [place, select, ih row xs (by simp at h; omega) (by simpa using hx)]

theorem expandOptBias_eq (mo : List Bool) (init : List ℚ) (b : Option (List ℚ))
    (h : ∀ b', b = some b' → b'.length = count mo) :
    expandOptBias mo true init b = .ok (b.map (place 0 mo)) := by
  cases b with
  | none => rfl
  | some b =>
      simp [expandOptBias, newWeights, expandBias_eq 0 mo b (h b rfl), bind, Except.bind, pure,
        Except.pure]

theorem conv_expand (act : List ℚ → X → X) (bias : ℚ → X) (initW initB : List ℚ)
    (mo mi : List Bool) (l : Layer) (h0 : ∀ x, act (List.replicate l.c 0) x = 0)
    (hl : l.Fits mo mi) :
    ∃ l', expandNormal true initW initB mo mi l = .ok l' ∧
      ∀ x : List X, x.length = mi.length →
        (convForward act bias l' x).length = mo.length ∧
        select mo (convForward act bias l' x) = convForward act bias l (select mi x) := by
  obtain ⟨hw, hr, hb⟩ := hl
  refine ⟨⟨l.c, place (List.replicate mi.length (List.replicate l.c 0)) mo
        (l.w.map (place (List.replicate l.c 0) mi)), l.b.map (place 0 mo)⟩, ?_, ?_⟩
  · simp only [expandNormal, newWeights, if_true, expandMatrix_eq mo mi l.c l.w hw hr, bind,
      Except.bind, expandOptBias_eq mo initB l.b hb, pure, Except.pure]
  · intro x hx
    have hy : select mo ((place (List.replicate mi.length (List.replicate l.c 0)) mo
        (l.w.map (place (List.replicate l.c 0) mi))).map
          fun row => (List.zipWith act row x).sum) =
        l.w.map fun row => (List.zipWith act row (select mi x)).sum := by
      rw [select_map, select_place _ _ _ (by simpa using hw), List.map_map]
      apply List.map_congr_left
      intro r hr'
      exact dot_place act _ h0 mi r x (hr r hr').1 hx
    cases hlb : l.b with
    | none => exact ⟨by simp [convForward, place_length], by simpa [convForward, hlb] using hy⟩
    | some b =>
        refine ⟨by simp [convForward, place_length], ?_⟩
        simp only [convForward, hlb, Option.map_some]
        rw [← select_zipWith _ _ _ _ (by simp [place_length]) (by simp [place_length]), hy,
          select_place _ _ _ (hb b hlb)]

theorem dw_expand (act : List ℚ → X → X) (bias : ℚ → X) (initW initB : List ℚ)
    (m : List Bool) (l : DwLayer) (hl : l.Fits m) :
    ∃ l', expandDw true initW initB m m l = .ok l' ∧
      ∀ x : List X, x.length = m.length →
        (dwForward act bias l' x).length = m.length ∧
        select m (dwForward act bias l' x) = dwForward act bias l (select m x) := by
  obtain ⟨hw, hr, hb⟩ := hl
  refine ⟨⟨l.c, place (List.replicate l.c 0) m l.w, l.b.map (place 0 m)⟩, ?_, ?_⟩
  · simp only [expandDw, ne_eq, not_true, if_false, newWeights, if_true,
      expandVector_eq 0 m l.c l.w hw hr, bind, Except.bind,
      expandOptBias_eq m initB l.b hb, pure, Except.pure]
  · intro x hx
    have hy : select m (List.zipWith act (place (List.replicate l.c 0) m l.w) x) =
        List.zipWith act l.w (select m x) := by
      rw [← select_zipWith _ _ _ _ (by simp [place_length]) hx.symm, select_place _ _ _ hw]
    cases hlb : l.b with
    | none =>
        exact ⟨by simp [dwForward, place_length, hx], by simpa [dwForward, hlb] using hy⟩
    | some b =>
        refine ⟨by simp [dwForward, place_length, hx], ?_⟩
        simp only [dwForward, hlb, Option.map_some]
        rw [← select_zipWith _ _ _ _ (by simp [place_length, hx]) (by simp [place_length]), hy,
          select_place _ _ _ (hb b hlb)]

theorem norm_expand (bn : ℚ → ℚ → ℚ → ℚ → X → X) (initW initB : List ℚ)
    (m : List Bool) (n : Norm) (hn : n.Fits m) :
    ∃ n', expandNorm true initW initB m n = .ok n' ∧
      ∀ x : List X, x.length = m.length →
        (normForward bn n' x).length = m.length ∧
        select m (normForward bn n' x) = normForward bn n (select m x) := by
  obtain ⟨h1, h2, w, b, ha, hw, hb⟩ := hn
  refine ⟨⟨place 0 m n.mean, place 1 m n.var, some (place 0 m w, place 0 m b)⟩, ?_, ?_⟩
  · simp only [expandNorm, expandBias_eq _ m _ h1, expandBias_eq _ m _ h2, bind, Except.bind,
      ha, newWeights, if_true, expandBias_eq _ m _ hw, expandBias_eq _ m _ hb, pure,
      Except.pure]
  · intro x hx
    refine ⟨by simp [normForward, place_length, hx], ?_⟩
    simp only [normForward, ha, List.zip]
    rw [← select_zipWith _ _ _ _ (by simp [place_length]) hx.symm,
      ← select_zipWith _ _ _ _ (by simp [place_length]) (by simp [place_length]),
      ← select_zipWith _ _ _ _ (by simp [place_length]) (by simp [place_length]),
      ← select_zipWith _ _ _ _ (by simp [place_length]) (by simp [place_length]),
      select_place _ _ _ h1, select_place _ _ _ h2, select_place _ _ _ hw, select_place _ _ _ hb]

theorem select_spread {α β : Type} (r : Nat) (f : α → List β) (hf : ∀ a, (f a).length = r)
    (m : List Bool) (x : List α) (h : x.length = m.length) :
    select (m.flatMap fun b => List.replicate r b) (x.flatMap f) = (select m x).flatMap f := by
  induction m generalizing x with
  | nil => cases x <;> simp_all [select]
  | cons b m ih =>
      cases x with
      | nil => simp at h; try omega
      | cons a x =>
          rw [List.flatMap_cons, List.flatMap_cons, select_append _ _ _ _ (by simp [hf]),
            ih x (by simpa using h)]
          cases b
          · rw [← hf a]
            have : ∀ l : List β, select (List.replicate l.length false) l = [] := by
              intro l
              induction l with
              | nil => rfl
              | cons y l ih => simp [List.replicate_succ, select, ih]
            rw [this]; simp [select]
          · rw [← hf a, select_true]; simp [select]

theorem net_expand (n : Nat) (init : List ℚ) (e : Net X) (h : e.WF n) :
    ∃ e', e.expand true init = .ok e' ∧
      ∀ x : List X, x.length = n →
        (e'.eval x).length = e.mask.length ∧ select e.mask (e'.eval x) = e.eval x := by
  induction e with
  | input k =>
      cases h
      refine ⟨_, rfl, ?_⟩
      intro x hx
      simp only [Net.eval, Net.mask, List.length_replicate]
      exact ⟨hx, by rw [← hx]; exact select_true x⟩
  | conv act bias mo l e ih =>
      obtain ⟨h1, h2, h3⟩ := h
      obtain ⟨e', he, hx⟩ := ih h1
      obtain ⟨l', hl, hy⟩ := conv_expand act bias init init mo e.mask l h2 h3
      refine ⟨.conv act bias mo l' e', ?_, ?_⟩
      · simp only [Net.expand, he, hl, bind, Except.bind, pure, Except.pure]
      · intro x hn
        obtain ⟨a, b⟩ := hx x hn
        obtain ⟨c, d⟩ := hy _ a
        simp only [Net.eval, Net.mask]
        exact ⟨c, by rw [d, b]⟩
  | dw act bias l e ih =>
      obtain ⟨h1, h2⟩ := h
      obtain ⟨e', he, hx⟩ := ih h1
      obtain ⟨l', hl, hy⟩ := dw_expand act bias init init e.mask l h2
      refine ⟨.dw act bias l' e', ?_, ?_⟩
      · simp only [Net.expand, he, hl, bind, Except.bind, pure, Except.pure]
      · intro x hn
        obtain ⟨a, b⟩ := hx x hn
        obtain ⟨c, d⟩ := hy _ a
        simp only [Net.eval, Net.mask]
        exact ⟨c, by rw [d, b]⟩
  | norm bn k e ih =>
      obtain ⟨h1, h2⟩ := h
      obtain ⟨e', he, hx⟩ := ih h1
      obtain ⟨l', hl, hy⟩ := norm_expand bn init init e.mask k h2
      refine ⟨.norm bn l' e', ?_, ?_⟩
      · simp only [Net.expand, he, hl, bind, Except.bind, pure, Except.pure]
      · intro x hn
        obtain ⟨a, b⟩ := hx x hn
        obtain ⟨c, d⟩ := hy _ a
        simp only [Net.eval, Net.mask]
        exact ⟨c, by rw [d, b]⟩
  | chan f e ih =>
      obtain ⟨e', he, hx⟩ := ih h
      refine ⟨.chan f e', ?_, ?_⟩
      · simp only [Net.expand, he, bind, Except.bind, pure, Except.pure]
      · intro x hn
        obtain ⟨a, b⟩ := hx x hn
        simp only [Net.eval, Net.mask, List.length_map]
        exact ⟨a, by rw [select_map, b]⟩
  | spread r f e ih =>
      obtain ⟨e', he, hx⟩ := ih h
      refine ⟨.spread r f e', ?_, ?_⟩
      · simp only [Net.expand, he, bind, Except.bind, pure, Except.pure]
      · intro x hn
        obtain ⟨a, b⟩ := hx x hn
        simp only [Net.eval, Net.mask]
        refine ⟨by simp [List.length_flatMap, a], ?_⟩
        rw [select_spread r _ (by simp) _ _ a, b]
  | add e₁ e₂ ih₁ ih₂ =>
      obtain ⟨h1, h2, h3⟩ := h
      obtain ⟨e₁', he₁, hx₁⟩ := ih₁ h1
      obtain ⟨e₂', he₂, hx₂⟩ := ih₂ h2
      refine ⟨.add e₁' e₂', ?_, ?_⟩
      · simp only [Net.expand, he₁, he₂, bind, Except.bind, pure, Except.pure]
      · intro x hn
        obtain ⟨a, b⟩ := hx₁ x hn
        obtain ⟨c, d⟩ := hx₂ x hn
        rw [← h3] at c d
        simp only [Net.eval, Net.mask]
        refine ⟨by simp [a, c], ?_⟩
        rw [← select_zipWith _ _ _ _ a.symm c.symm, b, d]
  | cat e₁ e₂ ih₁ ih₂ =>
      obtain ⟨h1, h2⟩ := h
      obtain ⟨e₁', he₁, hx₁⟩ := ih₁ h1
      obtain ⟨e₂', he₂, hx₂⟩ := ih₂ h2
      refine ⟨.cat e₁' e₂', ?_, ?_⟩
      · simp only [Net.expand, he₁, he₂, bind, Except.bind, pure, Except.pure]
      · intro x hn
        obtain ⟨a, b⟩ := hx₁ x hn
        obtain ⟨c, d⟩ := hx₂ x hn
        simp only [Net.eval, Net.mask]
        refine ⟨by simp [a, c], ?_⟩
        rw [select_append _ _ _ _ a.symm, b, d]

end Verif.Expand
