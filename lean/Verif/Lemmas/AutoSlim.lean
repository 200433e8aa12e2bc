import Verif.Spec.AutoSlim

/-! Helper lemmas for `Verif/Props/AutoSlim.lean`. -/

namespace Verif.AutoSlim
open Verif

/-! ### Helpers -/

theorem pickLoop_spec (score : List Nat → ℚ) (cur : List Nat) :
    ∀ (is : List Nat) (best : Option (ℚ × List Nat)),
      (∀ t o, best = some (t, o) → t = score o) →
      (pickLoop score cur is best = none ↔ best = none ∧ ∀ i ∈ is, cur.getD i 0 = 1) ∧
      ∀ s b, pickLoop score cur is best = some (s, b) →
        s = score b ∧
        (best = some (s, b) ∨ ∃ i ∈ is, cur.getD i 0 ≠ 1 ∧ b = cur.set i (cur.getD i 0 - 1)) ∧
        (∀ t o, best = some (t, o) → t ≤ s) ∧
        ∀ i ∈ is, cur.getD i 0 ≠ 1 → score (cur.set i (cur.getD i 0 - 1)) ≤ s := by
  intro is
  induction is with
  | nil =>
    intro best hb
    refine ⟨by simp [pickLoop], ?_⟩
    intro s b h
    simp only [pickLoop] at h
    refine ⟨hb s b h, Or.inl h, ?_, by simp⟩
    intro t o ho
    rw [h] at ho
    simp only [Option.some.injEq, Prod.mk.injEq] at ho
    rw [ho.1]
  | cons i is ih =>
    intro best hb
    rw [pickLoop]
    simp only
    by_cases h1 : cur.getD i 0 = 1
    · rw [if_pos h1]
      obtain ⟨ih1, ih2⟩ := ih best hb
      refine ⟨?_, ?_⟩
      · rw [ih1]; simp only [List.forall_mem_cons, h1, true_and]
      · intro s b h
        obtain ⟨a1, a2, a3, a4⟩ := ih2 s b h
        refine ⟨a1, ?_, a3, ?_⟩
        · rcases a2 with a2 | ⟨j, hj, a2⟩
          · exact Or.inl a2
          · exact Or.inr ⟨j, by simp [hj], a2⟩
        · intro j hj
          rcases List.mem_cons.mp hj with rfl | hj
          · intro hc; exact absurd h1 hc
          · exact a4 j hj
    · rw [if_neg h1]
      -- the new best value
      have key : ∀ nb : ℚ × List Nat, nb.1 = score nb.2 →
          (best = some nb ∨ nb.2 = cur.set i (cur.getD i 0 - 1)) →
          (∀ t o, best = some (t, o) → t ≤ nb.1) →
          score (cur.set i (cur.getD i 0 - 1)) ≤ nb.1 →
          (pickLoop score cur is (some nb) = none ↔ best = none ∧ ∀ j ∈ i :: is, cur.getD j 0 = 1) ∧
          ∀ s b, pickLoop score cur is (some nb) = some (s, b) →
            s = score b ∧
            (best = some (s, b) ∨ ∃ j ∈ i :: is, cur.getD j 0 ≠ 1 ∧ b = cur.set j (cur.getD j 0 - 1)) ∧
            (∀ t o, best = some (t, o) → t ≤ s) ∧
            ∀ j ∈ i :: is, cur.getD j 0 ≠ 1 → score (cur.set j (cur.getD j 0 - 1)) ≤ s := by
        intro nb hnb horig hle hcur
        obtain ⟨ih1, ih2⟩ := ih (some nb) (by intro t o h; simp only [Option.some.injEq] at h; subst h; exact hnb)
        refine ⟨?_, ?_⟩
        · rw [ih1]
          simp only [reduceCtorEq, false_and, List.forall_mem_cons, h1, and_false]
        · intro s b h
          obtain ⟨a1, a2, a3, a4⟩ := ih2 s b h
          have hnbs : nb.1 ≤ s := a3 nb.1 nb.2 rfl
          refine ⟨a1, ?_, fun t o ho => le_trans (hle t o ho) hnbs, ?_⟩
          · rcases a2 with a2 | ⟨j, hj, a2⟩
            · simp only [Option.some.injEq] at a2
              subst a2
              rcases horig with h | h
              · exact Or.inl h
              · exact Or.inr ⟨i, by simp, h1, h⟩
            · exact Or.inr ⟨j, by simp [hj], a2⟩
          · intro j hj
            rcases List.mem_cons.mp hj with rfl | hj
            · intro _; exact le_trans hcur hnbs
            · exact a4 j hj
      cases best with
      | none =>
        exact key (score (cur.set i (cur.getD i 0 - 1)), cur.set i (cur.getD i 0 - 1)) rfl (Or.inr rfl) (by simp) (le_refl _)
      | some p =>
        obtain ⟨t, o⟩ := p
        simp only
        by_cases hs : score (cur.set i (cur.getD i 0 - 1)) > t
        · rw [if_pos hs]
          refine key (score (cur.set i (cur.getD i 0 - 1)), cur.set i (cur.getD i 0 - 1)) rfl (Or.inr rfl) ?_ (le_refl _)
          intro t' o' h
          simp only [Option.some.injEq, Prod.mk.injEq] at h
          rw [← h.1]
          exact le_of_lt hs
        · rw [if_neg hs]
          refine key (t, o) (hb t o rfl) (Or.inl rfl) ?_ (not_lt.mp hs)
          intro t' o' h
          simp only [Option.some.injEq, Prod.mk.injEq] at h
          rw [← h.1]

theorem oneLess_iff (cur b : List Nat) (hpos : ∀ x ∈ cur, 1 ≤ x) :
    OneLess cur b ↔ ∃ i ∈ List.range cur.length, cur.getD i 0 ≠ 1 ∧ b = cur.set i (cur.getD i 0 - 1) := by
  constructor
  · rintro ⟨i, h, h2, rfl⟩
    refine ⟨i, by simpa using h, ?_, ?_⟩
    · rw [List.getD_eq_getElem _ _ h]; omega
    · rw [List.getD_eq_getElem _ _ h]
  · rintro ⟨i, h, h2, rfl⟩
    have h : i < cur.length := by simpa using h
    rw [List.getD_eq_getElem _ _ h] at h2 ⊢
    have := hpos _ (List.getElem_mem h)
    exact ⟨i, h, by omega, rfl⟩

theorem pick_some (score : List Nat → ℚ) (cur b : List Nat) (hpos : ∀ x ∈ cur, 1 ≤ x)
    (h : pick score cur = some b) : GreedyStep score cur b := by
  unfold pick at h
  obtain ⟨⟨s, b'⟩, hp, hb⟩ := Option.map_eq_some_iff.mp h
  simp only at hb
  subst hb
  obtain ⟨_, h2⟩ := pickLoop_spec score cur (List.range cur.length) none (by simp)
  obtain ⟨a1, a2, _, a4⟩ := h2 s b' hp
  rcases a2 with a2 | a2
  · cases a2
  · refine ⟨(oneLess_iff cur b' hpos).mpr a2, ?_⟩
    intro c hc
    obtain ⟨i, hi, hne, rfl⟩ := (oneLess_iff cur c hpos).mp hc
    rw [← a1]
    exact a4 i hi hne

theorem pick_none (score : List Nat → ℚ) (cur : List Nat) :
    pick score cur = none ↔ ∀ x ∈ cur, x = 1 := by
  unfold pick
  rw [Option.map_eq_none_iff, (pickLoop_spec score cur (List.range cur.length) none (by simp)).1]
  simp only [true_and, List.mem_range]
  constructor
  · intro h x hx
    obtain ⟨i, hi, rfl⟩ := List.mem_iff_getElem.mp hx
    have := h i hi
    rwa [List.getD_eq_getElem _ _ hi] at this
  · intro h i hi
    rw [List.getD_eq_getElem _ _ hi]
    exact h _ (List.getElem_mem hi)

theorem oneLess_sum (a b : List Nat) (h : OneLess a b) : b.sum + 1 = a.sum := by
  obtain ⟨i, hi, h2, rfl⟩ := h
  induction a generalizing i with
  | nil => simp at hi
  | cons x a ih =>
    cases i with
    | zero =>
      simp only [List.getElem_cons_zero] at h2
      simp only [List.set_cons_zero, List.sum_cons, List.getElem_cons_zero]
      omega
    | succ i =>
      simp only [List.getElem_cons_succ] at h2
      simp only [List.set_cons_succ, List.sum_cons, List.getElem_cons_succ]
      have := ih i (by simpa using hi) h2
      omega

theorem oneLess_pos (a b : List Nat) (hpos : ∀ x ∈ a, 1 ≤ x) (h : OneLess a b) : ∀ x ∈ b, 1 ≤ x := by
  obtain ⟨i, hi, h2, rfl⟩ := h
  intro x hx
  rcases List.mem_or_eq_of_mem_set hx with hx | rfl
  · exact hpos x hx
  · omega

theorem oneLess_le (a b : List Nat) (h : OneLess a b) : List.Forall₂ (· ≤ ·) b a := by
  obtain ⟨i, hi, _, rfl⟩ := h
  rw [List.forall₂_iff_get]
  refine ⟨by simp, ?_⟩
  intro j h1 h2
  simp only [List.get_eq_getElem, List.getElem_set]
  split
  · rename_i e; subst e; omega
  · exact le_refl _

theorem shrinks_inv (flopsOf score : List Nat → ℚ) (t : ℚ) (a b : List Nat)
    (h : Shrinks flopsOf score t a b) :
    flopsOf b ≤ t ∧ ((∀ x ∈ a, 1 ≤ x) → ∀ x ∈ b, 1 ≤ x) ∧ List.Forall₂ (· ≤ ·) b a := by
  induction h with
  | done a h =>
    refine ⟨h, fun h => h, ?_⟩
    rw [List.forall₂_same]
    intros; exact le_refl _
  | step a b c _ hg _ ih =>
    obtain ⟨i1, i2, i3⟩ := ih
    refine ⟨i1, fun hp => i2 (oneLess_pos a b hp hg.1), ?_⟩
    have h2 := oneLess_le a b hg.1
    rw [List.forall₂_iff_get] at i3 h2 ⊢
    refine ⟨i3.1.trans h2.1, ?_⟩
    intro j h1 h3
    exact le_trans (i3.2 j h1 (by omega)) (h2.2 j (by omega) h3)

/-- The while loop. -/
theorem shrink_ok (flopsOf score : List Nat → ℚ) (t : ℚ) :
    ∀ (n : Nat) (st : State) (ck : List State), (∀ x ∈ st.current, 1 ≤ x) → st.flops = flopsOf st.current →
      st.current.sum ≤ n →
      (∃ st' new, shrink flopsOf score t n st ck = .ok (st', ck ++ new) ∧
        Shrinks flopsOf score t st.current st'.current ∧ st'.flops = flopsOf st'.current ∧
        st'.searched = st.searched ∧
        (∀ c ∈ new, c.searched = st.searched ∧ c.flops = flopsOf c.current ∧ ∀ x ∈ c.current, 1 ≤ x) ∧
        (st.flops > t → ∃ init, new = init ++ [st'] ∧ ∀ c ∈ init, t < c.flops)) ∨
      (shrink flopsOf score t n st ck = .error (.raised .runtime) ∧
        t < flopsOf (st.current.map (fun _ => 1))) := by
  intro n
  induction n with
  | zero =>
    intro st ck hpos hf hn
    rw [shrink.eq_def]
    dsimp only
    by_cases hgt : st.flops > t
    · rw [if_pos hgt]
      have hnil : st.current = [] := by
        rcases hc : st.current with _ | ⟨x, xs⟩
        · rfl
        · rw [hc] at hpos hn
          have := hpos x (by simp)
          simp only [List.sum_cons] at hn
          omega
      have : pick score st.current = none := by rw [pick_none, hnil]; simp
      rw [this]
      refine Or.inr ⟨rfl, ?_⟩
      rw [hnil, List.map_nil, ← hnil, ← hf]
      exact hgt
    · rw [if_neg hgt]
      refine Or.inl ⟨st, [], by simp, .done _ (by rw [← hf]; exact not_lt.mp hgt), hf, rfl, by simp, fun h => absurd h hgt⟩
  | succ n ih =>
    intro st ck hpos hf hn
    rw [shrink.eq_def]
    dsimp only
    by_cases hgt : st.flops > t
    · rw [if_pos hgt]
      cases hp : pick score st.current with
      | none =>
        refine Or.inr ⟨rfl, ?_⟩
        have hall := (pick_none score st.current).mp hp
        have : st.current.map (fun _ => 1) = st.current := by
          conv_rhs => rw [← List.map_id st.current]
          apply List.map_congr_left
          intro x hx
          exact (hall x hx).symm
        rw [this, ← hf]
        exact hgt
      | some best =>
        simp only
        have hg := pick_some score st.current best hpos hp
        have hs := oneLess_sum _ _ hg.1
        have hposb := oneLess_pos _ _ hpos hg.1
        rcases ih { st with current := best, flops := flopsOf best }
            (ck ++ [{ st with current := best, flops := flopsOf best }]) hposb rfl (by simp only; omega) with
          ⟨st', new, h1, h2, h3, h4, h5, h6⟩ | ⟨h1, h2⟩
        · refine Or.inl ⟨st', { st with current := best, flops := flopsOf best } :: new, ?_, ?_, h3, h4, ?_, ?_⟩
          · rw [h1]; simp
          · exact .step _ _ _ (by rw [← hf]; exact hgt) hg h2
          · intro c hc
            rcases List.mem_cons.mp hc with rfl | hc
            · exact ⟨rfl, rfl, hposb⟩
            · exact h5 c hc
          · intro _
            by_cases hb : flopsOf best > t
            · obtain ⟨init, hi, hlt⟩ := h6 hb
              refine ⟨{ st with current := best, flops := flopsOf best } :: init, by rw [hi]; rfl, ?_⟩
              intro c hc
              rcases List.mem_cons.mp hc with rfl | hc
              · exact hb
              · exact hlt c hc
            · have hstop : shrink flopsOf score t n { st with current := best, flops := flopsOf best }
                  (ck ++ [{ st with current := best, flops := flopsOf best }])
                  = .ok ({ st with current := best, flops := flopsOf best },
                    ck ++ [{ st with current := best, flops := flopsOf best }]) := by
                rw [shrink.eq_def]; dsimp only; rw [if_neg hb]
              rw [hstop] at h1
              simp only [Except.ok.injEq, Prod.mk.injEq, List.append_assoc] at h1
              obtain ⟨e1, e2⟩ := h1
              have e3 : [{ st with current := best, flops := flopsOf best }]
                  = [{ st with current := best, flops := flopsOf best }] ++ new := by
                have e2' : ck ++ [{ st with current := best, flops := flopsOf best }]
                  = (ck ++ [{ st with current := best, flops := flopsOf best }]) ++ new := by
                  simpa using e2
                have := List.append_cancel_left (as := ck) (by simpa [List.append_assoc] using e2')
                simpa using this
              have : new = [] := by simpa using e3
              subst this
              exact ⟨[], by simp [← e1], by simp⟩
        · refine Or.inr ⟨h1, ?_⟩
          have hlen : best.length = st.current.length := by
            obtain ⟨i, hi, _, hb⟩ := hg.1
            rw [hb]; simp
          have : st.current.map (fun _ => 1) = best.map (fun _ => 1) := by
            rw [List.map_const', List.map_const', hlen]
          rw [this]
          exact h2
    · rw [if_neg hgt]
      refine Or.inl ⟨st, [], by simp, .done _ (by rw [← hf]; exact not_lt.mp hgt), hf, rfl, by simp, fun h => absurd h hgt⟩

theorem runTargets_ok (flopsOf score : List Nat → ℚ) :
    ∀ (ts : List ℚ) (st : State) (ck : List State), (∀ x ∈ st.current, 1 ≤ x) → st.flops = flopsOf st.current →
      (∃ st' ck' recs, runTargets flopsOf score false ts st ck = .ok (st', ck') ∧
        st'.searched = st.searched ++ recs ∧ Records flopsOf score ts st.current recs) ∨
      (runTargets flopsOf score false ts st ck = .error (.raised .runtime) ∧
        ∃ t ∈ ts, t < flopsOf (st.current.map (fun _ => 1))) := by
  intro ts
  induction ts with
  | nil => intro st ck _ _; exact Or.inl ⟨st, ck, [], rfl, by simp, trivial⟩
  | cons t ts ih =>
    intro st ck hpos hf
    rw [runTargets]
    simp only [Bool.false_eq_true, false_and, if_false]
    by_cases hle : st.flops ≤ t
    · rw [if_pos hle]
      rcases ih (record st) ck hpos hf with ⟨st', ck', recs, h1, h2, h3⟩ | ⟨h1, t', ht', h2⟩
      · refine Or.inl ⟨st', ck', (st.current, st.flops) :: recs, h1, ?_, ?_, hf, h3⟩
        · rw [h2]; simp [record]
        · exact .done _ (by rw [← hf]; exact hle)
      · exact Or.inr ⟨h1, t', by simp [ht'], h2⟩
    · rw [if_neg hle]
      rcases shrink_ok flopsOf score t st.current.sum st ck hpos hf (le_refl _) with
        ⟨st1, new, h1, h2, h3, h4, _, _⟩ | ⟨h1, h2⟩
      · rw [h1]
        simp only
        obtain ⟨_, i2, i3⟩ := shrinks_inv _ _ _ _ _ h2
        rcases ih (record st1) (ck ++ new) (i2 hpos) h3 with ⟨st', ck', recs, g1, g2, g3⟩ | ⟨g1, t', ht', g2⟩
        · refine Or.inl ⟨st', ck', (st1.current, st1.flops) :: recs, g1, ?_, h2, h3, g3⟩
          rw [g2]; simp [record, h4]
        · refine Or.inr ⟨g1, t', by simp [ht'], ?_⟩
          have : (record st1).current.map (fun _ => 1) = st.current.map (fun _ => 1) := by
            have := i3.length_eq
            simp only [record, List.map_const', this]
          rwa [this] at g2
      · rw [h1]
        exact Or.inr ⟨rfl, t, by simp, h2⟩

theorem records_forall (flopsOf score : List Nat → ℚ) :
    ∀ (ts : List ℚ) (cur : List Nat) (recs : List (List Nat × ℚ)), Records flopsOf score ts cur recs →
      (∀ x ∈ cur, 1 ≤ x) →
      List.Forall₂ (fun t r => r.2 = flopsOf r.1 ∧ r.2 ≤ t ∧ (∀ x ∈ r.1, 1 ≤ x) ∧
        List.Forall₂ (· ≤ ·) r.1 cur) ts recs
  | [], _, [], _, _ => List.Forall₂.nil
  | [], _, _ :: _, h, _ => by simp [Records] at h
  | _ :: _, _, [], h, _ => by simp [Records] at h
  | t :: ts, cur, (s, f) :: recs, h, hpos => by
    obtain ⟨h1, h2, h3⟩ := h
    obtain ⟨i1, i2, i3⟩ := shrinks_inv _ _ _ _ _ h1
    refine List.Forall₂.cons ⟨h2, by simpa [h2] using i1, i2 hpos, i3⟩ ?_
    refine List.Forall₂.imp ?_ (records_forall flopsOf score ts s recs h3 (i2 hpos))
    rintro t' r ⟨a1, a2, a3, a4⟩
    refine ⟨a1, a2, a3, ?_⟩
    rw [List.forall₂_iff_get] at a4 i3 ⊢
    refine ⟨a4.1.trans i3.1, fun j h1 h2 => le_trans (a4.2 j h1 (by omega)) (i3.2 j (by omega) h2)⟩

theorem runTargets_resumed (flopsOf score : List Nat → ℚ) : ∀ (ts : List ℚ) (st : State) (ck : List State),
    NeverSkips flopsOf score ts st →
    runTargets flopsOf score true ts st ck = runTargets flopsOf score false ts st ck
  | [], _, _, _ => rfl
  | t :: ts, st, ck, h => by
    obtain ⟨h1, h2⟩ := h
    rw [runTargets, runTargets]
    simp only [not_le.mpr h1, and_false, if_false]
    cases hs : shrink flopsOf score t st.current.sum st ck with
    | error e => rfl
    | ok r =>
      obtain ⟨st', ck'⟩ := r
      simp only
      exact runTargets_resumed flopsOf score ts _ ck' (h2 st' ck ck' hs)

end Verif.AutoSlim
