import Verif.Spec.Thresholds

/-! Helper lemmas for `Verif/Props/Thresholds.lean`. -/

namespace Verif.Thresholds
open Verif

theorem initial_spec (thr : List ℚ) : (initial thr).Perm thr ∧ Down (initial thr) := by
  refine ⟨sortBy_perm thr, ?_⟩
  have := sortBy_sorted (le := fun a b : ℚ => decide (b ≤ a)) (fun a b c h h' => by simp at *; linarith)
    (fun a b => by simp; exact le_total _ _) thr
  unfold Down initial
  exact this.imp (fun h => by simpa using h)

/-- The four facts about a run that all theorems need. -/
theorem run_spec (c : Cfg) (hi : 0 < c.interval) : ∀ (ps : List ℚ) (it : Nat) (left : List ℚ), ∃ l, run c it left ps = .ok l ∧
    l.saves.map (·.2) ++ l.left = left ∧
    (∀ e ∈ l.saves, c.interval ∣ e.1 ∧ it ≤ e.1 ∧ ∃ p, ps[e.1 - it]? = some p ∧ p < e.2) ∧
    (l.saves.map (·.1)).Pairwise (· < ·)
  | [], it, left => ⟨⟨[], none, left⟩, rfl, by simp, by simp, by simp⟩
  | p :: ps, it, left => by
    rw [run]
    unfold after
    simp only [if_neg hi.ne']
    cases left with
    | nil =>
      simp only [bind, Except.bind, pure, Except.pure]
      split
      · exact ⟨_, rfl, by simp, by simp, by simp⟩
      · obtain ⟨l, h1, h2, h3, h4⟩ := run_spec c hi ps (it + 1) []
        rw [h1]
        refine ⟨_, rfl, by simpa using h2, ?_, by simpa using h4⟩
        intro e he
        obtain ⟨a, b, q, hq, hlt⟩ := h3 e (by simpa using he)
        refine ⟨a, by omega, q, ?_, hlt⟩
        rw [show e.1 - it = (e.1 - (it + 1)) + 1 by omega]
        simpa using hq
    | cons t ts =>
      simp only [bind, Except.bind, pure, Except.pure]
      by_cases hc : it % c.interval = 0 ∧ p < t
      · simp only [if_pos hc]
        split
        · rename_i hend
          refine ⟨_, rfl, by simp, ?_, by simp⟩
          intro e he
          simp at he
          subst he
          exact ⟨Nat.dvd_of_mod_eq_zero hc.1, le_refl _, p, by simp, hc.2⟩
        · obtain ⟨l, h1, h2, h3, h4⟩ := run_spec c hi ps (it + 1) ts
          rw [h1]
          refine ⟨_, rfl, by simpa using h2, ?_, ?_⟩
          · intro e he
            simp only [List.singleton_append, List.mem_cons] at he
            rcases he with rfl | he
            · exact ⟨Nat.dvd_of_mod_eq_zero hc.1, le_refl _, p, by simp, hc.2⟩
            · obtain ⟨a, b, q, hq, hlt⟩ := h3 e he
              refine ⟨a, by omega, q, ?_, hlt⟩
              rw [show e.1 - it = (e.1 - (it + 1)) + 1 by omega]
              simpa using hq
          · simp only [List.singleton_append, List.map_cons, List.pairwise_cons]
            refine ⟨?_, h4⟩
            intro x hx
            obtain ⟨e, he, rfl⟩ := List.mem_map.1 hx
            have := (h3 e he).2.1
            omega
      · simp only [if_neg hc]
        simp only [List.isEmpty_cons, Bool.and_false, Bool.false_eq_true, if_false]
        obtain ⟨l, h1, h2, h3, h4⟩ := run_spec c hi ps (it + 1) (t :: ts)
        rw [h1]
        refine ⟨_, rfl, by simpa using h2, ?_, by simpa using h4⟩
        intro e he
        obtain ⟨a, b, q, hq, hlt⟩ := h3 e (by simpa using he)
        refine ⟨a, by omega, q, ?_, hlt⟩
        rw [show e.1 - it = (e.1 - (it + 1)) + 1 by omega]
        simpa using hq

theorem run_complete (c : Cfg) (hi : 0 < c.interval) : ∀ (ps : List ℚ) (it : Nat) (left : List ℚ) (l : Log), run c it left ps = .ok l →
    ∀ t, (∀ x ∈ left, t ≤ x) → left.length ≤ checksBelow c t it ps → l.left = []
  | [], it, left, l, h, t, ht, hn => by
    simp [run] at h
    subst h
    simp [checksBelow] at hn
    exact hn
  | p :: ps, it, left, l, h, t, ht, hn => by
    rw [run] at h
    unfold after at h
    simp only [if_neg hi.ne'] at h
    have hcb : checksBelow c t it (p :: ps) = (if it % c.interval = 0 ∧ p < t then 1 else 0) + checksBelow c t (it + 1) ps := by
      unfold checksBelow
      rw [List.zipIdx_cons, List.filter_cons]
      simp only [decide_eq_true_eq]
      split <;> simp [Nat.add_comm]
    cases left with
    | nil =>
      simp only [bind, Except.bind, pure, Except.pure] at h
      split at h
      · simp at h; subst h; rfl
      · obtain ⟨r, hr, _⟩ := run_spec c hi ps (it + 1) []
        rw [hr] at h
        simp at h
        subst h
        exact run_complete c hi ps (it + 1) [] r hr t (by simp) (by simp)
    | cons x ts =>
      simp only [bind, Except.bind, pure, Except.pure] at h
      by_cases hc : it % c.interval = 0 ∧ p < x
      · simp only [if_pos hc] at h
        split at h
        · rename_i hend
          simp at h
          subst h
          simp at hend
          simpa using hend.2
        · obtain ⟨r, hr, _⟩ := run_spec c hi ps (it + 1) ts
          rw [hr] at h
          simp at h
          subst h
          refine run_complete c hi ps (it + 1) ts r hr t (fun y hy => ht y (by simp [hy])) ?_
          rw [hcb] at hn
          simp at hn
          split at hn <;> omega
      · simp only [if_neg hc] at h
        simp only [List.isEmpty_cons, Bool.and_false, Bool.false_eq_true, if_false] at h
        obtain ⟨r, hr, _⟩ := run_spec c hi ps (it + 1) (x :: ts)
        rw [hr] at h
        simp at h
        subst h
        refine run_complete c hi ps (it + 1) (x :: ts) r hr t ht ?_
        have hx := ht x (by simp)
        rw [hcb, if_neg (by rintro ⟨a, b⟩; exact hc ⟨a, lt_of_lt_of_le b hx⟩)] at hn
        omega

/-- With early stopping the process ends at the iteration of the last checkpoint, and only
then. -/
theorem run_stop (c : Cfg) (hi : 0 < c.interval) : ∀ (ps : List ℚ) (it : Nat) (left : List ℚ) (l : Log), left ≠ [] → run c it left ps = .ok l →
    (l.ended.isSome ↔ c.stop = true ∧ l.left = []) ∧ (∀ k, l.ended = some k → l.saves.getLast?.map (·.1) = some k)
  | [], it, left, l, hne, h => by
    simp [run] at h
    subst h
    simp [hne]
  | p :: ps, it, left, l, hne, h => by
    rw [run] at h
    unfold after at h
    simp only [if_neg hi.ne'] at h
    cases left with
    | nil => exact absurd rfl hne
    | cons x ts =>
      simp only [bind, Except.bind, pure, Except.pure] at h
      by_cases hc : it % c.interval = 0 ∧ p < x
      · simp only [if_pos hc] at h
        split at h
        · rename_i hend
          simp at h
          subst h
          simp at hend
          simp [hend]
        · rename_i hend
          obtain ⟨r, hr, hsum, _⟩ := run_spec c hi ps (it + 1) ts
          rw [hr] at h
          simp at h
          subst h
          cases ts with
          | nil =>
            have hs : c.stop = false := by simpa using hend
            have hno : ∀ (qs : List ℚ) (k : Nat) (r : Log), run c k [] qs = .ok r → r.ended = none := by
              intro qs
              induction qs with
              | nil => intro k r h; simp [run] at h; subst h; rfl
              | cons q qs ih =>
                intro k r h
                rw [run] at h
                unfold after at h
                simp only [if_neg hi.ne', bind, Except.bind, pure, Except.pure, hs, Bool.false_and, Bool.false_eq_true, if_false] at h
                cases hq : run c (k + 1) [] qs with
                | error e => rw [hq] at h; simp at h
                | ok r' =>
                  rw [hq] at h
                  simp at h
                  subst h
                  exact ih _ _ hq
            have := hno _ _ _ hr
            simp [this, hs]
          | cons y ts =>
            obtain ⟨a, b⟩ := run_stop c hi ps (it + 1) (y :: ts) r (by simp) hr
            refine ⟨by simpa using a, ?_⟩
            intro k hk
            have hb := b k (by simpa using hk)
            cases hsv : r.saves with
            | nil => rw [hsv] at hb; simp at hb
            | cons e es => rw [hsv] at hb; simpa using hb
      · simp only [if_neg hc] at h
        simp only [List.isEmpty_cons, Bool.and_false, Bool.false_eq_true, if_false] at h
        obtain ⟨r, hr, _⟩ := run_spec c hi ps (it + 1) (x :: ts)
        rw [hr] at h
        simp at h
        subst h
        obtain ⟨a, b⟩ := run_stop c hi ps (it + 1) (x :: ts) r (by simp) hr
        exact ⟨by simpa using a, fun k hk => by simpa using b k (by simpa using hk)⟩

theorem run_first (c : Cfg) (hi : 0 < c.interval) : ∀ (ps : List ℚ) (it : Nat) (left : List ℚ) (l : Log), Down left →
    run c it left ps = .ok l → ∀ e ∈ l.saves, ∀ k, it ≤ k → k < e.1 → c.interval ∣ k →
      (∀ p, ps[k - it]? = some p → e.2 ≤ p) ∨ ∃ e' ∈ l.saves, e'.1 = k ∧ e.2 ≤ e'.2
  | [], it, left, l, _, h => by
    simp [run] at h
    subst h
    simp
  | p :: ps, it, left, l, hd, h => by
    rw [run] at h
    unfold after at h
    simp only [if_neg hi.ne'] at h
    cases left with
    | nil =>
      simp only [bind, Except.bind, pure, Except.pure] at h
      split at h
      · cases h; simp
      · obtain ⟨r, h1, h2, _⟩ := run_spec c hi ps (it + 1) []
        rw [h1] at h
        cases h
        have : r.saves = [] := by
          have := (List.append_eq_nil_iff.1 h2).1
          simpa using this
        simp [this]
    | cons t ts =>
      obtain ⟨hd1, hd2⟩ := List.pairwise_cons.1 hd
      simp only [bind, Except.bind, pure, Except.pure] at h
      by_cases hc : it % c.interval = 0 ∧ p < t
      · simp only [if_pos hc] at h
        split at h
        · cases h
          intro e he k hk hke
          simp only [List.mem_singleton] at he
          subst he
          dsimp only at hke
          omega
        · obtain ⟨r, h1, h2, h3, _⟩ := run_spec c hi ps (it + 1) ts
          rw [h1] at h
          cases h
          intro e he k hk hke hdk
          simp only [List.singleton_append, List.mem_cons] at he
          rcases he with rfl | he
          · dsimp only at hke; omega
          · by_cases hki : k = it
            · refine .inr ⟨(it, t), by simp, hki.symm, ?_⟩
              apply hd1
              rw [← h2]
              exact List.mem_append_left _ (List.mem_map_of_mem he)
            · rcases run_first c hi ps (it + 1) ts r hd2 h1 e he k (by omega) hke hdk with q | ⟨e', m, q⟩
              · refine .inl fun x hx => q x ?_
                rw [show k - it = (k - (it + 1)) + 1 by omega] at hx
                simpa using hx
              · exact .inr ⟨e', by simp [m], q⟩
      · simp only [if_neg hc, List.isEmpty_cons, Bool.and_false, Bool.false_eq_true, if_false] at h
        obtain ⟨r, h1, h2, h3, _⟩ := run_spec c hi ps (it + 1) (t :: ts)
        rw [h1] at h
        cases h
        intro e he k hk hke hdk
        simp only [List.nil_append] at he
        by_cases hki : k = it
        · refine .inl fun x hx => ?_
          rw [hki, Nat.sub_self] at hx
          simp only [List.getElem?_cons_zero, Option.some.injEq] at hx
          subst hx
          have hm : e.2 ∈ t :: ts := by
            rw [← h2]
            exact List.mem_append_left _ (List.mem_map_of_mem he)
          have ht : t ≤ p := by
            by_contra hlt
            exact hc ⟨by rw [← hki]; exact Nat.mod_eq_zero_of_dvd hdk, not_le.1 hlt⟩
          rcases List.mem_cons.1 hm with q | q
          · rw [q]; exact ht
          · exact le_trans (hd1 _ q) ht
        · rcases run_first c hi ps (it + 1) (t :: ts) r hd h1 e he k (by omega) hke hdk with q | ⟨e', m, q⟩
          · refine .inl fun x hx => q x ?_
            rw [show k - it = (k - (it + 1)) + 1 by omega] at hx
            simpa using hx
          · exact .inr ⟨e', by simpa using m, q⟩

end Verif.Thresholds
