import Verif.Spec.FisherRun
import Verif.Props.GroupFisher
import Verif.Props.Thresholds

/-! Helper lemmas for `Verif/Props/FisherRun.lean`. -/

namespace Verif.FisherRun
open Verif GroupFisher Thresholds

theorem tryPrune_ok (us : List FUnit) (h : us ≠ []) : ∃ us', tryPrune us = .ok us' := by
  unfold tryPrune
  rw [if_neg h]
  cases choose 100000 0 0 us with
  | none => exact ⟨_, rfl⟩
  | some i => exact ⟨_, rfl⟩

theorem zip_ne {us : List FUnit} {b : List (List (Option ℚ))} (h : us ≠ []) (hb : FitBatch us b) : List.zipWith FUnit.update us b ≠ [] := by
  intro h'
  have : (List.zipWith FUnit.update us b).length = 0 := by rw [h']; rfl
  rw [List.length_zipWith, ← hb.length_eq, Nat.min_self] at this
  exact h (List.length_eq_zero_iff.1 this)

theorem step_ok {interval : Nat} (h0 : 0 < interval) (it : Nat) {us : List FUnit} {b : List (List (Option ℚ))} {bs : List (List (List (Option ℚ)))}
    (hr : Ready us (b :: bs)) : ∃ us1, trainStep interval it b us = .ok us1 ∧ Ready us1 bs ∧ List.Forall₂ Kept us us1 := by
  have hb := hr.batches b (by simp)
  have : ∃ us1, trainStep interval it b us = .ok us1 := by
    unfold trainStep
    dsimp only
    rw [if_neg h0.ne']
    split
    · obtain ⟨v, hv⟩ := tryPrune_ok _ (zip_ne hr.some_unit hb)
      rw [hv]
      exact ⟨_, rfl⟩
    · exact ⟨_, rfl⟩
  obtain ⟨us1, h1⟩ := this
  obtain ⟨k1, k2, _⟩ := trainStep_kept interval it b us us1 hr.fit hb h1
  refine ⟨us1, h1, ⟨?_, k2, fun c hc => fitBatch_kept k1 (hr.batches c (by simp [hc]))⟩, k1⟩
  rintro rfl
  have := k1.length_eq
  exact hr.some_unit (List.length_eq_zero_iff.1 this)

/-- The units after each iteration from `it` on. -/
def Trace (interval it : Nat) (bs : List (List (List (Option ℚ)))) (us : List FUnit) (sts : List (List FUnit)) : Prop :=
  sts.length = bs.length ∧ ∀ (k : Nat) (v : List FUnit), sts[k]? = some v → GroupFisher.run interval it (bs.take (k + 1)) us = .ok v

theorem trace_cons {interval it : Nat} {b : List (List (Option ℚ))} {bs : List (List (List (Option ℚ)))} {us us1 : List FUnit}
    {sts : List (List FUnit)} (h1 : trainStep interval it b us = .ok us1) (ht : Trace interval (it + 1) bs us1 sts) :
    Trace interval it (b :: bs) us (us1 :: sts) := by
  refine ⟨by simp [ht.1], ?_⟩
  intro k v hv
  rw [List.take_succ_cons, GroupFisher.run, h1]
  cases k with
  | zero =>
    simp only [List.getElem?_cons_zero, Option.some.injEq] at hv
    subst hv
    rfl
  | succ k => exact ht.2 k v (by simpa using hv)

/-- The last iteration of a run of `n` batches from `it` on. -/
def steps (it n : Nat) : Option Nat → Nat
  | some k => k + 1 - it
  | none => n

theorem trace_exists {interval : Nat} (h0 : 0 < interval) : ∀ (bs : List (List (List (Option ℚ)))) (it : Nat) (us : List FUnit), Ready us bs →
    ∃ sts, Trace interval it bs us sts
  | [], it, us, _ => ⟨[], rfl, by simp⟩
  | b :: bs, it, us, hr => by
    obtain ⟨us1, h1, hr1, _⟩ := step_ok h0 it hr
    obtain ⟨sts, hs⟩ := trace_exists h0 bs (it + 1) us1 hr1
    exact ⟨_, trace_cons h1 hs⟩

/-- The share of the original resource. -/
def pct (cost : List Nat → ℚ) (orig : ℚ) (v : List FUnit) : ℚ := cost (widths v) / orig

theorem sim {interval : Nat} (h0 : 0 < interval) (cost : List Nat → ℚ) (c : Cfg) (hi : 0 < c.interval) {orig : ℚ} (ho : orig ≠ 0) :
    ∀ (bs : List (List (List (Option ℚ)))) (it : Nat) (us : List FUnit) (left : List ℚ), Ready us bs →
    ∃ d l sts, loop cost c interval orig it left bs us = .ok d ∧ Trace interval it bs us sts ∧
      Thresholds.run c it left (sts.map (pct cost orig)) = .ok l ∧
      d.saves.map (fun s => (s.it, s.thr)) = l.saves ∧ d.ended = l.ended ∧ d.left = l.left ∧
      (∀ s ∈ d.saves, it ≤ s.it ∧ sts[s.it - it]? = some s.units) ∧
      (∀ k, d.ended = some k → it ≤ k ∧ k < it + bs.length) ∧
      GroupFisher.run interval it (bs.take (steps it bs.length d.ended)) us = .ok d.units
  | [], it, us, left, _ => ⟨⟨[], none, left, us⟩, ⟨[], none, left⟩, [], rfl, ⟨rfl, by simp⟩, rfl, rfl, rfl, rfl, by simp, by simp, rfl⟩
  | b :: bs, it, us, left, hr => by
    obtain ⟨us1, h1, hr1, _⟩ := step_ok h0 it hr
    have hchk : check cost c orig it us1 left = after c it (pct cost orig us1) left := by
      unfold check
      rw [if_neg hi.ne', if_neg (by simp [ho])]
      rfl
    have haft : ∃ o, after c it (pct cost orig us1) left = .ok o := by
      unfold after
      rw [if_neg hi.ne']
      exact ⟨_, rfl⟩
    obtain ⟨o, hoo⟩ := haft
    have hrec : (record it us1 o).map (fun s => (s.it, s.thr)) = (match o.saved with | some t => [(it, t)] | none => []) := by
      unfold record
      cases o.saved <;> rfl
    have hrm : ∀ s ∈ record it us1 o, s.it = it ∧ s.units = us1 := by
      unfold record
      cases o.saved <;> simp
    by_cases he : o.ended = true
    · obtain ⟨sts, hs⟩ := trace_exists h0 bs (it + 1) us1 hr1
      refine ⟨⟨record it us1 o, some it, o.left, us1⟩, ⟨_, some it, o.left⟩, us1 :: sts, ?_, trace_cons h1 hs, ?_, hrec, rfl, rfl, ?_, ?_, ?_⟩
      · rw [loop, h1]
        simp only [Bind.bind, Except.bind, hchk, hoo, if_pos he]
        rfl
      · rw [List.map_cons, Thresholds.run, hoo]
        simp only [Bind.bind, Except.bind, if_pos he]
        rfl
      · intro s hs
        obtain ⟨e1, e2⟩ := hrm s hs
        rw [e1, e2, Nat.sub_self]
        exact ⟨le_refl _, rfl⟩
      · intro k hk
        cases hk
        simp
      · have : steps it (b :: bs).length (some it) = 1 := by simp [steps]
        rw [this, List.take_succ_cons, GroupFisher.run, h1]
        rfl
    · obtain ⟨d, l, sts, g1, g2, g3, g4, g5, g6, g7, g8, g9⟩ := sim h0 cost c hi ho bs (it + 1) us1 o.left hr1
      refine ⟨{ d with saves := record it us1 o ++ d.saves }, ⟨(record it us1 o).map (fun s => (s.it, s.thr)) ++ l.saves, l.ended, l.left⟩, us1 :: sts, ?_, trace_cons h1 g2, ?_, ?_, g5, g6, ?_, ?_, ?_⟩
      · rw [loop, h1]
        simp only [Bind.bind, Except.bind, hchk, hoo, if_neg he, g1]
        rfl
      · rw [List.map_cons, Thresholds.run, hoo]
        simp only [Bind.bind, Except.bind, if_neg he, g3, hrec]
        rfl
      · rw [List.map_append, g4]
      · intro s hs
        rcases List.mem_append.1 hs with hs | hs
        · obtain ⟨e1, e2⟩ := hrm s hs
          rw [e1, e2, Nat.sub_self]
          exact ⟨le_refl _, rfl⟩
        · obtain ⟨e1, e2⟩ := g7 s hs
          refine ⟨by omega, ?_⟩
          rw [show s.it - it = (s.it - (it + 1)) + 1 by omega]
          simpa using e2
      · intro k hk
        have := g8 k hk
        rw [List.length_cons]
        omega
      · have : steps it (b :: bs).length d.ended = steps (it + 1) bs.length d.ended + 1 := by
          cases hd : d.ended with
          | none => rfl
          | some k =>
            have := g8 k hd
            simp only [steps]
            omega
        dsimp only
        rw [this, List.take_succ_cons, GroupFisher.run, h1]
        exact g9

theorem trace_run {interval it : Nat} {bs : List (List (List (Option ℚ)))} {us : List FUnit} {sts : List (List FUnit)}
    (ht : Trace interval it bs us sts) {k : Nat} {v : List FUnit} (hk : k < bs.length)
    (h : GroupFisher.run interval it (bs.take (k + 1)) us = .ok v) : sts[k]? = some v := by
  have hl : k < sts.length := by rw [ht.1]; exact hk
  have := ht.2 k _ (List.getElem?_eq_getElem hl)
  rw [h] at this
  cases this
  exact List.getElem?_eq_getElem hl

theorem run_take_kept {interval : Nat} {us v : List FUnit} {bs : List (List (List (Option ℚ)))} (hr : Ready us bs) (n : Nat)
    (h : UnitsAfter interval bs us n v) : List.Forall₂ Kept us v ∧
      total us ≤ total v + ((List.range' 0 (bs.take n).length).filter (interval ∣ ·)).length :=
  C35_run interval 0 (bs.take n) us v hr.fit (fun b hb => hr.batches b (List.mem_of_mem_take hb)) h

theorem multiples_ge (interval n : Nat) (h0 : 0 < interval) (m a : Nat) (h : interval * m ≤ n) :
    m ≤ ((List.range' a n).filter (interval ∣ ·)).length := by
  induction m generalizing a n with
  | zero => omega
  | succ m ih =>
    have hs : List.range' a n = List.range' a interval ++ List.range' (a + interval) (n - interval) := by
      have : n = interval + (n - interval) := by
        have : interval * (m + 1) = interval * m + interval := by ring
        omega
      conv_lhs => rw [this]
      rw [← List.range'_append]
      simp
    have h1 : interval * m ≤ n - interval := by
      have : interval * (m + 1) = interval * m + interval := by ring
      omega
    have h2 := ih (n - interval) (a + interval) h1
    have h3 : 1 ≤ ((List.range' a interval).filter (interval ∣ ·)).length := by
      apply List.length_pos_of_mem (a := (a + interval - 1) / interval * interval)
      rw [List.mem_filter, List.mem_range'_1]
      have e := Nat.div_add_mod (a + interval - 1) interval
      have l := Nat.mod_lt (a + interval - 1) h0
      rw [Nat.mul_comm] at e
      refine ⟨⟨by omega, by omega⟩, by simp⟩
    rw [hs, List.filter_append, List.length_append]
    omega

theorem floor_widths : ∀ {us vs : List FUnit}, List.Forall₂ Kept us vs → excess vs = 0 → widths vs = (widths us).map (min 1)
  | [], _, .nil, _ => rfl
  | u :: us, v :: vs, .cons h t, he => by
    have e : (v.active - 1) + excess vs = 0 := he
    have := floor_widths t (by omega)
    unfold widths at this ⊢
    rw [List.map_cons, List.map_cons, List.map_cons, this]
    congr 1
    have h3 := h.2.2
    by_cases hu : 0 < u.active
    · have := h3 hu
      omega
    · have hu0 : u.active = 0 := by omega
      have hv0 : v.active = 0 := by
        by_contra hv
        have hm : true ∈ v.mask := List.count_pos_iff.1 (by unfold FUnit.active at hv; omega)
        obtain ⟨j, hj, hjm⟩ := List.getElem_of_mem hm
        have := h.2.1 j (by rw [List.getElem?_eq_getElem hj, hjm])
        have hmem := List.mem_of_getElem? this
        have := List.count_pos_iff.2 hmem
        unfold FUnit.active at hu0
        omega
      omega

end Verif.FisherRun
