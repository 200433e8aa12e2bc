import Verif.Spec.DynamicNorm

/-! Helper lemmas for `Verif/Props/DynamicNorm.lean`. -/

namespace Verif.DynamicNorm
open Verif DynamicOps

variable {X : Type}

theorem outMask_length {b : BN} (h : b.WF) : b.outMask.length = b.num := by
  unfold BN.outMask
  cases hm : b.mask with
  | none => simp
  | some m => simpa using h.mask m hm

theorem sliceOpt_ok (m : List Bool) (ps : Option (List Pair)) (h : ∀ q, ps = some q → q.length = m.length) :
    sliceOpt m ps = .ok (ps.map (select m)) := by
  cases ps with
  | none => rfl
  | some q => simp [sliceOpt, maskIndex, h q rfl, bind, Except.bind, pure, Except.pure]

theorem sliced_wf {b : BN} (h : b.WF) : b.sliced.WF := by
  have hl := outMask_length h
  refine ⟨?_, ?_, ?_⟩
  · intro ps hps
    simp only [BN.sliced, Option.map_eq_some_iff] at hps
    obtain ⟨q, hq, rfl⟩ := hps
    rw [← select_eq_active, select_length _ _ (by rw [hl, h.affine q hq])]; rfl
  · intro ps hps
    simp only [BN.sliced, Option.map_eq_some_iff] at hps
    obtain ⟨q, hq, rfl⟩ := hps
    rw [← select_eq_active, select_length _ _ (by rw [hl, h.stats q hq])]; rfl
  · intro m hm; simp [BN.sliced] at hm

theorem scatter_length : ∀ (m : List Bool) (d s : List Pair), (scatter m d s).length = d.length
  | [], d, s => by cases d <;> cases s <;> simp [scatter]
  | true :: m, [], s => by simp [scatter]
  | true :: m, a :: d, [] => by simp [scatter]
  | true :: m, a :: d, b :: s => by simp [scatter, scatter_length m d s]
  | false :: m, [], s => by cases s <;> simp [scatter]
  | false :: m, a :: d, s => by simp [scatter, scatter_length m d s]

theorem scatter_select : ∀ (m : List Bool) (d s : List Pair), m.length = d.length → s.length = count m →
    select m (scatter m d s) = s
  | [], d, s, _, h => by
    simp [count] at h; subst h; cases d <;> simp [scatter, select]
  | true :: m, [], s, h, _ => by simp at h
  | true :: m, a :: d, [], _, h => by simp [count] at h
  | true :: m, a :: d, b :: s, h, h' => by
    simp only [scatter, select]
    rw [scatter_select m d s (by simpa using h) (by simpa [count] using h')]
  | false :: m, [], s, h, _ => by simp at h
  | false :: m, a :: d, s, h, h' => by
    simp only [scatter, select]
    exact scatter_select m d s (by simpa using h) (by simpa [count] using h')

theorem scatter_frame : ∀ (m : List Bool) (d s : List Pair) (i : Nat), m[i]? = some false → (scatter m d s)[i]? = d[i]?
  | [], d, s, i, h => by simp at h
  | true :: m, [], s, i, _ => by simp [scatter]
  | true :: m, a :: d, [], i, _ => by simp [scatter]
  | true :: m, a :: d, b :: s, 0, h => by simp at h
  | true :: m, a :: d, b :: s, i + 1, h => by
    simpa [scatter] using scatter_frame m d s i (by simpa using h)
  | false :: m, [], s, i, _ => by cases s <;> simp [scatter]
  | false :: m, a :: d, s, 0, _ => by simp [scatter]
  | false :: m, a :: d, s, i + 1, h => by
    simpa [scatter] using scatter_frame m d s i (by simpa using h)

theorem scatter_true : ∀ (d s : List Pair), s.length = d.length → scatter (List.replicate d.length true) d s = s
  | [], s, h => by simp at h; subst h; simp [scatter]
  | a :: d, [], h => by simp at h
  | a :: d, b :: s, h => by
    simp only [List.length_cons, List.replicate_succ, scatter]
    rw [scatter_true d s (by simpa using h)]

theorem scatter_step (o : Ops X) (f : ℚ) : ∀ (m : List Bool) (d : List Pair) (x : List X), m.length = d.length →
    m.length = x.length →
    scatter m d (List.zipWith (update o f) (select m d) (select m x)) = stepAll o f m d x
  | [], d, x, h, _ => by
    obtain rfl : d = [] := by simpa using h.symm
    simp [scatter, stepAll]
  | b :: m, [], x, h, _ => by simp at h
  | b :: m, a :: d, [], _, h => by simp at h
  | b :: m, a :: d, y :: x, h, h' => by
    have := scatter_step o f m d x (by simpa using h) (by simpa using h')
    cases b
    · simpa [scatter, stepAll, select] using this
    · simpa [scatter, stepAll, select] using this

theorem forward_eq (o : Ops X) (b : BN) (h : b.WF) (x : List X) :
    b.forward o x = BN.finish { b with tracked := b.factor.2 }
      (batchNorm o x (b.stats.map (select b.outMask)) (b.affine.map (select b.outMask))
        (b.training || b.stats.isNone) b.factor.1) := by
  have hl := outMask_length h
  unfold BN.forward
  rw [sliceOpt_ok _ _ (fun q hq => by rw [hl, h.stats q hq]), sliceOpt_ok _ _ (fun q hq => by rw [hl, h.affine q hq])]
  rfl

theorem sliced_outMask (b : BN) : b.sliced.outMask = List.replicate (count b.outMask) true := rfl

theorem map_select_sliced {b : BN} (h : b.WF) (ps : Option (List Pair)) (hps : ∀ q, ps = some q → q.length = b.num) :
    (ps.map (active b.outMask)).map (select b.sliced.outMask) = ps.map (select b.outMask) := by
  cases ps with
  | none => rfl
  | some q =>
    simp only [Option.map_some, sliced_outMask, ← select_eq_active]
    rw [← select_length b.outMask q (by rw [outMask_length h, hps q rfl]), select_true]

theorem batchNorm_stats_length {o : Ops X} {x : List X} {st af : Option (List Pair)} {t : Bool} {f : ℚ} {y s}
    (h : batchNorm o x st af t f = .ok (y, some s)) : ∃ d, st = some d ∧ s.length = d.length ∧ s.length = x.length := by
  unfold batchNorm at h
  simp only [] at h
  split at h
  · simp at h
  · split at h
    · cases st with
      | none => simp at h
      | some d =>
        simp only [] at h
        split at h
        · simp at h
        · rename_i hd
          simp only [Except.ok.injEq, Prod.mk.injEq, Option.some.injEq] at h
          push Not at hd
          refine ⟨d, rfl, ?_, ?_⟩ <;> rw [← h.2] <;> simp [hd]
    · cases st with
      | none => simp at h
      | some d =>
        simp only [] at h
        split at h
        · simp at h
        · rename_i hd
          simp only [Except.ok.injEq, Prod.mk.injEq, Option.some.injEq] at h
          push Not at hd
          exact ⟨d, rfl, by rw [← h.2], by rw [← h.2, hd]⟩

theorem perChannel_length {n : Nat} {ps : Option (List Pair)} (h : ∀ q, ps = some q → q.length = n) :
    (perChannel n ps).length = n := by
  cases ps with
  | none => simp [perChannel]
  | some q => simpa [perChannel] using h q rfl

theorem stepAll_get (o : Ops X) (f : ℚ) (m : List Bool) (d : List Pair) (x : List X) (i : Nat) (s : Pair)
    (h1 : m.length = d.length) (h2 : x.length = d.length) (hs : d[i]? = some s) :
    (stepAll o f m d x)[i]? = some (match m[i]?, x[i]? with
        | some true, some a => update o f s a
        | _, _ => s) := by
  obtain ⟨hi, hs⟩ := List.getElem?_eq_some_iff.1 hs
  unfold stepAll
  rw [List.getElem?_eq_getElem (by simp [h1, h2, hi]), List.getElem_zipWith, List.getElem_zip,
    List.getElem?_eq_getElem (show i < m.length by omega), List.getElem?_eq_getElem (show i < x.length by omega)]
  cases hm : m[i] <;> simp [hm, hs]

theorem lookup_setCand (k j : Nat) (b : BN) (cs : List (Nat × BN)) (hj : j ≠ k) :
    (setCand k b cs).lookup j = cs.lookup j := by
  induction cs with
  | nil => rfl
  | cons c cs ih =>
    obtain ⟨i, d⟩ := c
    simp only [setCand]
    split
    · rename_i hi
      subst hi
      have : (j == i) = false := by simpa using hj
      simp [List.lookup, this]
    · simp only [List.lookup]
      split
      · rfl
      · exact ih

theorem lookup_setCand_self (k : Nat) (b c : BN) (cs : List (Nat × BN)) (h : cs.lookup k = some c) :
    (setCand k b cs).lookup k = some b := by
  induction cs with
  | nil => simp at h
  | cons d cs ih =>
    obtain ⟨i, d⟩ := d
    simp only [setCand]
    split
    · rename_i hi
      subst hi
      simp [List.lookup]
    · rename_i hi
      have : (k == i) = false := by simpa using fun h => hi h.symm
      simp only [List.lookup, this] at h ⊢
      exact ih h

theorem bn2_wf (mom : Option ℚ) : (bn2 mom).WF := by
  refine ⟨?_, ?_, ?_⟩ <;> intro q hq <;> simp [bn2] at hq <;> subst hq <;> rfl

end Verif.DynamicNorm
