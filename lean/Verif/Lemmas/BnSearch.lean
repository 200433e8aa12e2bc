import Verif.Spec.BnSearch
import Verif.Props.DynamicNorm

/-! Helper lemmas for `Verif/Props/BnSearch.lean`. -/

namespace Verif.BnSearch
open Verif DynamicOps DynamicNorm

variable {X : Type}

theorem active_len {α : Type} (m : List Bool) (x : List α) (h : m.length = x.length) : (active m x).length = count m := by
  rw [← select_eq_active]; exact select_length m x h

theorem count_le (m : List Bool) : count m ≤ m.length := List.length_filter_le _ _

theorem count_first (k n : Nat) : count (firstChannels k n) = k := by
  simp [count, firstChannels]

theorem first_length {k n : Nat} (h : k ≤ n) : (firstChannels k n).length = n := by
  simp [firstChannels]; omega

theorem active_false {α : Type} : ∀ (n : Nat) (x : List α), active (List.replicate n false) x = []
  | 0, x => by simp [active]
  | n + 1, [] => by simp [active]
  | n + 1, a :: x => by
    have := active_false n x
    simpa [active, List.replicate_succ] using this

theorem active_first {α : Type} (n : Nat) : ∀ (k : Nat) (x : List α), active (List.replicate k true ++ List.replicate n false) x = x.take k
  | 0, x => by simpa using active_false n x
  | k + 1, [] => by simp [active]
  | k + 1, a :: x => by
    have := active_first n k x
    simp only [active] at this
    simp [active, List.replicate_succ, this]

theorem first_get {k n i : Nat} (h : k ≤ i) (hn : i < n) : (firstChannels k n)[i]? = some false := by
  unfold firstChannels
  rw [List.getElem?_append_right (by simpa using h), List.getElem?_replicate]
  simp; omega

/-- All meters after a list of batches. -/
def meters (o : Ops X) : Meter → List (Nat × List X) → Meter
  | m, [] => m
  | m, (n, x) :: r => meters o (m.update (record o x) n) r

/-- Sum over the batches. -/
def total (f : X → ℚ) (j : Nat) (bs : List (Nat × List X)) : ℚ := (bs.map fun p => (p.1 : ℚ) * p.2[j]?.elim 0 f).sum

theorem scaled_get (o : Ops X) (x : List X) (n j : Nat) (hj : j < x.length) :
    ((record o x).map (scale n))[j]? = some ((n : ℚ) * x[j]?.elim 0 o.mean, (n : ℚ) * x[j]?.elim 0 o.uvar) := by
  simp [record, scale, hj, mul_comm]

theorem meters_some (o : Ops X) (k : Nat) : ∀ (bs : List (Nat × List X)) (s : List Pair) (c : Nat), s.length = k →
    (∀ p ∈ bs, p.2.length = k) → ∃ s', meters o ⟨some s, c⟩ bs = ⟨some s', c + samples bs⟩ ∧ s'.length = k ∧
      ∀ j < k, ∀ q, s[j]? = some q → s'[j]? = some (q.1 + total o.mean j bs, q.2 + total o.uvar j bs)
  | [], s, c, h, _ => ⟨s, by simp [meters, samples], h, by simp [total]⟩
  | (n, x) :: r, s, c, h, hb => by
    have hx : x.length = k := hb (n, x) (by simp)
    obtain ⟨s', h1, h2, h3⟩ := meters_some o k r (List.zipWith plus s ((record o x).map (scale n))) (c + n)
      (by simp [record, h, hx]) (fun p hp => hb p (by simp [hp]))
    refine ⟨s', ?_, h2, ?_⟩
    · simp only [meters, Meter.update]
      rw [h1]; simp [samples, add_assoc]
    · intro j hj q hq
      have := h3 j hj (plus q ((n : ℚ) * x[j]?.elim 0 o.mean, (n : ℚ) * x[j]?.elim 0 o.uvar)) (by
        rw [List.getElem?_zipWith, hq, scaled_get o x n j (by omega)])
      rw [this]
      simp only [plus, total, List.map_cons, List.sum_cons, Option.some.injEq, Prod.mk.injEq]
      constructor <;> ring

theorem meters_avg (o : Ops X) (k : Nat) (bs : List (Nat × List X)) (h : ∀ p ∈ bs, p.2.length = k) (hs : 0 < samples bs) :
    (meters o ⟨none, 0⟩ bs).avg = some ((List.range k).map fun j => averages o j bs) := by
  cases bs with
  | nil => simp [samples] at hs
  | cons p r =>
    obtain ⟨n, x⟩ := p
    have hx : x.length = k := h (n, x) (by simp)
    obtain ⟨s', h1, h2, h3⟩ := meters_some o k r ((record o x).map (scale n)) n (by simp [record, hx])
      (fun p hp => h p (by simp [hp]))
    have e : meters o ⟨none, 0⟩ ((n, x) :: r) = ⟨some s', n + samples r⟩ := by
      rw [← h1]; simp [meters, Meter.update]
    have hsum : samples ((n, x) :: r) = n + samples r := by simp [samples]
    rw [hsum] at hs
    rw [e]
    simp only [Meter.avg]
    rw [if_neg (by omega), Option.map_some]
    congr 1
    apply List.ext_getElem?
    intro j
    by_cases hj : j < k
    · rw [List.getElem?_map, h3 j hj _ (scaled_get o x n j (by omega)), List.getElem?_map, List.getElem?_range hj]
      simp only [Option.map_some, scale, averages, average, hsum, total, List.map_cons, List.sum_cons]
      congr 2 <;> ring
    · rw [List.getElem?_eq_none (by simp; omega), List.getElem?_eq_none (by simp; omega)]

/-- Training leaves everything but the statistics and the counter. -/
theorem observe_ok (o : Ops X) (m : List Bool) : ∀ (xs : List (Nat × List X)) (b : BN) (mt : Meter) (d : List Pair), b.WF →
    b.training = true → b.stats = some d → b.outMask = m → (∀ p ∈ xs, p.2.length = b.num) →
    ∃ t d', observe o b mt (passed m xs) = .ok ({ b with tracked := t, stats := some d' }, meters o mt (passed m xs)) ∧
      d'.length = b.num ∧ (∀ i : Nat, m[i]? = some false → d'[i]? = d[i]?) ∧
      (∀ f, b.momentum = some f → ∀ (i : Nat) s0, d[i]? = some s0 →
        d'[i]? = some (channelHistory o f i (xs.map fun p => (m, p.2)) s0))
  | [], b, mt, d, h, ht, hd, hm, _ => by
    refine ⟨b.tracked, d, ?_, h.stats d hd, fun _ _ => rfl, fun f _ i s0 h0 => h0⟩
    obtain ⟨num, aff, stats, tr, mom, mask, training⟩ := b
    simp only at hd
    subst hd
    rfl
  | (n, x) :: r, b, mt, d, h, ht, hd, hm, hx => by
    have hxl : x.length = b.num := hx (n, x) (by simp)
    have hom : b.outMask = m := hm
    have hml : m.length = b.num := by rw [← hm]; exact outMask_length h
    have hdl := h.stats d hd
    obtain ⟨h1, y, h2⟩ := C28_step o b h ht d hd x hxl
    rw [hom] at h1 h2
    have hsl : (stepAll o b.factor.1 m d x).length = b.num := by simp [stepAll, hml, hxl, hdl]
    have hw : ({ b with tracked := b.tracked + 1, stats := some (stepAll o b.factor.1 m d x) } : BN).WF :=
      ⟨h.affine, fun ps hps => by simp only [Option.some.injEq] at hps; subst hps; exact hsl, h.mask⟩
    obtain ⟨t, d', e1, e2, e3, e4⟩ := observe_ok o m r
      { b with tracked := b.tracked + 1, stats := some (stepAll o b.factor.1 m d x) }
      (mt.update (record o (active m x)) n) _ hw ht rfl hm (fun p hp => hx p (by simp [hp]))
    have hget := fun (i : Nat) s0 (hs : d[i]? = some s0) => stepAll_get o b.factor.1 m d x i s0 (by omega) (by omega) hs
    refine ⟨t, d', ?_, e2, ?_, ?_⟩
    · have hp : b.forward o (active m x) = ((b.forward o (active m x)).1, (b.forward o (active m x)).2) := rfl
      simp only [passed, List.map_cons, observe, meters]
      rw [hp, h1, h2]
      exact e1
    · intro i hi
      rw [e3 i hi]
      cases hs : d[i]? with
      | none => rw [List.getElem?_eq_none_iff] at hs ⊢; omega
      | some s0 => rw [hget i s0 hs, hi]
    · intro f hf i s0 hs
      have hfac : b.factor.1 = f := by
        simp only [BN.factor, hf]; split <;> rfl
      have := e4 f hf i _ (hget i s0 hs)
      rw [this, hfac]
      rfl

/-- One candidate with calibration. -/
theorem trial_ok (o : Ops X) (b : BN) (h : b.WF) (d : List Pair) (hd : b.stats = some d) (m : List Bool)
    (hm : m.length = b.num) (xs : List (Nat × List X)) (hx : Batches b.num xs) (n : Int) (hn : 0 < n) :
    ∃ (t : Nat) (d0 d' : List Pair), trial o n b ⟨m, passed m xs⟩ =
        .ok ({ b with tracked := t, stats := some d', mask := some m, training := false }, some (active m d')) ∧
      d' = (List.range (count m)).map (fun j => averages o j (passed m xs)) ++ d0.drop (count m) ∧ d0.length = b.num ∧
      (∀ i : Nat, m[i]? = some false → d0[i]? = d[i]?) ∧
      (∀ f, b.momentum = some f → ∀ (i : Nat) s0, d[i]? = some s0 →
        d0[i]? = some (channelHistory o f i (xs.map fun p => (m, p.2)) s0)) := by
  have hw : ({ b with mask := some m, training := true } : BN).WF :=
    ⟨h.affine, h.stats, fun m' hm' => by simp only [Option.some.injEq] at hm'; subst hm'; exact hm⟩
  obtain ⟨t, d0, e1, e2, e3, e4⟩ := observe_ok o m xs { b with mask := some m, training := true } ⟨none, 0⟩ d hw rfl hd rfl hx.1
  have hav : (meters o ⟨none, 0⟩ (passed m xs)).avg = some ((List.range (count m)).map fun j => averages o j (passed m xs)) := by
    apply meters_avg
    · intro p hp
      simp only [passed, List.mem_map] at hp
      obtain ⟨q, hq, rfl⟩ := hp
      exact active_len m q.2 (by rw [hm, hx.1 q hq])
    · have : samples (passed m xs) = samples xs := by simp [samples, passed, Function.comp_def]
      rw [this]; exact hx.2
  have hc := count_le m
  refine ⟨t, d0, _, ?_, rfl, e2, e3, e4⟩
  have e2' : d0.length = b.num := e2
  simp only [trial, prepare, if_pos hn, calibrate, e1, Bind.bind, Except.bind, storeMeter, hav, store, List.length_map,
    List.length_range]
  rw [if_neg (by omega)]
  simp only [BN.outMask, Option.getD_some]
  rw [sliceOpt_ok _ _ (by
    intro q hq
    simp only [Option.some.injEq] at hq
    subst hq
    simp; omega)]
  simp [pure, Except.pure, select_eq_active]

theorem update_inj (o : Ops X) (f : ℚ) (hf : f ≠ 1) (s s2 : Pair) (a : X) (h : update o f s a = update o f s2 a) : s = s2 := by
  have hf' : 1 - f ≠ 0 := sub_ne_zero.2 (Ne.symm hf)
  simp only [update, Prod.mk.injEq, add_left_inj] at h
  exact Prod.ext (mul_left_cancel₀ hf' h.1) (mul_left_cancel₀ hf' h.2)

theorem history_inj (o : Ops X) (f : ℚ) (hf : f ≠ 1) (i : Nat) : ∀ (st : List (List Bool × List X)) (s s2 : Pair),
    channelHistory o f i st s = channelHistory o f i st s2 → s = s2
  | [], s, s2, h => h
  | (m, x) :: r, s, s2, h => by
    simp only [channelHistory] at h
    have := history_inj o f hf i r _ _ h
    revert this
    cases m[i]? with
    | none => exact id
    | some c =>
      cases x[i]? with
      | none => cases c <;> exact id
      | some a =>
        cases c
        · exact id
        · exact update_inj o f hf s s2 a

theorem saved_ok (b : BN) (h : b.WF) (d : List Pair) (hd : b.stats = some d) (m : List Bool) (hm : m.length = b.num) :
    ∃ s, saved b m = .ok s ∧ s.stats = some (active m d) ∧ s.num = count m := by
  have hdl := h.stats d hd
  simp only [saved, BN.toStatic, BN.outMask, Option.getD_some, hd]
  rw [sliceOpt_ok _ _ (by intro q hq; simp only [Option.some.injEq] at hq; rw [← hq]; omega),
    sliceOpt_ok _ _ (fun q hq => by rw [h.affine q hq, hm])]
  exact ⟨_, rfl, by simp [select_eq_active], rfl⟩

theorem saved_first (b : BN) (h : b.WF) (d : List Pair) (hd : b.stats = some d) (k : Nat) (hk : k ≤ b.num) :
    ∃ s, saved b (firstChannels k b.num) = .ok s ∧ s.stats = some (d.take k) ∧ s.num = k := by
  obtain ⟨s, h1, h2, h3⟩ := saved_ok b h d hd (firstChannels k b.num) (first_length hk)
  refine ⟨s, h1, ?_, by rw [h3, count_first]⟩
  rw [h2, firstChannels, active_first]

theorem passed_avg (o : Ops X) (m : List Bool) (n : Nat) (hm : m.length = n) (xs : List (Nat × List X)) (hx : Batches n xs) :
    (meters o ⟨none, 0⟩ (passed m xs)).avg = some ((List.range (count m)).map fun j => averages o j (passed m xs)) := by
  apply meters_avg
  · intro p hp
    simp only [passed, List.mem_map] at hp
    obtain ⟨q, hq, rfl⟩ := hp
    exact active_len m q.2 (by rw [hm, hx.1 q hq])
  · have : samples (passed m xs) = samples xs := by simp [samples, passed, Function.comp_def]
    rw [this]; exact hx.2

theorem forward_none (o : Ops X) (b : BN) (h : b.WF) (hd : b.stats = none) (x : List X) (hx : x.length = b.num) :
    ∃ (t : Nat) (y : List X), b.forward o (active b.outMask x) = ({ b with tracked := t }, .ok y) := by
  have hl := outMask_length h
  have hsx : (select b.outMask x).length = count b.outMask := select_length _ _ (by omega)
  rw [forward_eq o b h, ← select_eq_active, hd]
  have hwb : (perChannel (select b.outMask x).length (b.affine.map (select b.outMask))).length = (select b.outMask x).length := by
    apply perChannel_length
    intro q hq
    cases ha : b.affine with
    | none => rw [ha] at hq; simp at hq
    | some a =>
      rw [ha] at hq; simp at hq; subst hq
      rw [hsx]; exact select_length _ _ (by rw [hl, h.affine a ha])
  simp only [batchNorm, Option.map_none, Option.isNone_none, Bool.or_true, if_true, hwb, ne_eq, not_true_eq_false, if_false,
    BN.finish, hd]
  cases b.training <;> exact ⟨b.factor.2, _, rfl⟩

theorem observe_none (o : Ops X) (m : List Bool) : ∀ (xs : List (Nat × List X)) (b : BN) (mt : Meter), b.WF →
    b.stats = none → b.mask = some m → (∀ p ∈ xs, p.2.length = b.num) →
    ∃ b' : BN, observe o b mt (passed m xs) = .ok (b', meters o mt (passed m xs)) ∧ b'.stats = none
  | [], b, mt, _, hd, _, _ => ⟨b, rfl, hd⟩
  | (n, x) :: r, b, mt, h, hd, hm, hx => by
    have hom : b.outMask = m := by simp [BN.outMask, hm]
    obtain ⟨t, y, e⟩ := forward_none o b h hd x (hx (n, x) (by simp))
    rw [hom] at e
    obtain ⟨b', e1, e2⟩ := observe_none o m r { b with tracked := t } (mt.update (record o (active m x)) n)
      ⟨h.affine, h.stats, h.mask⟩ hd hm (fun p hp => hx p (by simp [hp]))
    refine ⟨b', ?_, e2⟩
    simp only [passed, List.map_cons, observe, meters, e]
    exact e1

theorem setCand_same (k : Nat) (c : BN) : ∀ (cs : List (Nat × BN)), cs.lookup k = some c → setCand k c cs = cs
  | [], h => by simp at h
  | (j, a) :: cs, h => by
    by_cases hj : j = k
    · subst hj
      simp at h
      subst h
      simp [setCand]
    · have hb : (k == j) = false := by simpa using Ne.symm hj
      simp only [List.lookup, hb] at h
      simp [setCand, hj, setCand_same k c cs h]

theorem setCand_twice (k : Nat) (c c' : BN) : ∀ (cs : List (Nat × BN)), setCand k c' (setCand k c cs) = setCand k c' cs
  | [] => rfl
  | (j, a) :: cs => by
    by_cases hj : j = k
    · simp [setCand, hj]
    · simp [setCand, hj, setCand_twice k c c' cs]

theorem lookup_tr (f : BN → BN) (j : Nat) : ∀ (cs : List (Nat × BN)), (cs.map fun p => (p.1, f p.2)).lookup j = (cs.lookup j).map f
  | [] => rfl
  | (i, a) :: cs => by
    by_cases hj : j = i
    · subst hj; simp
    · have hb : (j == i) = false := by simpa using hj
      simp only [List.map_cons, List.lookup, hb]
      exact lookup_tr f j cs

/-- The layer of the width sees the batches, the switchable layer stays. -/
theorem observeSwitch_ok (o : Ops X) : ∀ (bs : List (Nat × List X)) (s : Switch) (mt : Meter) (c c' : BN) (mt' : Meter),
    count s.own.outMask ≠ s.own.num → s.cands.lookup (count s.own.outMask) = some c → observe o c mt bs = .ok (c', mt') →
    observeSwitch o s mt bs = .ok (⟨s.own, setCand (count s.own.outMask) c' s.cands⟩, mt')
  | [], s, mt, c, c', mt', hk, hc, h => by
    simp only [observe, Except.ok.injEq, Prod.mk.injEq] at h
    obtain ⟨rfl, rfl⟩ := h
    simp only [observeSwitch]
    rw [setCand_same _ _ _ hc]
  | (n, x) :: r, s, mt, c, c', mt', hk, hc, h => by
    simp only [observe] at h
    obtain ⟨c1, e⟩ : ∃ c1, c1 = c.forward o x := ⟨_, rfl⟩
    rw [← e] at h
    obtain ⟨c1, y⟩ := c1
    cases y with
    | error e => simp at h
    | ok y =>
      simp only at h
      have hf : s.forward o x = (⟨s.own, setCand (count s.own.outMask) c1 s.cands⟩, .ok y) := by
        simp only [Switch.forward, if_neg hk, hc, ← e]
      have ih := observeSwitch_ok o r ⟨s.own, setCand (count s.own.outMask) c1 s.cands⟩ (mt.update (record o x) n) c1 c' mt' hk
        (lookup_setCand_self _ _ c _ hc) h
      simp only [observeSwitch, hf]
      rw [ih, setCand_twice]

theorem active_true {α : Type} (x : List α) : active (List.replicate x.length true) x = x := by
  rw [← select_eq_active]; exact select_true x

theorem passed_true (k : Nat) (xs : List (Nat × List X)) (h : ∀ p ∈ xs, p.2.length = k) :
    passed (List.replicate k true) xs = xs := by
  unfold passed
  conv_rhs => rw [← List.map_id xs]
  apply List.map_congr_left
  intro p hp
  rw [← h p hp, active_true]; rfl

end Verif.BnSearch
