import Verif.Spec.SyncNorm
import Verif.Lemmas.DynamicNorm
import Mathlib.Tactic.FieldSimp
import Mathlib.Tactic.Ring
import Mathlib.Tactic.Linarith

/-! Helper lemmas for `Verif/Props/SyncNorm.lean`. -/

namespace Verif.SyncNorm
open Verif DynamicOps DynamicNorm

/-- The sum of squares. -/
def ssq (x : List ℚ) : ℚ := (x.map fun a => a * a).sum

/-- What is gathered from data. -/
def summary (x : List ℚ) : ℚ × ℚ × ℚ := (x.length, mean x, sq x)

/-- The two data of a channel have the same statistics. -/
def Same {X Y : Type} (o : Ops X) (o' : Ops Y) (x : X) (y : Y) : Prop :=
  o.mean x = o'.mean y ∧ o.bvar x = o'.bvar y ∧ o.uvar x = o'.uvar y

/-- The parameters that `F.batch_norm` normalises the channels with in training. -/
def params {X : Type} (o : Ops X) (wb : List (Option Pair)) (xs : List X) : List (ℚ × ℚ × Option Pair) :=
  List.zipWith (fun p a => (o.mean a, o.bvar a, p)) wb xs

/-- Normalising with given parameters. -/
def normed {X : Type} (o : Ops X) (ps : List (ℚ × ℚ × Option Pair)) (xs : List X) : List X :=
  List.zipWith (fun p a => o.norm p.1 p.2.1 p.2.2 a) ps xs

/-- The parameters of all channels in training, or the error. -/
def pOf {X : Type} (o : Ops X) (b : BN) (xs : List X) : Except Err (List (ℚ × ℚ × Option Pair)) :=
  match sliceOpt b.outMask b.stats with
  | .error e => .error e
  | .ok st => match sliceOpt b.outMask b.affine with
    | .error e => .error e
    | .ok af =>
      if (perChannel xs.length af).length ≠ xs.length then .error .runtime
      else match st with
        | none => .ok (params o (perChannel xs.length af) xs)
        | some ss => if ss.length ≠ xs.length then .error .runtime else .ok (params o (perChannel xs.length af) xs)

/-- Normalising with the mean only. -/
def centre : Nrm := fun m _ _ a => a - m

/-- A layer of two channels. -/
def two (stats : Option (List Pair)) (training : Bool) (mask : List Bool) : BN := ⟨2, some [(1, 0), (1, 0)], stats, 0, some (1 / 2), some mask, training⟩

theorem sq_expand (x : List ℚ) (m : ℚ) :
    (x.map fun a => (a - m) * (a - m)).sum = ssq x - 2 * m * x.sum + x.length * (m * m) := by
  induction x with
  | nil => simp [ssq]
  | cons a x ih =>
    unfold ssq at *
    simp only [List.map_cons, List.sum_cons, List.length_cons, ih]
    push_cast
    ring

theorem sq_eq (x : List ℚ) (h : x ≠ []) : sq x = ssq x - x.sum * x.sum / x.length := by
  unfold sq
  rw [sq_expand]
  have hn : (x.length : ℚ) ≠ 0 := by
    have := List.length_pos_of_ne_nil h
    exact_mod_cast this.ne'
  unfold mean
  field_simp
  ring

theorem ssq_append (x y : List ℚ) : ssq (x ++ y) = ssq x + ssq y := by
  unfold ssq
  rw [List.map_append, List.sum_append]

theorem combine_cons (x : List ℚ) (xs : List (List ℚ)) (n avg v : ℚ) : combine (x :: xs) (n, avg, v) =
    combine xs (n + x.length, n * (1 / (n + x.length)) * avg + x.length * (1 / (n + x.length)) * mean x,
      v + sq x + (avg - mean x) * (avg - mean x) * n * x.length * (1 / (n + x.length))) := rfl

theorem combine_eq (parts : List (List ℚ)) (h : ∀ x ∈ parts, x ≠ []) (acc : List ℚ) :
    combine parts (summary acc) = summary (acc ++ parts.flatten) := by
  induction parts generalizing acc with
  | nil => simp [combine]
  | cons x xs ih =>
    have hx := h x (by simp)
    have hxs : ∀ y ∈ xs, y ≠ [] := fun y hy => h y (by simp [hy])
    rw [List.flatten_cons, ← List.append_assoc, ← ih hxs (acc ++ x)]
    rw [show summary acc = ((acc.length : ℚ), mean acc, sq acc) from rfl, combine_cons]
    apply congrArg
    have hc : (x.length : ℚ) ≠ 0 := by
      have := List.length_pos_of_ne_nil hx
      exact_mod_cast this.ne'
    have hne : acc ++ x ≠ [] := by simp [hx]
    by_cases ha : acc = []
    · subst ha
      unfold summary
      simp only [List.nil_append, List.length_nil, Nat.cast_zero, zero_add, zero_mul, mul_zero, add_zero]
      have hs : sq ([] : List ℚ) = 0 := by simp [sq]
      rw [hs, zero_add]
      refine Prod.ext rfl (Prod.ext ?_ rfl)
      show (x.length : ℚ) * (1 / x.length) * mean x = mean x
      field_simp
    · have hn : (acc.length : ℚ) ≠ 0 := by
        have := List.length_pos_of_ne_nil ha
        exact_mod_cast this.ne'
      have hnc : (acc.length : ℚ) + x.length ≠ 0 := by positivity
      unfold summary
      refine Prod.ext ?_ (Prod.ext ?_ ?_)
      · show (acc.length : ℚ) + x.length = ((acc ++ x).length : ℚ)
        rw [List.length_append]; push_cast; rfl
      · show (acc.length : ℚ) * (1 / (acc.length + x.length)) * mean acc + x.length * (1 / (acc.length + x.length)) * mean x =
          mean (acc ++ x)
        unfold mean
        rw [List.sum_append, List.length_append]
        push_cast
        field_simp
      · show sq acc + sq x + (mean acc - mean x) * (mean acc - mean x) * acc.length * x.length * (1 / (acc.length + x.length)) =
          sq (acc ++ x)
        rw [sq_eq acc ha, sq_eq x hx, sq_eq _ hne, ssq_append, List.sum_append, List.length_append]
        unfold mean
        push_cast
        field_simp
        ring

theorem flatten_filter (parts : List (List ℚ)) : (parts.filter fun x => !x.isEmpty).flatten = parts.flatten := by
  induction parts with
  | nil => rfl
  | cons x xs ih =>
    cases x with
    | nil => simpa using ih
    | cons a x => rw [List.filter_cons_of_pos (by simp), List.flatten_cons, List.flatten_cons, ih]

theorem gathered_eq (parts : List (List ℚ)) : gathered parts = summary parts.flatten := by
  unfold gathered
  have h0 : ((0 : ℚ), (0 : ℚ), (0 : ℚ)) = summary [] := by
    unfold summary mean sq
    simp
  rw [h0, combine_eq]
  · rw [List.nil_append, flatten_filter]
  · intro x hx
    have := (List.mem_filter.1 hx).2
    intro h0
    subst h0
    simp at this

theorem zip_congr {X Y A B : Type} (R : X → Y → Prop) (f : A → X → B) (g : A → Y → B) (h : ∀ a x y, R x y → f a x = g a y)
    (l : List A) (xs : List X) (ys : List Y) (hr : List.Forall₂ R xs ys) : List.zipWith f l xs = List.zipWith g l ys := by
  induction hr generalizing l with
  | nil => simp
  | cons hxy _ ih =>
    cases l with
    | nil => rfl
    | cons a l => rw [List.zipWith_cons_cons, List.zipWith_cons_cons, h a _ _ hxy, ih]

theorem normed_params {X : Type} (o : Ops X) (wb : List (Option Pair)) (xs : List X) :
    List.zipWith (fun p a => o.norm (o.mean a) (o.bvar a) p a) wb xs = normed o (params o wb xs) xs := by
  induction xs generalizing wb with
  | nil => simp [normed, params]
  | cons x xs ih =>
    cases wb with
    | nil => rfl
    | cons p wb =>
      unfold normed params at *
      rw [List.zipWith_cons_cons, List.zipWith_cons_cons, List.zipWith_cons_cons, ih]

theorem batch_congr {X Y : Type} (o : Ops X) (o' : Ops Y) (xs : List X) (ys : List Y) (h : List.Forall₂ (Same o o') xs ys)
    (stats affine : Option (List Pair)) (f : ℚ) :
    ∃ r : Except Err (List (ℚ × ℚ × Option Pair) × Option (List Pair)), (∀ p, r = .ok p → p.1.length = xs.length) ∧
      batchNorm o xs stats affine true f = r.map (fun p => (normed o p.1 xs, p.2)) ∧
      batchNorm o' ys stats affine true f = r.map (fun p => (normed o' p.1 ys, p.2)) := by
  have hl := h.length_eq
  unfold batchNorm
  dsimp only
  rw [← hl]
  by_cases hw : (perChannel xs.length affine).length ≠ xs.length
  · rw [if_pos hw, if_pos hw]
    exact ⟨.error .runtime, by simp, rfl, rfl⟩
  · rw [if_neg hw, if_neg hw, if_pos rfl, if_pos rfl]
    have hp : params o (perChannel xs.length affine) xs = params o' (perChannel xs.length affine) ys :=
      zip_congr _ _ _ (fun a x y hxy => by rw [hxy.1, hxy.2.1]) _ _ _ h
    have hlen : (params o (perChannel xs.length affine) xs).length = xs.length := by
      unfold params; rw [List.length_zipWith]; omega
    cases stats with
    | none =>
      refine ⟨.ok (params o (perChannel xs.length affine) xs, none), ?_, ?_, ?_⟩
      · intro p hp'
        rw [← Except.ok.inj hp']
        exact hlen
      · dsimp only [Except.map]; rw [normed_params]
      · dsimp only [Except.map]; rw [normed_params, hp]
    | some ss =>
      dsimp only
      by_cases hs : ss.length ≠ xs.length
      · rw [if_pos hs, if_pos hs]
        exact ⟨.error .runtime, by simp, rfl, rfl⟩
      · rw [if_neg hs, if_neg hs]
        refine ⟨.ok (params o (perChannel xs.length affine) xs, some (List.zipWith (update o f) ss xs)), ?_, ?_, ?_⟩
        · intro p hp'
          rw [← Except.ok.inj hp']
          exact hlen
        · dsimp only [Except.map]; rw [normed_params]
        · dsimp only [Except.map]
          rw [normed_params, hp, zip_congr _ (update o f) (update o' f) (fun a x y hxy => by
            unfold update; rw [hxy.1, hxy.2.2]) ss xs ys h]

theorem finish_map {X Y : Type} (b : BN) (r : Except Err (List (ℚ × ℚ × Option Pair) × Option (List Pair)))
    (g : List (ℚ × ℚ × Option Pair) → List X) (g' : List (ℚ × ℚ × Option Pair) → List Y) :
    (b.finish (r.map fun p => (g p.1, p.2))).1 = (b.finish (r.map fun p => (g' p.1, p.2))).1 ∧
    (b.finish (r.map fun p => (g p.1, p.2))).2 = r.map (fun p => g p.1) := by
  cases r with
  | error e => exact ⟨rfl, rfl⟩
  | ok p =>
    obtain ⟨p1, p2⟩ := p
    unfold BN.finish Except.map
    dsimp only
    cases b.training <;> cases b.stats <;> cases p2 <;> exact ⟨rfl, rfl⟩

theorem forward_congr {X Y : Type} (o : Ops X) (o' : Ops Y) (b : BN) (ht : b.training = true) (xs : List X) (ys : List Y)
    (h : List.Forall₂ (Same o o') xs ys) :
    (b.forward o xs).1 = (b.forward o' ys).1 ∧
    ∃ r : Except Err (List (ℚ × ℚ × Option Pair)), (∀ p, r = .ok p → p.length = xs.length) ∧
      (b.forward o xs).2 = r.map (fun p => normed o p xs) ∧ (b.forward o' ys).2 = r.map (fun p => normed o' p ys) := by
  unfold BN.forward
  cases h1 : sliceOpt b.outMask b.stats with
  | error e => exact ⟨rfl, .error e, by simp, rfl, rfl⟩
  | ok st =>
    cases h2 : sliceOpt b.outMask b.affine with
    | error e => exact ⟨rfl, .error e, by simp, rfl, rfl⟩
    | ok af =>
      obtain ⟨r, hr, e1, e2⟩ := batch_congr o o' xs ys h st af b.factor.1
      simp only [bind, Except.bind, ht, Bool.true_or]
      rw [e1, e2]
      have f1 := finish_map { b with tracked := b.factor.2, training := true } r (fun p => normed o p xs) (fun p => normed o' p ys)
      have f2 := finish_map { b with tracked := b.factor.2, training := true } r (fun p => normed o' p ys) (fun p => normed o p xs)
      refine ⟨f1.1, r.map (·.1), ?_, ?_, ?_⟩
      · intro p hp
        cases r with
        | error e => cases hp
        | ok q => rw [← Except.ok.inj hp]; exact hr q rfl
      · rw [f1.2]; cases r <;> rfl
      · rw [f2.2]; cases r <;> rfl

theorem pOf_out {X : Type} (o : Ops X) (b : BN) (ht : b.training = true) (xs : List X) :
    (b.forward o xs).2 = (pOf o b xs).map fun p => normed o p xs := by
  unfold BN.forward pOf
  cases h1 : sliceOpt b.outMask b.stats with
  | error e => rfl
  | ok st =>
    cases h2 : sliceOpt b.outMask b.affine with
    | error e => rfl
    | ok af =>
      simp only [bind, Except.bind, ht, Bool.true_or]
      unfold batchNorm
      dsimp only
      by_cases hw : (perChannel xs.length af).length ≠ xs.length
      · rw [if_pos hw, if_pos hw]; rfl
      · rw [if_neg hw, if_neg hw, if_pos rfl]
        cases st with
        | none =>
          dsimp only
          unfold BN.finish Except.map
          dsimp only
          rw [normed_params]
          cases b.stats <;> rfl
        | some ss =>
          dsimp only
          by_cases hs : ss.length ≠ xs.length
          · rw [if_pos hs, if_pos hs]; rfl
          · rw [if_neg hs, if_neg hs]
            unfold BN.finish Except.map
            dsimp only
            rw [normed_params]
            cases b.stats <;> rfl

theorem pOf_congr {X Y : Type} (o : Ops X) (o' : Ops Y) (b : BN) (xs : List X) (ys : List Y) (h : List.Forall₂ (Same o o') xs ys) :
    pOf o b xs = pOf o' b ys := by
  have hp : ∀ wb, params o wb xs = params o' wb ys :=
    fun wb => zip_congr _ _ _ (fun a x y hxy => by rw [hxy.1, hxy.2.1]) _ _ _ h
  unfold pOf
  rw [h.length_eq]
  simp only [hp]

theorem pOf_length {X : Type} (o : Ops X) (b : BN) (xs : List X) (p : List (ℚ × ℚ × Option Pair)) (h : pOf o b xs = .ok p) :
    p.length = xs.length := by
  have hlen : ∀ af, ¬ (perChannel xs.length af).length ≠ xs.length → (params o (perChannel xs.length af) xs).length = xs.length := by
    intro af haf
    unfold params
    rw [List.length_zipWith]
    omega
  unfold pOf at h
  cases h1 : sliceOpt b.outMask b.stats with
  | error e => rw [h1] at h; cases h
  | ok st =>
    cases h2 : sliceOpt b.outMask b.affine with
    | error e => rw [h1, h2] at h; cases h
    | ok af =>
      rw [h1, h2] at h
      dsimp only at h
      by_cases hw : (perChannel xs.length af).length ≠ xs.length
      · rw [if_pos hw] at h; cases h
      · rw [if_neg hw] at h
        cases st with
        | none => rw [← Except.ok.inj h]; exact hlen af hw
        | some ss =>
          dsimp only at h
          by_cases hs : ss.length ≠ xs.length
          · rw [if_pos hs] at h; cases h
          · rw [if_neg hs] at h; rw [← Except.ok.inj h]; exact hlen af hw

theorem same_cols (nrm : Nrm) (channels : Nat) (xs : List (List (List ℚ))) (x : List (List ℚ)) (hx : x.length = channels) :
    List.Forall₂ (Same (syncOps nrm) (listOps nrm)) ((columns channels xs).zip x) (joined channels xs) := by
  rw [List.forall₂_iff_get]
  have hl : ((columns channels xs).zip x).length = channels := by
    rw [List.length_zip]; unfold columns; rw [List.length_map, List.length_range]; omega
  refine ⟨by rw [hl]; unfold joined; rw [List.length_map, List.length_range], fun i h1 h2 => ?_⟩
  unfold Same syncOps listOps columns joined
  simp only [List.get_eq_getElem, List.getElem_zip, List.getElem_map, List.getElem_range]
  rw [gathered_eq]
  exact ⟨rfl, rfl, rfl⟩

theorem forward_sync (nrm : Nrm) (b : BN) (ht : b.training = true) (world channels : Nat) (hw : 1 < world)
    (xs : List (List (List ℚ))) (x : List (List ℚ)) (hx : x.length = channels) :
    (forward nrm true b world (columns channels xs) x).1 = (b.forward (listOps nrm) (joined channels xs)).1 := by
  unfold forward
  rw [if_neg (by simp), if_pos ⟨ht, hw⟩]
  exact (forward_congr _ _ b ht _ _ (same_cols nrm channels xs x hx)).1

theorem normed_getD (nrm : Nrm) (ps : List (ℚ × ℚ × Option Pair)) (x : List (List ℚ)) (h : ps.length = x.length) (c : Nat) :
    (normed (listOps nrm) ps x).getD c [] =
      (x.getD c []).map (nrm (ps.getD c (0, 0, none)).1 (ps.getD c (0, 0, none)).2.1 (ps.getD c (0, 0, none)).2.2) := by
  unfold normed
  rw [List.getD_eq_getElem?_getD, List.getD_eq_getElem?_getD, List.getD_eq_getElem?_getD, List.getElem?_zipWith]
  by_cases hc : c < x.length
  · rw [List.getElem?_eq_getElem hc, List.getElem?_eq_getElem (by omega)]
    rfl
  · rw [List.getElem?_eq_none (by omega), List.getElem?_eq_none (by omega)]
    rfl

theorem normed_snd (nrm : Nrm) (ps : List (ℚ × ℚ × Option Pair)) (cols : List (List (List ℚ))) (x : List (List ℚ))
    (h : cols.length = x.length) :
    (normed (syncOps nrm) ps (cols.zip x)).map (·.2) = normed (listOps nrm) ps x := by
  unfold normed
  induction x generalizing ps cols with
  | nil => simp
  | cons a x ih =>
    cases cols with
    | nil => simp at h
    | cons k cols =>
      cases ps with
      | nil => rfl
      | cons p ps =>
        rw [List.zip_cons_cons, List.zipWith_cons_cons, List.map_cons, ih _ _ (by simpa using h), List.zipWith_cons_cons]
        rfl

theorem joined_normed (nrm : Nrm) (ps : List (ℚ × ℚ × Option Pair)) (channels : Nat) (xs : List (List (List ℚ)))
    (hp : ps.length = channels) (hx : ∀ x ∈ xs, x.length = channels) :
    joined channels (xs.map fun x => normed (listOps nrm) ps x) = normed (listOps nrm) ps (joined channels xs) := by
  have hjl : (joined channels xs).length = channels := by unfold joined; rw [List.length_map, List.length_range]
  apply List.ext_getElem
  · unfold joined normed
    simp only [List.length_map, List.length_range, List.length_zipWith]
    omega
  · intro c h1 h2
    have hc : c < channels := by
      unfold joined at h1
      rwa [List.length_map, List.length_range] at h1
    have hg := normed_getD nrm ps (joined channels xs) (by omega) c
    rw [List.getD_eq_getElem?_getD, List.getElem?_eq_getElem h2, Option.getD_some] at hg
    rw [hg]
    unfold joined
    simp only [List.getElem_map, List.getElem_range, List.map_map]
    rw [List.getD_eq_getElem?_getD (l := List.map _ _), List.getElem?_map, List.getElem?_range hc, Option.map_some, Option.getD_some,
      List.map_flatten, List.map_map]
    congr 1
    apply List.map_congr_left
    intro x hxm
    exact normed_getD nrm ps x (by rw [hp, hx x hxm]) c

theorem forward_out (nrm : Nrm) (b : BN) (ht : b.training = true) (world channels : Nat) (hw : 1 < world)
    (xs : List (List (List ℚ))) (x : List (List ℚ)) (hx : x.length = channels) :
    (forward nrm true b world (columns channels xs) x).2 =
      (pOf (listOps nrm) b (joined channels xs)).map fun p => normed (listOps nrm) p x := by
  unfold forward
  rw [if_neg (by simp), if_pos ⟨ht, hw⟩]
  dsimp only
  rw [pOf_out _ b ht, pOf_congr _ _ b _ _ (same_cols nrm channels xs x hx)]
  cases pOf (listOps nrm) b (joined channels xs) with
  | error e => rfl
  | ok p =>
    dsimp only [Except.map]
    rw [normed_snd]
    unfold columns
    rw [List.length_map, List.length_range, hx]

theorem zip_replicate {A B C : Type} (f : A → B → C) (a : A) (l : List B) :
    List.zipWith f (List.replicate l.length a) l = l.map (f a) := by
  induction l with
  | nil => rfl
  | cons b l ih => rw [List.length_cons, List.replicate_succ, List.zipWith_cons_cons, ih, List.map_cons]

theorem step_eq (nrm : Nrm) (b : BN) (channels : Nat) (xs : List (List (List ℚ))) :
    step nrm true channels (List.replicate xs.length b) xs =
      xs.map fun x => forward nrm true b xs.length (columns channels xs) x := by
  unfold step
  rw [List.length_replicate, zip_replicate]

theorem eval_out {X : Type} (o : Ops X) (b : BN) (hb : b.WF) (ht : b.training = false) (d : List Pair) (hd : b.stats = some d) :
    ∃ ps : List (ℚ × ℚ × Option Pair), ps.length = count b.outMask ∧
      ∀ x : List X, x.length = count b.outMask → b.forward o x = (b, .ok (normed o ps x)) := by
  have hl := outMask_length hb
  have hdl : (select b.outMask d).length = count b.outMask := select_length _ _ (by rw [hl, hb.stats d hd])
  have hal : (perChannel (count b.outMask) (b.affine.map (select b.outMask))).length = count b.outMask := by
    cases ha : b.affine with
    | none => simp [perChannel]
    | some a =>
      simp only [perChannel, Option.map_some, List.length_map]
      exact select_length _ _ (by rw [hl, hb.affine a ha])
  refine ⟨List.zipWith (fun s w => (s.1, s.2, w)) (select b.outMask d) (perChannel (count b.outMask) (b.affine.map (select b.outMask))),
    by rw [List.length_zipWith]; omega, fun x hx => ?_⟩
  rw [forward_eq o b hb x]
  have hf : ({ b with tracked := b.factor.2 } : BN) = b := by
    have : b.factor.2 = b.tracked := by
      unfold BN.factor
      rw [if_neg (by simp [ht])]
    rw [this]
  rw [hf]
  unfold batchNorm
  dsimp only
  rw [hx, if_neg (by omega), hd]
  simp only [ht, Option.isNone_some, Bool.or_self, Bool.false_eq_true, if_false, Option.map_some]
  rw [if_neg (by omega)]
  unfold BN.finish
  rw [ht]
  dsimp only
  congr 2
  unfold normed
  generalize select b.outMask d = ss
  generalize perChannel (count b.outMask) (b.affine.map (select b.outMask)) = wb
  clear hx hdl hal
  induction x generalizing ss wb with
  | nil => simp
  | cons a x ih =>
    cases ss with
    | nil => rfl
    | cons s ss =>
      cases wb with
      | nil => rfl
      | cons w wb => rw [List.zip_cons_cons, List.zipWith_cons_cons, List.zipWith_cons_cons, List.zipWith_cons_cons, ih]

theorem setMask_training (b : BN) (m : List Bool) : (b.setMask m).training = b.training := rfl

theorem forward_training {X : Type} (o : Ops X) (b : BN) (xs : List X) : (b.forward o xs).1.training = b.training := by
  unfold BN.forward
  generalize (do
    let st ← sliceOpt b.outMask b.stats
    let af ← sliceOpt b.outMask b.affine
    batchNorm o xs st af (b.training || b.stats.isNone) b.factor.1) = q
  cases q with
  | error e => rfl
  | ok p =>
    obtain ⟨y, st⟩ := p
    unfold BN.finish
    dsimp only
    split <;> rfl

end Verif.SyncNorm
