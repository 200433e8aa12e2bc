import Verif.Spec.Ddp
import Mathlib.Tactic.Linarith
import Mathlib.Tactic.Module
import Mathlib.Tactic.FieldSimp

/-! Helper lemmas for `Verif/Props/Ddp.lean`. -/

namespace Verif.Ddp
open Verif

/-- Both fail in the same way, or the results are related. -/
def Both {X Y : Type} (P : X → Y → Prop) : Except Err X → Except Err Y → Prop
  | .ok x, .ok y => P x y
  | .error e, .error e' => e = e'
  | _, _ => False

section mean
variable {n : ℕ} {V : Type} [AddCommGroup V] [Module ℚ V]

theorem mean_const (hn : 0 < n) (x : V) : mean (fun _ : Fin n => x) = x := by
  have h : (n : ℚ) ≠ 0 := by exact_mod_cast hn.ne'
  unfold mean
  rw [Finset.sum_const, Finset.card_univ, Fintype.card_fin, ← Nat.cast_smul_eq_nsmul ℚ, smul_smul, one_div,
    inv_mul_cancel₀ h, one_smul]

theorem mean_add (x y : Fin n → V) : mean (fun i => x i + y i) = mean x + mean y := by
  unfold mean
  rw [Finset.sum_add_distrib, smul_add]

theorem mean_smul (c : ℚ) (x : Fin n → V) : mean (fun i => c • x i) = c • mean x := by
  unfold mean
  rw [← Finset.smul_sum, smul_comm]

theorem mean_fst {U : Type} [AddCommGroup U] [Module ℚ U] (x : Fin n → V × U) : (mean x).1 = mean fun i => (x i).1 := by
  unfold mean
  rw [Prod.smul_fst, Prod.fst_sum]

theorem mean_snd {U : Type} [AddCommGroup U] [Module ℚ U] (x : Fin n → V × U) : (mean x).2 = mean fun i => (x i).2 := by
  unfold mean
  rw [Prod.smul_snd, Prod.snd_sum]

end mean

theorem gather_ok {X : Type} : ∀ {n : ℕ} (f : Fin n → Except Err X) (g : Fin n → X), (∀ i, f i = .ok (g i)) → gather f = .ok g
  | 0, _, g, _ => congrArg Except.ok (funext fun i => i.elim0)
  | n + 1, f, g, h => by
    unfold gather
    rw [h 0]
    dsimp only
    rw [gather_ok (fun i => f i.succ) (fun i => g i.succ) fun i => h i.succ]
    dsimp only
    congr 1
    funext i
    refine Fin.cases ?_ (fun j => ?_) i
    · rfl
    · rfl

theorem gather_error {X : Type} {n : ℕ} (hn : 0 < n) (f : Fin n → Except Err X) (e : Err) (h : ∀ i, f i = .error e) :
    gather f = .error e := by
  cases n with
  | zero => exact absurd hn (lt_irrefl 0)
  | succ n =>
    unfold gather
    rw [h 0]

theorem both_foldlM {X Y A C : Type} (P : X → Y → Prop) (f : X → A → Except Err X) (g : Y → C → Except Err Y) (u : A → C)
    (h : ∀ x y a, P x y → Both P (f x a) (g y (u a))) :
    ∀ (l : List A) (x : X) (y : Y), P x y → Both P (l.foldlM f x) ((l.map u).foldlM g y)
  | [], _, _, hp => hp
  | a :: l, x, y, hp => by
    rw [List.map_cons, List.foldlM_cons, List.foldlM_cons]
    have hh := h x y a hp
    generalize f x a = p at hh
    generalize g y (u a) = q at hh
    cases p with
    | error e =>
      cases q with
      | error e' => exact hh
      | ok y' => exact hh.elim
    | ok x' =>
      cases q with
      | error e' => exact hh.elim
      | ok y' => exact both_foldlM P f g u h l x' y' hh

section sandwich
open Sandwich
variable {N B W O : Type} [AddCommGroup W] [Module ℚ W] {n : ℕ}

/-- The replicas against the one process. -/
structure Rel (ss : Fin n → St N B W O) (s : St (Fin n → N) (Fin n → B) W O) : Prop where
  w : ∀ i, (ss i).w = s.w
  o : ∀ i, (ss i).o = s.o
  c : ∀ i, (ss i).c = s.c
  ready : ∀ i, (ss i).ready = s.ready
  teacher : ∀ i, (ss i).teacher = s.teacher.map (share i)
  log : ∀ i, (ss i).log = s.log.map (share i)
  g : mean (fun i => (ss i).g) = s.g

theorem update_rel (hn : 0 < n) (t : Task N B W O) (ss : Fin n → St N B W O) (s : St (Fin n → N) (Fin n → B) W O) (gr : Fin n → W)
    (h : Rel ss s) :
    Both Rel
      (match gather fun i => accumulate (ss i) (gr i) with
        | .error e => .error e
        | .ok gs => (exchange gs).map fun rs i => applyStep t (rs i))
      (St.update (together n t) s (mean gr)) := by
  cases hf : s.c.factor with
  | error e =>
    have h1 : ∀ i, accumulate (ss i) (gr i) = .error e := by
      intro i
      unfold accumulate
      rw [h.c i, hf]
    rw [gather_error hn _ e h1]
    unfold St.update
    rw [hf]
    exact rfl
  | ok f =>
    have h1 : ∀ i, accumulate (ss i) (gr i) = .ok { ss i with g := (ss i).g + (1 / (f : ℚ)) • gr i } := by
      intro i
      unfold accumulate
      rw [show (ss i).c.factor = .ok f by rw [h.c i, hf]]
    rw [gather_ok _ _ h1]
    have hg : mean (fun i => (ss i).g + (1 / (f : ℚ)) • gr i) = s.g + (1 / (f : ℚ)) • mean gr := by
      rw [mean_add, mean_smul, h.g]
    have hsync : ∀ i, shouldSync (ss i).c = ({ s.c with inner := s.c.inner + 1 } : Counter).shouldUpdate := by
      intro i
      rw [h.c i]
      rfl
    unfold St.update
    rw [hf]
    dsimp only
    unfold exchange
    by_cases hu : ({ s.c with inner := s.c.inner + 1 } : Counter).shouldUpdate = true
    · rw [if_pos (fun i => (hsync i).trans hu), if_pos hu]
      refine ⟨fun i => ?_, fun i => ?_, fun i => ?_, fun i => ?_, fun i => ?_, fun i => ?_, ?_⟩
      all_goals
        simp only [applyStep, h.c, if_pos hu, hg]
      · rw [h.o i, h.w i]; rfl
      · rw [h.o i, h.w i]; rfl
      · exact h.ready i
      · exact h.teacher i
      · exact h.log i
      · exact mean_const hn 0
    · have hu' : ({ s.c with inner := s.c.inner + 1 } : Counter).shouldUpdate = false := by simpa using hu
      rw [if_neg (fun hc => hu ((hsync ⟨0, hn⟩).symm.trans (hc ⟨0, hn⟩))), if_pos (fun i => (hsync i).trans hu'), if_neg hu]
      refine ⟨fun i => ?_, fun i => ?_, fun i => ?_, fun i => ?_, fun i => ?_, fun i => ?_, ?_⟩
      all_goals
        simp only [applyStep, h.c, if_neg hu]
      · exact h.w i
      · exact h.o i
      · exact h.ready i
      · exact h.teacher i
      · exact h.log i
      · exact hg

theorem trainKind_rel (hn : 0 < n) (t : Task N B W O) (x : Fin n → (Kind → N) × B) (k : Kind) (ss : Fin n → St N B W O)
    (s : St (Fin n → N) (Fin n → B) W O) (h : Rel ss s) :
    Both Rel (trainKind t x ss k) (St.train (together n t) (joint x).1 (joint x).2 s k) := by
  have hard : ∀ k : Kind, (together n t).hard ((joint x).1 k) (joint x).2 s.w = mean fun i => t.hard ((x i).1 k) (x i).2 (ss i).w := by
    intro k
    show (1 / (n : ℚ)) • ∑ i, t.hard ((x i).1 k) (x i).2 s.w = _
    unfold mean
    simp only [h.w]
  have hlog : ∀ (k : Kind) (i : Fin n), (ss i).log ++ [((x i).1 k, (x i).2, (ss i).w)] =
      (s.log ++ [((joint x).1 k, (joint x).2, s.w)]).map (share i) := by
    intro k i
    rw [List.map_append, h.log i, h.w i]
    rfl
  have hdist : ∀ k : Kind, (∀ i, forward t (x i).1 (x i).2 k (ss i) =
      match (ss i).teacher with
      | none => .error .assertion
      | some r => .ok ({ ss i with log := (ss i).log ++ [((x i).1 k, (x i).2, (ss i).w)] },
          match t.algo with
          | .bignas => t.soft ((x i).1 k) (x i).2 r (ss i).w
          | _ => t.hard ((x i).1 k) (x i).2 (ss i).w + t.soft ((x i).1 k) (x i).2 r (ss i).w)) →
      Both Rel (trainKind t x ss k) (s.distillStep (together n t) ((joint x).1 k) (joint x).2) := by
    intro k hk
    cases ht : s.teacher with
    | none =>
      have h1 : ∀ i, forward t (x i).1 (x i).2 k (ss i) = .error .assertion := by
        intro i
        rw [hk i, h.teacher i, ht]
        rfl
      unfold trainKind St.distillStep
      rw [gather_error hn _ _ h1, ht]
      exact rfl
    | some r =>
      have h1 : ∀ i, forward t (x i).1 (x i).2 k (ss i) =
          .ok ({ ss i with log := (ss i).log ++ [((x i).1 k, (x i).2, (ss i).w)] },
            match t.algo with
            | .bignas => t.soft ((x i).1 k) (x i).2 (share i r) (ss i).w
            | _ => t.hard ((x i).1 k) (x i).2 (ss i).w + t.soft ((x i).1 k) (x i).2 (share i r) (ss i).w) := by
        intro i
        rw [hk i, h.teacher i, ht]
        rfl
      unfold trainKind St.distillStep
      rw [gather_ok _ _ h1, ht]
      dsimp only
      have hsoft : (together n t).soft ((joint x).1 k) (joint x).2 r s.w =
          mean fun i => t.soft ((x i).1 k) (x i).2 (share i r) (ss i).w := by
        show (1 / (n : ℚ)) • ∑ i, t.soft ((x i).1 k) (x i).2 (share i r) s.w = _
        unfold mean
        simp only [h.w]
      have hgrad : (match (together n t).algo with
          | .bignas => (together n t).soft ((joint x).1 k) (joint x).2 r s.w
          | _ => (together n t).hard ((joint x).1 k) (joint x).2 s.w + (together n t).soft ((joint x).1 k) (joint x).2 r s.w) =
          mean fun i => match t.algo with
            | .bignas => t.soft ((x i).1 k) (x i).2 (share i r) (ss i).w
            | _ => t.hard ((x i).1 k) (x i).2 (ss i).w + t.soft ((x i).1 k) (x i).2 (share i r) (ss i).w := by
        rw [hsoft, hard k]
        show (match t.algo with | .bignas => _ | _ => _) = _
        cases t.algo with
        | bignas => rfl
        | autoslim => exact (mean_add _ _).symm
        | slimmable => exact (mean_add _ _).symm
      have key := update_rel hn t (fun i => { ss i with log := (ss i).log ++ [((x i).1 k, (x i).2, (ss i).w)] })
        { s with log := s.log ++ [((joint x).1 k, (joint x).2, s.w)] } (fun i => match t.algo with
            | .bignas => t.soft ((x i).1 k) (x i).2 (share i r) (ss i).w
            | _ => t.hard ((x i).1 k) (x i).2 (ss i).w + t.soft ((x i).1 k) (x i).2 (share i r) (ss i).w)
        ⟨h.w, h.o, h.c, h.ready, h.teacher, hlog k, h.g⟩
      rw [← hgrad, ht] at key
      exact key
  cases k with
  | max =>
    have h1 : ∀ i, forward t (x i).1 (x i).2 .max (ss i) = .ok ({ ss i with
        teacher := some ((x i).1 .max, (x i).2, (ss i).w), log := (ss i).log ++ [((x i).1 .max, (x i).2, (ss i).w)] },
        t.hard ((x i).1 .max) (x i).2 (ss i).w) := fun i => rfl
    unfold trainKind St.train
    rw [gather_ok _ _ h1]
    dsimp only
    rw [hard]
    exact update_rel hn t
      (fun i => { ss i with teacher := some ((x i).1 .max, (x i).2, (ss i).w), log := (ss i).log ++ [((x i).1 .max, (x i).2, (ss i).w)] })
      { s with teacher := some ((joint x).1 .max, (joint x).2, s.w), log := s.log ++ [((joint x).1 .max, (joint x).2, s.w)] } _
      ⟨h.w, h.o, h.c, h.ready, fun i => by show some ((x i).1 .max, (x i).2, (ss i).w) = _; rw [h.w i]; rfl, hlog .max, h.g⟩
  | subnet j =>
    have h1 : ∀ i, forward t (x i).1 (x i).2 (.subnet j) (ss i) = .ok ({ ss i with
        log := (ss i).log ++ [((x i).1 (.subnet j), (x i).2, (ss i).w)] }, t.hard ((x i).1 (.subnet j)) (x i).2 (ss i).w) := fun i => rfl
    unfold trainKind St.train
    rw [gather_ok _ _ h1]
    dsimp only
    rw [hard]
    exact update_rel hn t (fun i => { ss i with log := (ss i).log ++ [((x i).1 (.subnet j), (x i).2, (ss i).w)] })
      { s with log := s.log ++ [((joint x).1 (.subnet j), (joint x).2, s.w)] } _
      ⟨h.w, h.o, h.c, h.ready, h.teacher, hlog _, h.g⟩
  | min => exact hdist .min fun i => rfl
  | random j => exact hdist (.random j) fun i => rfl

theorem step_rel (hn : 0 < n) (t : Task N B W O) (it : ℕ) (x : Fin n → (Kind → N) × B) (ss : Fin n → St N B W O)
    (s : St (Fin n → N) (Fin n → B) W O) (h : Rel ss s) :
    Both Rel (trainStep t it x ss) (s.step (together n t) it (joint x).1 (joint x).2) := by
  have hr : Rel (fun i => (ss i).reinit t it) (s.reinit (together n t) it) := by
    by_cases hd : s.ready = true
    · have e1 : ∀ i, (ss i).reinit t it = ss i := fun i => by unfold St.reinit; rw [if_pos ((h.ready i).trans hd)]
      have e2 : s.reinit (together n t) it = s := by unfold St.reinit; rw [if_pos hd]
      simp only [e1, e2]
      exact h
    · have e1 : ∀ i, (ss i).reinit t it = { ss i with ready := true, c := ⟨t.acc, it * (kinds t.algo t.num).length, t.maxIters * (kinds t.algo t.num).length⟩ } := by
        intro i
        unfold St.reinit
        rw [if_neg (by rw [h.ready i]; exact hd)]
      have e2 : s.reinit (together n t) it = { s with ready := true, c := ⟨t.acc, it * (kinds t.algo t.num).length, t.maxIters * (kinds t.algo t.num).length⟩ } := by
        unfold St.reinit
        rw [if_neg hd]
        rfl
      simp only [e1, e2]
      exact ⟨h.w, h.o, fun _ => rfl, fun _ => rfl, h.teacher, h.log, h.g⟩
  have := both_foldlM Rel (trainKind t x) (St.train (together n t) (joint x).1 (joint x).2) id
    (fun ss s k h => trainKind_rel hn t x k ss s h) (kinds t.algo t.num) _ _ hr
  rw [List.map_id] at this
  exact this

theorem run_rel (hn : 0 < n) (t : Task N B W O) : ∀ (xs : List (Fin n → (Kind → N) × B)) (it : ℕ) (ss : Fin n → St N B W O)
    (s : St (Fin n → N) (Fin n → B) W O), Rel ss s → Both Rel (run t it xs ss) (s.run (together n t) it (xs.map joint))
  | [], _, _, _, h => h
  | x :: xs, it, ss, s, h => by
    have h1 := step_rel hn t it x ss s h
    rw [List.map_cons]
    unfold run
    show Both Rel _ (Bind.bind (s.step (together n t) it (joint x).1 (joint x).2) fun s' => s'.run (together n t) (it + 1) (xs.map joint))
    generalize trainStep t it x ss = p at h1
    generalize s.step (together n t) it (joint x).1 (joint x).2 = q at h1
    cases p with
    | error e =>
      cases q with
      | error e' => exact h1
      | ok y' => exact h1.elim
    | ok x' =>
      cases q with
      | error e' => exact h1.elim
      | ok y' => exact run_rel hn t xs (it + 1) x' y' h1

end sandwich

section darts
open Darts
variable {B V A : Type} [AddCommGroup V] [Module ℚ V] [AddCommGroup A] [Module ℚ A] {n : ℕ}

theorem dBackward_const (hn : 0 < n) (L : Loss B V A) (b : Fin n → B) (s : Darts.St V A) :
    dBackward L b (fun _ => s) = fun _ => backward (meanLoss n L) b s := by
  funext i
  unfold dBackward backward
  dsimp only
  rw [mean_add, mean_add, mean_const hn, mean_const hn]
  rfl

theorem dTrainStep_const (hn : 0 < n) (L : Loss B V A) (O : Opt V A) (unroll : Bool) (lr momentum wd : ℚ) (buf : V) (epsOf : V → ℚ)
    (trn val : Fin n → B) (s : Darts.St V A) :
    dTrainStep L O unroll lr epsOf trn val (fun _ => s) =
      fun _ => Darts.trainStep (meanLoss n L) O unroll lr momentum wd buf epsOf trn val s := by
  cases unroll with
  | false =>
    simp only [dTrainStep, Darts.trainStep, dUpdateW, dUpdateA, updateW, updateA, dBackward_const hn, Bool.false_eq_true, if_false]
  | true =>
    simp only [dTrainStep, Darts.trainStep, dUpdateW, updateW, dUnrolled, unrolled, virtualModel, dHessian, hessian, dRestore, restore,
      dPerturb, perturb, dBackward_const hn, if_true]

end darts

section dmcp
open DmcpTrain
variable {R B W A Ow Oa : Type} [AddCommGroup W] [Module ℚ W] [AddCommGroup A] [Module ℚ A] {n : ℕ}

/-- An event as process `i` sees it. -/
def evOf (i : Fin n) : Ev (Fin n → R) (Fin n → B) (Pass (Fin n → R) (Fin n → B) × W × A) → Ev R B (Pass R B × W × A)
  | .weight p te => .weight (passOf i p) (te.map fun te => (passOf i te.1, te.2))
  | .arch b => .arch (b i)

/-- The replicas against the one process. -/
structure MRel (at' : Bool) (ss : Fin n → DmcpTrain.St R B W A Ow Oa) (s : DmcpTrain.St (Fin n → R) (Fin n → B) W A Ow Oa) : Prop where
  w : ∀ i, (ss i).w = s.w
  a : ∀ i, (ss i).a = s.a
  ow : ∀ i, (ss i).ow = s.ow
  oa : ∀ i, (ss i).oa = s.oa
  arch : s.archTrain = at'
  archTrain : ∀ i, (ss i).archTrain = s.archTrain
  prob : ∀ i, (ss i).prob = s.prob
  teacher : ∀ i, (ss i).teacher = s.teacher.map fun te => (passOf i te.1, te.2)
  log : ∀ i, (ss i).log = s.log.map (evOf i)
  gw : mean (fun i => (ss i).gw) = s.gw
  ga : mean (fun i => (ss i).ga) = s.ga

theorem weight_rel (hn : 0 < n) (at' : Bool) (t : Task R B W A Ow Oa) (gs : Fin n → W × A) (ss : Fin n → DmcpTrain.St R B W A Ow Oa)
    (s : DmcpTrain.St (Fin n → R) (Fin n → B) W A Ow Oa) (h : MRel at' ss s) :
    MRel at' (mWeightStep t gs ss) (s.weightStep (meanTask n t) (mean gs)) := by
  have h1 : mean (fun j => (ss j).gw + (gs j).1) = s.gw + (mean gs).1 := by rw [mean_add, h.gw, mean_fst]
  have h2 : mean (fun j => (ss j).ga + (gs j).2) = s.ga + (mean gs).2 := by rw [mean_add, h.ga, mean_snd]
  unfold mWeightStep St.weightStep
  rw [h1, h2]
  refine ⟨fun i => ?_, h.a, fun i => ?_, h.oa, h.arch, h.archTrain, h.prob, h.teacher, h.log, ?_, ?_⟩
  · show (t.optW (ss i).ow (ss i).w _).2 = _
    rw [h.ow i, h.w i]; rfl
  · show (t.optW (ss i).ow (ss i).w _).1 = _
    rw [h.ow i, h.w i]; rfl
  · exact mean_const hn 0
  · exact mean_const hn _

theorem decay_rel (at' : Bool) (k : Kind) (ss : Fin n → DmcpTrain.St R B W A Ow Oa)
    (s : DmcpTrain.St (Fin n → R) (Fin n → B) W A Ow Oa) (h : MRel at' ss s) :
    MRel at' (fun i => decay k (ss i)) (decay k s) := by
  unfold decay
  by_cases hk : k = .scheduledRandom
  · simp only [if_pos hk]
    exact ⟨h.w, h.a, h.ow, h.oa, h.arch, h.archTrain, fun i => by show (ss i).prob * _ = _; rw [h.prob i], h.teacher, h.log, h.gw, h.ga⟩
  · simp only [if_neg hk]
    exact h

/-- The entry of the single process in the shape of the wrapper. -/
theorem entry_eq {R B W A Ow Oa : Type} [AddCommGroup W] [AddCommGroup A] (t : Task R B W A Ow Oa) (it : ℕ) (b : B)
    (s : DmcpTrain.St R B W A Ow Oa) (e : Name × R × ℚ) :
    s.entry t it b e = match modeOf s e with
      | none => .ok s
      | some m => (mForward t it m e.2.1 b s).map fun p => decay (kindOf e.1) (p.1.weightStep t p.2) := by
  have hd : ∀ (m : Mode), m ≠ .max → s.distill t it m e.2.1 b = (mForward t it m e.2.1 b s).map fun p => p.1.weightStep t p.2 := by
    intro m hm
    obtain ⟨w, a, gw, ga, ow, oa, ar, pr, te, lg⟩ := s
    unfold St.distill mForward
    cases m with
    | max => exact absurd rfl hm
    | min =>
      dsimp only
      by_cases hc : t.distillAfter < it
      · rw [if_pos hc, if_pos hc]
        cases te <;> rfl
      · rw [if_neg hc, if_neg hc]; rfl
    | random =>
      dsimp only
      by_cases hc : t.distillAfter < it
      · rw [if_pos hc, if_pos hc]
        cases te <;> rfl
      · rw [if_neg hc, if_neg hc]; rfl
    | direct =>
      dsimp only
      by_cases hc : t.distillAfter < it
      · rw [if_pos hc, if_pos hc]
        cases te <;> rfl
      · rw [if_neg hc, if_neg hc]; rfl
  unfold St.entry modeOf
  cases hk : kindOf e.1 with
  | max => rfl
  | min =>
    dsimp only
    rw [hd .min (by decide)]
    cases mForward t it .min e.2.1 b s <;> rfl
  | archRandom =>
    dsimp only
    rw [hd _ (by cases s.archTrain <;> decide)]
    cases mForward t it (if s.archTrain = true then Mode.direct else Mode.random) e.2.1 b s <;> rfl
  | scheduledRandom =>
    dsimp only
    rw [hd _ (by split_ifs <;> decide)]
    cases mForward t it (if s.prob < e.2.2 ∧ s.archTrain = true then Mode.direct else Mode.random) e.2.1 b s <;> rfl
  | ignored => rfl

theorem forward_rel (hn : 0 < n) (at' : Bool) (t : Task R B W A Ow Oa) (it : ℕ) (m : Mode) (r : Fin n → R) (b : Fin n → B)
    (ss : Fin n → DmcpTrain.St R B W A Ow Oa) (s : DmcpTrain.St (Fin n → R) (Fin n → B) W A Ow Oa) (h : MRel at' ss s) :
    (∃ e, mForward (meanTask n t) it m r b s = .error e ∧ ∀ i, mForward t it m (r i) (b i) (ss i) = .error e) ∨
    (∃ s' ss' gs, mForward (meanTask n t) it m r b s = .ok (s', mean gs) ∧ (∀ i, mForward t it m (r i) (b i) (ss i) = .ok (ss' i, gs i)) ∧
      MRel at' ss' s') := by
  have hp : ∀ i, (⟨m, r i, (ss i).archTrain, b i⟩ : Pass R B) = passOf i ⟨m, r, s.archTrain, b⟩ := by
    intro i
    rw [h.archTrain i]
    rfl
  have hhard : (meanTask n t).hard ⟨m, r, s.archTrain, b⟩ s.w s.a =
      mean fun i => t.hard ⟨m, r i, (ss i).archTrain, b i⟩ (ss i).w (ss i).a := by
    simp only [hp, h.w, h.a]
    rfl
  have hlog : ∀ i, (ss i).log ++ [Ev.weight ⟨m, r i, (ss i).archTrain, b i⟩ none] =
      (s.log ++ [Ev.weight ⟨m, r, s.archTrain, b⟩ none]).map (evOf i) := by
    intro i
    rw [List.map_append, h.log i, hp i]
    rfl
  by_cases hm : m = .max
  · subst hm
    refine Or.inr ⟨{ s with teacher := some (⟨.max, r, s.archTrain, b⟩, s.w, s.a), log := s.log ++ [.weight ⟨.max, r, s.archTrain, b⟩ none] },
      fun i => { ss i with
      teacher := some (⟨.max, r i, (ss i).archTrain, b i⟩, (ss i).w, (ss i).a),
      log := (ss i).log ++ [.weight ⟨.max, r i, (ss i).archTrain, b i⟩ none] },
      fun i => t.hard ⟨.max, r i, (ss i).archTrain, b i⟩ (ss i).w (ss i).a, ?_, fun i => rfl, ?_⟩
    · unfold mForward
      dsimp only
      rw [hhard]
    · refine ⟨h.w, h.a, h.ow, h.oa, h.arch, h.archTrain, h.prob, fun i => ?_, hlog, h.gw, h.ga⟩
      show some (_, (ss i).w, (ss i).a) = _
      rw [hp i, h.w i, h.a i]
      rfl
  · by_cases hc : t.distillAfter < it
    · cases ht : s.teacher with
      | none =>
        refine Or.inl ⟨.assertion, ?_, fun i => ?_⟩
        · unfold mForward
          cases m with
          | max => exact absurd rfl hm
          | _ => dsimp only; rw [if_pos (show (meanTask n t).distillAfter < it from hc), ht]
        · unfold mForward
          cases m with
          | max => exact absurd rfl hm
          | _ => dsimp only; rw [if_pos hc, h.teacher i, ht]; rfl
      | some te =>
        have hsoft : (meanTask n t).soft ⟨m, r, s.archTrain, b⟩ te s.w s.a =
            mean fun i => t.soft ⟨m, r i, (ss i).archTrain, b i⟩ (passOf i te.1, te.2) (ss i).w (ss i).a := by
          simp only [hp, h.w, h.a]
          rfl
        refine Or.inr ⟨{ s with log := s.log ++ [.weight ⟨m, r, s.archTrain, b⟩ (some te)] },
          fun i => { ss i with log := (ss i).log ++ [.weight ⟨m, r i, (ss i).archTrain, b i⟩ (some (passOf i te.1, te.2))] },
          fun i => t.hard ⟨m, r i, (ss i).archTrain, b i⟩ (ss i).w (ss i).a +
            t.soft ⟨m, r i, (ss i).archTrain, b i⟩ (passOf i te.1, te.2) (ss i).w (ss i).a, ?_, fun i => ?_, ?_⟩
        · rw [mean_add, ← hhard, ← hsoft]
          unfold mForward
          cases m with
          | max => exact absurd rfl hm
          | _ => dsimp only; rw [if_pos (show (meanTask n t).distillAfter < it from hc), ht]
        · unfold mForward
          cases m with
          | max => exact absurd rfl hm
          | _ => dsimp only; rw [if_pos hc, h.teacher i, ht]; rfl
        · refine ⟨h.w, h.a, h.ow, h.oa, h.arch, h.archTrain, h.prob, fun i => by rw [h.teacher i], fun i => ?_, h.gw, h.ga⟩
          show (ss i).log ++ _ = _
          rw [List.map_append, h.log i, hp i]
          rfl
    · refine Or.inr ⟨{ s with log := s.log ++ [.weight ⟨m, r, s.archTrain, b⟩ none] },
        fun i => { ss i with log := (ss i).log ++ [.weight ⟨m, r i, (ss i).archTrain, b i⟩ none] },
        fun i => t.hard ⟨m, r i, (ss i).archTrain, b i⟩ (ss i).w (ss i).a, ?_, fun i => ?_, ?_⟩
      · rw [← hhard]
        unfold mForward
        cases m with
        | max => exact absurd rfl hm
        | _ => dsimp only; rw [if_neg (show ¬ (meanTask n t).distillAfter < it from hc)]
      · unfold mForward
        cases m with
        | max => exact absurd rfl hm
        | _ => dsimp only; rw [if_neg hc]
      · exact ⟨h.w, h.a, h.ow, h.oa, h.arch, h.archTrain, h.prob, h.teacher, hlog, h.gw, h.ga⟩

theorem entry_rel (hn : 0 < n) (at' : Bool) (t : Task R B W A Ow Oa) (it : ℕ) (b : Fin n → B) (e : Name × (Fin n → R) × ℚ)
    (ss : Fin n → DmcpTrain.St R B W A Ow Oa) (s : DmcpTrain.St (Fin n → R) (Fin n → B) W A Ow Oa) (h : MRel at' ss s) :
    Both (MRel at') (mEntry t it b ss (e.1, fun i => (e.2.1 i, e.2.2))) (s.entry (meanTask n t) it b e) := by
  rw [entry_eq]
  have hmode : ∀ i, modeOf (ss i) (e.1, e.2.1 i, e.2.2) = modeOf s e := by
    intro i
    unfold modeOf
    rw [h.archTrain i, h.prob i]
  unfold mEntry
  by_cases hk : kindOf e.1 = .ignored
  · rw [if_pos hk]
    have : modeOf s e = none := by unfold modeOf; rw [hk]
    rw [this]
    exact h
  · rw [if_neg hk]
    obtain ⟨m, hm⟩ : ∃ m, modeOf s e = some m := by
      unfold modeOf
      cases hkk : kindOf e.1 with
      | ignored => exact absurd hkk hk
      | _ => exact ⟨_, rfl⟩
    rw [hm]
    dsimp only
    have hl : ∀ i, mLocal t it (b i) (e.1, e.2.1 i, e.2.2) (ss i) = (mForward t it m (e.2.1 i) (b i) (ss i)).map some := by
      intro i
      unfold mLocal
      rw [hmode i, hm]
    rcases forward_rel hn at' t it m e.2.1 b ss s h with ⟨er, h1, h2⟩ | ⟨s', ss', gs, h1, h2, h3⟩
    · rw [gather_error hn _ er (fun i => by rw [hl i, h2 i]; rfl), h1]
      exact rfl
    · rw [gather_ok _ (fun i => some (ss' i, gs i)) (fun i => by rw [hl i, h2 i]; rfl), h1]
      exact decay_rel at' _ _ _ (weight_rel hn at' t gs ss' s' h3)

theorem finish_rel (hn : 0 < n) (at' : Bool) (t : Task R B W A Ow Oa) (it : ℕ) (b : Fin n → B)
    (ss : Fin n → DmcpTrain.St R B W A Ow Oa) (s : DmcpTrain.St (Fin n → R) (Fin n → B) W A Ow Oa) (h : MRel at' ss s)
    (hno : at' = true → it % t.archFreq ≠ 0) :
    Both (MRel at') (mFinish t it b ss) (s.finish (meanTask n t) it b) := by
  unfold mFinish
  by_cases ha : s.archTrain = true
  · have hai : ∀ i, (ss i).archTrain = true := fun i => (h.archTrain i).trans ha
    have hne := hno (h.arch.symm.trans ha)
    by_cases hf : t.archFreq = 0
    · rw [gather_error hn _ .zeroDivision (fun i => by unfold St.finish; rw [if_pos (hai i), if_pos hf])]
      unfold St.finish
      rw [if_pos ha, if_pos (show (meanTask n t).archFreq = 0 from hf)]
      exact rfl
    · rw [gather_ok _ ss (fun i => by unfold St.finish; rw [if_pos (hai i), if_neg hf, if_neg hne])]
      unfold St.finish
      rw [if_pos ha, if_neg (show ¬ (meanTask n t).archFreq = 0 from hf), if_neg (show ¬ it % (meanTask n t).archFreq = 0 from hne)]
      exact h
  · rw [gather_ok _ ss (fun i => by unfold St.finish; rw [if_neg (by rw [h.archTrain i]; exact ha)])]
    unfold St.finish
    rw [if_neg ha]
    exact h

theorem start_rel (t : Task R B W A Ow Oa) (it : ℕ) (at' : Bool) (ss : Fin n → DmcpTrain.St R B W A Ow Oa)
    (s : DmcpTrain.St (Fin n → R) (Fin n → B) W A Ow Oa) (h : MRel at' ss s) :
    MRel (at' || decide (t.archStart < it)) (fun i => mStart t it (ss i)) (mStart (meanTask n t) it s) := by
  unfold mStart
  by_cases hc : s.archTrain = false ∧ t.archStart < it
  · have hci : ∀ i, (ss i).archTrain = false ∧ t.archStart < it := fun i => ⟨(h.archTrain i).trans hc.1, hc.2⟩
    have e1 : (fun i => if (ss i).archTrain = false ∧ t.archStart < it then { ss i with archTrain := true } else ss i) =
        fun i => { ss i with archTrain := true } := funext fun i => if_pos (hci i)
    rw [e1, if_pos (show s.archTrain = false ∧ (meanTask n t).archStart < it from hc)]
    exact ⟨h.w, h.a, h.ow, h.oa, by simp [hc.2], fun _ => rfl, h.prob, h.teacher, h.log, h.gw, h.ga⟩
  · have hci : ∀ i, ¬ ((ss i).archTrain = false ∧ t.archStart < it) := fun i hh => hc ⟨(h.archTrain i).symm.trans hh.1, hh.2⟩
    simp only [hci, if_false]
    rw [if_neg (show ¬ (s.archTrain = false ∧ (meanTask n t).archStart < it) from hc)]
    refine ⟨h.w, h.a, h.ow, h.oa, ?_, h.archTrain, h.prob, h.teacher, h.log, h.gw, h.ga⟩
    have := h.arch
    cases hs : s.archTrain with
    | true => rw [hs] at this; rw [← this]; rfl
    | false =>
      rw [hs] at this
      rw [← this]
      have : ¬ t.archStart < it := fun hh => hc ⟨hs, hh⟩
      simp [this]

theorem zip_own (st : List Name) (ds : List ((Fin n → R) × ℚ)) :
    st.zip (ownDraws ds) = (st.zip ds).map fun e => (e.1, fun i => (e.2.1 i, e.2.2)) := by
  unfold ownDraws
  rw [List.zip_map_right]
  rfl

theorem mRun_rel (hn : 0 < n) (t : Task R B W A Ow Oa) :
    ∀ (xs : List ((Fin n → B) × List ((Fin n → R) × ℚ))) (it : ℕ) (at' : Bool) (ss : Fin n → DmcpTrain.St R B W A Ow Oa)
      (s : DmcpTrain.St (Fin n → R) (Fin n → B) W A Ow Oa), MRel at' ss s → (at' = true → t.archStart < it) →
      (∀ j < xs.length, t.archStart < it + j → (it + j) % t.archFreq ≠ 0) →
      Both (fun ss s => ∃ at', MRel at' ss s) (mRun t it (xs.map fun x => (x.1, ownDraws x.2)) ss) (s.run (meanTask n t) it xs)
  | [], _, at', _, _, h, _, _ => ⟨at', h⟩
  | x :: xs, it, at', ss, s, h, h0, hno => by
    have h1 := start_rel t it at' ss s h
    have hat : (at' || decide (t.archStart < it)) = true → t.archStart < it := by
      intro hh
      rcases Bool.or_eq_true _ _ |>.mp hh with h2 | h2
      · exact h0 h2
      · exact of_decide_eq_true h2
    generalize (at' || decide (t.archStart < it)) = bt at h1 hat
    have hrec : (mRun t it ((x :: xs).map fun x => (x.1, ownDraws x.2)) ss) =
        match mStep t it x.1 (ownDraws x.2) ss with
        | .error e => .error e
        | .ok ss' => mRun t (it + 1) (xs.map fun x => (x.1, ownDraws x.2)) ss' := rfl
    rw [hrec]
    show Both _ _ (Bind.bind (s.step (meanTask n t) it x.1 x.2) fun s' => s'.run (meanTask n t) (it + 1) xs)
    have hstep : Both (MRel bt) (mStep t it x.1 (ownDraws x.2) ss) (s.step (meanTask n t) it x.1 x.2) := by
      have h2 := both_foldlM (fun (s : DmcpTrain.St (Fin n → R) (Fin n → B) W A Ow Oa) ss => MRel bt ss s)
        (St.entry (meanTask n t) it x.1) (mEntry t it x.1) (fun e => (e.1, fun i => (e.2.1 i, e.2.2)))
        (fun s ss e h => by
          have := entry_rel hn bt t it x.1 e ss s h
          generalize mEntry t it x.1 ss (e.1, fun i => (e.2.1 i, e.2.2)) = p at this
          generalize s.entry (meanTask n t) it x.1 e = q at this
          cases p <;> cases q
          · exact (show _ = _ from this).symm
          · exact this.elim
          · exact this.elim
          · exact this)
        (t.strategy.zip x.2) _ _ h1
      rw [← zip_own] at h2
      unfold mStep
      show Both _ _ (Bind.bind ((t.strategy.zip x.2).foldlM (St.entry (meanTask n t) it x.1) (mStart (meanTask n t) it s)) fun s' =>
        s'.finish (meanTask n t) it x.1)
      generalize (t.strategy.zip (ownDraws x.2)).foldlM (mEntry t it x.1) (fun i => mStart t it (ss i)) = p at h2
      generalize (t.strategy.zip x.2).foldlM (St.entry (meanTask n t) it x.1) (mStart (meanTask n t) it s) = q at h2
      cases p with
      | error e =>
        cases q with
        | error e' => exact (show _ = _ from h2).symm
        | ok y => exact h2.elim
      | ok ss' =>
        cases q with
        | error e' => exact h2.elim
        | ok s' => exact finish_rel hn bt t it x.1 ss' s' h2 fun hb => by simpa using hno 0 (by simp) (by simpa using hat hb)
    generalize mStep t it x.1 (ownDraws x.2) ss = p at hstep
    generalize s.step (meanTask n t) it x.1 x.2 = q at hstep
    cases p with
    | error e =>
      cases q with
      | error e' => exact hstep
      | ok y => exact hstep.elim
    | ok ss' =>
      cases q with
      | error e' => exact hstep.elim
      | ok s' =>
        refine mRun_rel hn t xs (it + 1) bt ss' s' hstep (fun hb => Nat.lt_succ_of_lt (hat hb)) fun j hj hs => ?_
        have := hno (j + 1) (by simpa using hj) (by omega)
        rwa [show it + 1 + j = it + (j + 1) by omega]

end dmcp

mutual
theorem keys_ne : ∀ (m : Mod), ∀ k ∈ keys m, k.2 ≠ []
  | .leaf bn ns, k, hk => by
    simp only [keys, List.mem_map] at hk
    obtain ⟨x, _, rfl⟩ := hk
    simp
  | .node cs, k, hk => by
    simp only [keys] at hk
    exact keysAll_ne cs k hk
theorem keysAll_ne : ∀ (cs : List (String × Mod)), ∀ k ∈ keysAll cs, k.2 ≠ []
  | [], k, hk => by simp [keysAll] at hk
  | (name, c) :: cs, k, hk => by
    simp only [keysAll, List.mem_append, List.mem_map] at hk
    rcases hk with ⟨x, _, rfl⟩ | hk
    · simp
    · exact keysAll_ne cs k hk
end

theorem inserted_cons (name : String) (k : Bool × List String) (h : k.2 ≠ []) :
    inserted (k.1, name :: k.2) = ((inserted k).1, name :: (inserted k).2) := by
  obtain ⟨b, p⟩ := k
  cases b with
  | false => rfl
  | true =>
    cases p with
    | nil => exact absurd rfl h
    | cons y p => simp [inserted, List.getLast?_cons_cons]

mutual
theorem keys_wrap : ∀ (cs : List (String × Mod)), keys (wrap (.node cs)) = (keys (.node cs)).map inserted
  | cs => by
    simp only [wrap, keys]
    exact keysAll_wrap cs
theorem keysAll_wrap : ∀ (cs : List (String × Mod)), keysAll (wrapAll cs) = (keysAll cs).map inserted
  | [] => rfl
  | (name, .leaf true ns) :: cs => by
    simp only [wrapAll, keysAll, keys, List.map_append, List.map_map, List.append_nil, keysAll_wrap cs]
    congr 1
  | (name, .leaf false ns) :: cs => by
    simp only [wrapAll, wrap, keysAll, keys, List.map_append, List.map_map, keysAll_wrap cs]
    congr 1
  | (name, .node ds) :: cs => by
    simp only [wrapAll, keysAll, List.map_append, List.map_map, keysAll_wrap cs, keys_wrap ds]
    congr 1
    apply List.map_congr_left
    intro k hk
    exact (inserted_cons name k (keys_ne _ k hk)).symm
end

end Verif.Ddp
