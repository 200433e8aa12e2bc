import Verif.Lemmas.Ddp

namespace Verif.Ddp
open Verif

section mean
variable {n : ℕ} {V : Type} [AddCommGroup V] [Module ℚ V]

end mean

section sandwich
open Sandwich
variable {N B W O : Type} [AddCommGroup W] [Module ℚ W] {n : ℕ}

end sandwich

section darts
open Darts
variable {B V A : Type} [AddCommGroup V] [Module ℚ V] [AddCommGroup A] [Module ℚ A] {n : ℕ}

end darts

section dmcp
open DmcpTrain
variable {R B W A Ow Oa : Type} [AddCommGroup W] [Module ℚ W] [AddCommGroup A] [Module ℚ A] {n : ℕ}

end dmcp

/-! ## Property C99 -/

section
open Sandwich
variable {N B W O : Type} [AddCommGroup W] [Module ℚ W] {n : ℕ}

/-- Any number of processes that train several subnets on each batch (AutoSlim, BigNAS, slimmable
networks), for any accumulation window and any history of batches and selections: all processes
hold the same weights and the same state of the optimizer at all times, namely those of one process
whose loss for each pass is the mean of the losses of the processes; every process runs the forward
passes that fall to it; and training fails exactly if that of the one process fails. In particular
no process ever waits for an exchange that the others do not take part in. -/
theorem C99_subnets (hn : 0 < n) (t : Task N B W O) (it : ℕ) (xs : List (Fin n → (Kind → N) × B)) (w : W) (o : O) :
    (run t it xs fun _ => fresh t it w o).map (fun ss i => ((ss i).o, (ss i).w, (ss i).log)) =
      (St.run (together n t) it (xs.map joint) (fresh (together n t) it w o)).map
        (fun s i => (s.o, s.w, s.log.map (share i))) := by
  have h := run_rel hn t xs it (fun _ => fresh t it w o) (fresh (together n t) it w o)
    ⟨fun _ => rfl, fun _ => rfl, fun _ => rfl, fun _ => rfl, fun _ => rfl, fun _ => rfl, mean_const hn 0⟩
  generalize run t it xs (fun _ => fresh t it w o) = p at h
  generalize St.run (together n t) it (xs.map joint) (fresh (together n t) it w o) = q at h
  cases p with
  | error e =>
    cases q with
    | error e' => exact congrArg Except.error h
    | ok y => exact h.elim
  | ok ss =>
    cases q with
    | error e' => exact h.elim
    | ok s =>
      refine congrArg Except.ok (funext fun i => ?_)
      show (_, _, _) = (_, _, _)
      rw [h.o i, h.w i, h.log i]

end

example : ((run (n := 2) twoTask 0 [fun i => (id, if i = 0 then 1 else 3), fun _ => (id, 1)] fun _ => Sandwich.fresh twoTask 0 0 ()).toOption.map
    fun ss => ((ss 0).w, (ss 1).w, (ss 1).log)) =
    some (-3/2, -3/2, [(.max, 3, 0), (.min, 3, 0), (.max, 1, -3), (.min, 1, -3)]) := by decide +kernel

section
open Darts
variable {B V A : Type} [AddCommGroup V] [Module ℚ V] [AddCommGroup A] [Module ℚ A] {n : ℕ}

/-- DARTS in any number of processes, with or without the second-order term: after any number of
iterations all processes hold the same weights, architecture parameters and gradients, those of one
process trained with the mean of the losses. -/
theorem C99_darts (hn : 0 < n) (L : Loss B V A) (O : Opt V A) (unroll : Bool) (lr momentum wd : ℚ) (buf : V) (epsOf : V → ℚ)
    (s : Darts.St V A) (data : List ((Fin n → B) × (Fin n → B))) :
    dRun L O unroll lr epsOf (fun _ => s) data =
      fun _ => Darts.run (meanLoss n L) O unroll lr momentum wd buf epsOf s data := by
  induction data generalizing s with
  | nil => rfl
  | cons b data ih =>
    show dRun L O unroll lr epsOf (dTrainStep L O unroll lr epsOf b.1 b.2 fun _ => s) data = _
    rw [dTrainStep_const hn L O unroll lr momentum wd buf epsOf]
    exact ih _

end

example : (fun s : Darts.St ℚ ℚ => (s.w, s.a)) (dRun (n := 2) ⟨fun b w a => b * w + a, fun b w a => b - a + w⟩
    ⟨fun w g => w - g, fun a g => a - g⟩ false 1 (fun _ => 1) (fun _ => ⟨1, 0, 0, 0⟩)
    [(fun i => if i = 0 then 1 else 3, fun i => if i = 0 then 0 else 1)] 1) = (0, -3/2) := by
  decide +kernel

section
open DmcpTrain
variable {R B W A Ow Oa : Type} [AddCommGroup W] [Module ℚ W] [AddCommGroup A] [Module ℚ A] {n : ℕ}

/-- DMCP in any number of processes that draw the same random numbers for the choice between random
and direct sampling: as long as no update of the architecture parameters is due, all processes hold
the same weights, architecture parameters and optimizers, those of one process trained with the mean
of the losses. What is missing is the iterations with an update, see `C99_dmcp_violated`. -/
theorem C99_dmcp_partial (hn : 0 < n) (t : Task R B W A Ow Oa) (it : ℕ) (xs : List ((Fin n → B) × List ((Fin n → R) × ℚ)))
    (w : W) (a : A) (ow : Ow) (oa : Oa) (hno : ∀ j < xs.length, t.archStart < it + j → (it + j) % t.archFreq ≠ 0) :
    (mRun t it (xs.map fun x => (x.1, ownDraws x.2)) fun _ => fresh w a ow oa).map (fun ss i => ((ss i).w, (ss i).a, (ss i).ow, (ss i).oa)) =
      (St.run (meanTask n t) it xs (fresh w a ow oa)).map (fun s _ => (s.w, s.a, s.ow, s.oa)) := by
  have h := mRun_rel hn t xs it false (fun _ => fresh w a ow oa) (fresh w a ow oa)
    ⟨fun _ => rfl, fun _ => rfl, fun _ => rfl, fun _ => rfl, rfl, fun _ => rfl, fun _ => rfl, fun _ => rfl, fun _ => rfl,
      mean_const hn 0, mean_const hn 0⟩ (fun h => absurd h (by decide)) hno
  generalize mRun t it (xs.map fun x => (x.1, ownDraws x.2)) (fun _ => fresh w a ow oa) = p at h
  generalize St.run (meanTask n t) it xs (fresh w a ow oa) = q at h
  cases p with
  | error e =>
    cases q with
    | error e' => exact congrArg Except.error h
    | ok y => exact h.elim
  | ok ss =>
    cases q with
    | error e' => exact h.elim
    | ok s =>
      obtain ⟨_, h⟩ := h
      refine congrArg Except.ok (funext fun i => ?_)
      show (_, _, _, _) = (_, _, _, _)
      rw [h.w i, h.a i, h.ow i, h.oa i]

end

example : ((mRun (n := 2) smallDmcp 1 ([(fun i => if i = 0 then 1 else 3, someDraws)].map fun x => (x.1, ownDraws x.2)) fun _ =>
    DmcpTrain.fresh 0 0 () ()).toOption.map fun ss => ((ss 0).w, (ss 1).w, (ss 0).a)) = some (-6, -6, 0) ∧
    ∀ j < 1, smallDmcp.archStart < 1 + j → (1 + j) % smallDmcp.archFreq ≠ 0 := by
  refine ⟨by decide +kernel, ?_⟩
  intro j hj h
  have : j = 0 := by omega
  subst this
  exact absurd h (by decide)

/-- DISAGREEMENT: in DMCP the architecture parameters are updated with the model itself and not with
the wrapper, so that the processes do not exchange the gradients: after the first update each process
has parameters of its own (here −1 and −3 instead of −2 on both), and nothing brings them together
again, although the channels of all processes are sampled from them. -/
theorem C99_dmcp_violated :
    ((mRun (n := 2) smallDmcp 2 [(fun i => if i = 0 then 1 else 3, [])] fun _ =>
      DmcpTrain.fresh 0 0 () ()).toOption.map fun ss => ((ss 0).a, (ss 1).a)) = some (-1, -3) ∧
    ((DmcpTrain.St.run (meanTask 2 smallDmcp) 2 [(fun i => if i = 0 then 1 else 3, [])]
      (DmcpTrain.fresh 0 0 () ())).toOption.map (·.a)) = some (-2) := by
  refine ⟨by decide +kernel, by decide +kernel⟩

section
variable {B K W O : Type} [AddCommGroup W] [Module ℚ W] {n : ℕ}

/-- DISAGREEMENT: `GroupFisherDDP` runs the wrapped model and not itself, so that nothing is
exchanged: each process trains on its own batches only, whatever the others do. -/
theorem C99_fisher_violated (grad : B → W → W) (opt : O → W → W → O × W) (data : List (Fin n → B)) (s : Fin n → O × W) (i : Fin n) :
    fisherRun grad opt data s i = (data.map (· i)).foldl (fun s b => opt s.1 s.2 (grad b s.2)) (s i) := by
  induction data generalizing s with
  | nil => rfl
  | cons b data ih =>
    show fisherRun grad opt data (fisherStep grad opt b s) i = _
    rw [ih]
    rfl

/-- DISAGREEMENT: after one step from the same weights, two processes whose gradients differ have
different weights; from then on they are different networks, while the channels to prune are chosen
in common. -/
theorem C99_replicas_violated (grad : B → W → W) (lr : ℚ) (hlr : lr ≠ 0) (b : Fin n → B) (w : W) (i j : Fin n) :
    (fisherStep grad (sgd lr) b (fun _ => ((), w)) i).2 = (fisherStep grad (sgd lr) b (fun _ => ((), w)) j).2 ↔
      grad (b i) w = grad (b j) w := by
  unfold fisherStep sgd
  dsimp only
  constructor
  · intro h
    have h1 : lr • grad (b i) w = lr • grad (b j) w := sub_right_injective h
    have h2 := congrArg (fun x => lr⁻¹ • x) h1
    simpa only [smul_smul, inv_mul_cancel₀ hlr, one_smul] using h2
  · intro h
    rw [h]

/-- If all processes get the same batches they stay the same; what is missing is different
batches. -/
theorem C99_fisher_partial (grad : B → W → W) (opt : O → W → W → O × W) (data : List B) (s : O × W) (i : Fin n) :
    fisherRun grad opt (data.map fun b _ => b) (fun _ => s) i = data.foldl (fun s b => opt s.1 s.2 (grad b s.2)) s := by
  rw [C99_fisher_violated, List.map_map]
  congr 1
  exact List.map_id _

/-- DISAGREEMENT: the architecture parameters of DSNAS are updated without an exchange too, and the
broadcast before the finetune stage takes those of the first process: what the other processes have
sampled and learned has no influence on the architecture that is kept. -/
theorem C99_dsnas_violated (grad : K → W → W) (opt : O → W → W → O × W) (ks : List (Fin (n + 1) → K)) (s : Fin (n + 1) → O × W)
    (i : Fin (n + 1)) :
    (broadcast (dsnasRun grad opt ks s) i).2 =
      ((ks.map (· 0)).foldl (fun s k => opt s.1 s.2 ((1 / ((n + 1 : ℕ) : ℚ)) • grad k s.2)) (s 0)).2 := by
  unfold broadcast
  dsimp only
  induction ks generalizing s with
  | nil => rfl
  | cons k ks ih =>
    show (dsnasRun grad opt ks (dsnasStep grad opt k s) 0).2 = _
    rw [ih]
    rfl

/-- DISAGREEMENT: since the loss is divided by the number of processes and never summed over them,
the architecture parameters move `n` times less in `n` processes than in one, even if all of them
sample the same choices. -/
theorem C99_slower_violated (hn : 0 < n) (grad : K → W → W) (lr : ℚ) (k : K) (a : W) (i : Fin n) :
    (n : ℚ) • ((dsnasStep grad (sgd lr) (fun _ => k) (fun _ => ((), a)) i).2 - a) =
      (dsnasStep (n := 1) grad (sgd lr) (fun _ => k) (fun _ => ((), a)) 0).2 - a := by
  have h : (n : ℚ) ≠ 0 := by exact_mod_cast hn.ne'
  unfold dsnasStep sgd
  dsimp only
  rw [sub_sub_cancel_left, sub_sub_cancel_left, smul_neg, smul_smul, smul_smul, smul_smul]
  congr 2
  push_cast
  field_simp

end

example : (broadcast (dsnasRun (n := 2) (fun (k : ℚ) a => k + a) (sgd 1) [fun i => if i = 0 then 2 else 8] fun _ => ((), (0 : ℚ))) 1).2 = -1 ∧
    (dsnasRun (n := 2) (fun (k : ℚ) a => k + a) (sgd 1) [fun i => if i = 0 then 2 else 8] (fun _ => ((), (0 : ℚ))) 1).2 = -4 := by
  decide +kernel

/-- Wrapping a model for distributed DARTS puts `m` before the last part of the name of each
parameter and buffer of a `BatchNorm2d`, at any depth, and leaves the other names alone. -/
theorem C99_wrapped (cs : List (String × Mod)) : keys (wrap (.node cs)) = (keys (.node cs)).map inserted :=
  keys_wrap cs

/-- DISAGREEMENT: a checkpoint written by distributed DARTS has other names than the model itself
whenever the model contains a `BatchNorm2d`, so that it does not fit a model outside the wrapper, and
wrapping a model once more changes the names again. -/
theorem C99_names_violated (cs : List (String × Mod)) (h : ∃ k ∈ keys (.node cs), k.1 = true) :
    (keys (wrap (.node cs))).map (·.2) ≠ (keys (.node cs)).map (·.2) := by
  rw [C99_wrapped]
  have hlen : ∀ k ∈ keys (.node cs), k.2.length ≤ (inserted k).2.length ∧ (k.1 = true → k.2.length < (inserted k).2.length) := by
    intro k hk
    have hne := keys_ne _ k hk
    unfold inserted
    cases hb : k.1 with
    | false => exact ⟨le_rfl, fun hh => absurd hh (by decide)⟩
    | true =>
      have hl : (k.2.dropLast ++ "m" :: k.2.getLast?.toList).length = k.2.length + 1 := by
        rw [List.getLast?_eq_some_getLast hne]
        have := List.length_pos_of_ne_nil hne
        simp
        omega
      rw [if_pos rfl]
      show k.2.length ≤ (k.2.dropLast ++ "m" :: k.2.getLast?.toList).length ∧ _
      rw [hl]
      exact ⟨Nat.le_succ _, fun _ => Nat.lt_succ_self _⟩
  intro heq
  generalize keys (.node cs) = l at h hlen heq
  rw [List.map_map] at heq
  obtain ⟨k, hk, hb⟩ := h
  have h1 := List.map_inj_left.mp heq k hk
  have h2 := (hlen k hk).2 hb
  have h3 : (inserted k).2 = k.2 := h1
  rw [h3] at h2
  exact lt_irrefl _ h2

example : keys (wrap (wrap (.node [("conv", .leaf false ["weight"]), ("bn1", .leaf true ["weight", "bias"])]))) =
    [(false, ["conv", "weight"]), (true, ["bn1", "m", "m", "weight"]), (true, ["bn1", "m", "m", "bias"])] := by
  decide +kernel

/-- If some processes exchange gradients and others do not, they wait for ever (an error here); if all agree, the exchange succeeds. -/
theorem C99_exchange_agree {N B W O : Type} [AddCommGroup W] [Module ℚ W] {n : ℕ} (ss : Fin n → Sandwich.St N B W O) :
    exchange ss = .error .runtime ↔ ∃ i j, shouldSync (ss i).c = true ∧ shouldSync (ss j).c = false := by
  unfold exchange
  by_cases h1 : ∀ i, shouldSync (ss i).c = true
  · rw [if_pos h1]
    simp [h1]
  · rw [if_neg h1]
    by_cases h2 : ∀ i, shouldSync (ss i).c = false
    · rw [if_pos h2]
      simp [h2]
    · rw [if_neg h2]
      push Not at h1 h2
      obtain ⟨j, hj⟩ := h1
      obtain ⟨i, hi⟩ := h2
      simp only [true_iff]
      exact ⟨i, j, by simpa using hi, by simpa using hj⟩

end Verif.Ddp
