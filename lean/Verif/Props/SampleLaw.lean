import Verif.Lemmas.SampleLaw
import Verif.Model.Mutator

/-! C120: the law by which subnets are drawn. -/

namespace Verif.SampleLaw
open Verif

variable {C : Type}

/-- Conditions on the choices of different groups are independent: the number of draws that meet all of them is the product of the
numbers of choices that meet each, out of the product of the numbers of choices. -/
theorem C120_independent (gs : List (List C)) (ps : List (C → Bool)) (h : ps.length = gs.length) :
    (draws gs).countP (fun d => Meets ps (sample gs d)) = (List.zipWith (fun p g => g.countP p) ps gs).prod ∧
    (draws gs).length = (gs.map List.length).prod :=
  ⟨count_meets gs ps h, draws_length gs⟩

example : (draws [["a", "b"], ["x", "y", "z"]]).countP
    (fun d => Meets [fun c => c == "a", fun c => c != "z"] (sample [["a", "b"], ["x", "y", "z"]] d)) = 2 := by decide +kernel

/-- Every subnet comes from exactly one draw, so all of them are equally likely, if no group repeats a choice. -/
theorem C120_uniform [DecidableEq C] (gs : List (List C)) (h : ∀ g ∈ gs, g.Nodup) (s : List C)
    (hs : List.Forall₂ (fun c g => c ∈ g) s gs) :
    (draws gs).countP (fun d => decide (sample gs d = s.map some)) = 1 := by
  have h1 : (space gs).count s = 1 := List.count_eq_one_of_mem (nodup_space gs h) ((mem_space gs s).2 hs)
  have h2 : ((draws gs).map (sample gs)).count (s.map some) = 1 := by
    rw [sampled_space, List.count_map_of_injective _ _ (List.map_injective_iff.2 (Option.some_injective C)), h1]
  rw [List.count, List.countP_map] at h2
  rw [← h2]
  apply List.countP_congr
  intro d _
  simp

example : (draws [["a", "b"], ["x", "y", "z"]]).countP
    (fun d => decide (sample [["a", "b"], ["x", "y", "z"]] d = [some "b", some "y"])) = 1 := by decide +kernel

/-- DISAGREEMENT: a choice listed twice in a group (a list of values may repeat one) is drawn twice as often. -/
theorem C120_repeated_violated : ∃ (g : List ℕ), (draws [g]).length = 3 ∧
    (draws [g]).countP (fun d => decide (sample [g] d = [some 8])) = 2 ∧
    (draws [g]).countP (fun d => decide (sample [g] d = [some 16])) = 1 := ⟨[8, 16, 8], by decide, by decide, by decide⟩

/-- Training on drawn subnets is unbiased: whatever is computed from a subnet (a loss, a gradient), its sum over all draws is its sum
over all subnets, each taken once. -/
theorem C120_unbiased {V : Type} [AddCommMonoid V] (gs : List (List C)) (f : List (Option C) → V) :
    ((draws gs).map fun d => f (sample gs d)).sum = ((space gs).map fun s => f (s.map some)).sum ∧
    ((∀ g ∈ gs, g.Nodup) → (space gs).Nodup) ∧
    ∀ s, s ∈ space gs ↔ List.Forall₂ (fun c g => c ∈ g) s gs := by
  refine ⟨?_, nodup_space gs, mem_space gs⟩
  have := congrArg (fun l => (l.map f).sum) (sampled_space gs)
  simpa [List.map_map, Function.comp_def] using this

example : ((draws [[1, 2], [10, 20, 30]]).map fun d =>
    ((sample [[1, 2], [10, 20, 30]] d).map (·.getD 0)).sum).sum = 129 := by decide

/-- A step of plain gradient descent on a drawn subnet is, on average over the draws, the step along the mean of the gradients of all
subnets of the search space. -/
theorem C120_step {V : Type} [AddCommGroup V] [Module ℚ V] (gs : List (List C)) (hg : ∀ g ∈ gs, g ≠ []) (grad : List (Option C) → V)
    (w : V) (lr : ℚ) :
    (1 / ((draws gs).length : ℚ)) • ((draws gs).map fun d => w - lr • grad (sample gs d)).sum =
      w - lr • ((1 / ((space gs).length : ℚ)) • ((space gs).map fun s => grad (s.map some)).sum) := by
  have hs : (space gs).length = (draws gs).length := by
    have := congrArg List.length (sampled_space gs)
    simpa using this.symm
  have hpos : 0 < (draws gs).length := by
    rw [draws_length]
    apply List.prod_pos
    intro n hn
    obtain ⟨g, h, rfl⟩ := List.mem_map.1 hn
    exact List.length_pos_iff.2 (hg g h)
  have hsum : ∀ (l : List (List ℕ)) (f : List ℕ → V), (l.map fun d => w - lr • f d).sum = (l.length : ℚ) • w - lr • (l.map f).sum := by
    intro l f
    induction l with
    | nil => simp
    | cons d l ih =>
      rw [List.map_cons, List.sum_cons, ih, List.map_cons, List.sum_cons, List.length_cons, smul_add]
      push_cast
      rw [add_smul, one_smul]
      abel
  rw [hsum _ fun d => grad (sample gs d), (C120_unbiased gs grad).1, hs, smul_sub, smul_smul, smul_comm _ lr,
    one_div_mul_cancel (by exact_mod_cast hpos.ne'), one_smul]

example : (1 / 4 : ℚ) • ((draws [[1, 2], [10, 20]]).map fun d =>
    (7 : ℚ) - (1 / 2 : ℚ) • (((sample [[1, 2], [10, 20]] d).map fun (o : Option ℚ) => o.getD 0).sum)).sum = -5 / 4 := by decide +kernel

/-- The share of trainings of `t` steps in which the first group never takes the choice `c` is `((n - m) / n) ^ t`, where the group
lists `n` choices and `m` of them are `c`. -/
theorem C120_never [DecidableEq C] (g : List C) (gs : List (List C)) (c : C) (t : ℕ) :
    (histories (g :: gs) t).countP (fun h => h.all fun d => decide ((sample (g :: gs) d).head? ≠ some (some c))) * g.length ^ t =
      (g.length - g.count c) ^ t * (histories (g :: gs) t).length := by
  rw [histories_all, histories_length, ← mul_pow, ← mul_pow]
  congr 1
  have e : (draws (g :: gs)).countP (fun d => decide ((sample (g :: gs) d).head? ≠ some (some c))) =
      (draws (g :: gs)).countP (fun d => Meets ((fun x => decide (x ≠ c)) :: gs.map fun _ _ => true) (sample (g :: gs) d)) := by
    have key : ((draws (g :: gs)).map (sample (g :: gs))).countP (fun o => decide (o.head? ≠ some (some c))) =
        ((draws (g :: gs)).map (sample (g :: gs))).countP (Meets ((fun x => decide (x ≠ c)) :: gs.map fun _ _ => true)) := by
      rw [sampled_space]
      apply List.countP_congr
      intro o ho
      obtain ⟨s, hs, rfl⟩ := List.mem_map.1 ho
      rw [mem_space] at hs
      cases hs with
      | cons hc ht =>
        rename_i x s
        have h2 : ∀ (gs : List (List C)) (s : List C), List.Forall₂ (fun c g => c ∈ g) s gs →
            Meets (gs.map fun _ _ => true) (s.map some) = true := by
          intro gs s h
          induction h with
          | nil => rfl
          | cons _ _ ih => rw [List.map_cons, List.map_cons, Meets, ih]; rfl
        rw [List.map_cons, Meets, h2 _ _ ht]
        simp
    rw [List.countP_map, List.countP_map] at key
    exact key
  rw [e, count_meets _ _ (by simp), draws_length, List.zipWith_cons_cons, List.prod_cons, List.map_cons, List.prod_cons]
  have h3 : (List.zipWith (fun (p : C → Bool) g => g.countP p) (gs.map fun _ _ => true) gs).prod = (gs.map List.length).prod := by
    clear e
    congr 1
    induction gs with
    | nil => rfl
    | cons a gs ih => simp at ih ⊢; exact ih
  have h4 : g.countP (fun x => decide (x ≠ c)) = g.length - g.count c := by
    have := List.length_eq_countP_add_countP (fun x => x == c) (l := g)
    rw [List.count]
    have h5 : g.countP (fun x => decide (x ≠ c)) = g.countP (fun a => decide ¬ (a == c) = true) := by
      apply List.countP_congr
      intro x _
      simp
    omega
  rw [h3, h4]
  ring

example : (histories [["a", "b"], ["x", "y"]] 3).countP
    (fun h => h.all fun d => decide ((sample [["a", "b"], ["x", "y"]] d).head? ≠ some (some "a"))) = 8 ∧
    (histories [["a", "b"], ["x", "y"]] 3).length = 64 := by decide +kernel

/-- On average over all trainings of `t` steps the first group takes the choice `c` in `t * m / n` steps, where the group lists `n`
choices and `m` of them are `c`. -/
theorem C120_times [DecidableEq C] (g : List C) (gs : List (List C)) (c : C) (t : ℕ) :
    ((histories (g :: gs) t).map fun h => h.countP fun d => decide ((sample (g :: gs) d).head? = some (some c))).sum * g.length =
      t * g.count c * (histories (g :: gs) t).length :=
  histories_sum _ _ _ _ _ (count_head g gs c)

example : ((histories [["a", "b"], ["x", "y"]] 2).map fun h =>
    h.countP fun d => decide ((sample [["a", "b"], ["x", "y"]] d).head? = some (some "a"))).sum = 16 := by decide +kernel

/-- `sample_choices` of the mutator, asked for random choices, is this draw: each group gets the choice at the drawn position among
those of its first element. -/
theorem C120_mutator {N : Type} (choices : ℕ → List C) (draw : ℕ → ℕ) (o : Mutator.Offers C) (arch : N → Bool)
    (gs : List (N × ℕ × List ℕ)) (ha : ∀ g ∈ gs, arch g.1 = false)
    (ho : ∀ g ∈ gs, (choices g.2.1)[draw g.2.1]? = some (o.random g.2.1)) :
    ∃ out, Mutator.sampleChoices o arch .random (gs.map fun g => (g.1, g.2.1 :: g.2.2)) = .ok out ∧
      out.map Prod.fst = gs.map Prod.fst ∧
      (out.map fun p => some p.2) = sample (gs.map fun g => choices g.2.1) (gs.map fun g => draw g.2.1) := by
  induction gs with
  | nil => exact ⟨[], rfl, rfl, rfl⟩
  | cons g gs ih =>
    obtain ⟨out, h1, h2, h3⟩ := ih (fun x hx => ha x (by simp [hx])) (fun x hx => ho x (by simp [hx]))
    refine ⟨(g.1, o.random g.2.1) :: out, ?_, ?_, ?_⟩
    · simp only [List.map_cons, Mutator.sampleChoices, Mutator.sampleGroup, ha g (by simp), h1]
      rfl
    · simp [h2]
    · simp only [List.map_cons, sample, pick, h3, ho g (by simp)]

/-- With weights that are not negative and not all zero, the choice `j` is drawn exactly for the random numbers in an interval of
length `w_j / total`. -/
theorem C120_weighted (cs : List C) (ws : List ℚ) (hl : ws.length = cs.length) (hw : ∀ w ∈ ws, 0 ≤ w) (ht : 0 < ws.sum)
    (r : ℚ) (h0 : 0 ≤ r) (h1 : r < 1) :
    ∃ j, ∃ hj : j < cs.length, sampleProb cs ws r = .ok cs[j] ∧
      ∀ i (hi : i < ws.length), (j = i ↔ (ws.take i).sum / ws.sum ≤ r ∧ r < (ws.take i).sum / ws.sum + ws[i] / ws.sum) := by
  cases ws with
  | nil => simp at ht
  | cons w ws =>
    set f : ℕ → ℚ := fun i => ((w :: ws).take (i + 1)).sum with hf
    have hm : ∀ i j, i ≤ j → f i ≤ f j := fun i j hij => take_sum_le _ hw (by omega)
    set x := r * (w :: ws).sum with hx
    have hx0 : 0 ≤ x := mul_nonneg h0 ht.le
    have hx1 : x < (w :: ws).sum := by rw [hx]; nlinarith
    set j := (((List.range ws.length).map f).takeWhile fun c => decide (c ≤ x)).length with hj
    have hjn : j ≤ ws.length := by
      have := (List.takeWhile_sublist (l := (List.range ws.length).map f) fun c => decide (c ≤ x)).length_le
      simpa using this
    have hjc : j < cs.length := by rw [← hl]; simpa using Nat.lt_succ_of_le hjn
    refine ⟨j, hjc, ?_, ?_⟩
    · have hlast := accumulate_last (w :: ws) (by simp)
      rw [sampleProb, if_pos hl, randomChoices, if_neg (by simpa using hl), hlast]
      simp only
      rw [if_neg (not_le.2 ht), accumulate_init]
      change (match cs[j]? with | some c => Except.ok c | none => Except.error Err.index) = _
      rw [List.getElem?_eq_getElem hjc]
    · intro i hi
      have hin : i ≤ ws.length := by simpa using Nat.le_of_lt_succ hi
      have e1 : (w :: ws).take (i + 1) = (w :: ws).take i ++ [(w :: ws)[i]] := by rw [List.take_succ_eq_append_getElem hi]
      have e2 : f i = ((w :: ws).take i).sum + (w :: ws)[i] := by rw [hf]; simp only [e1, List.sum_append, List.sum_singleton]
      rw [← add_div, ← e2, div_le_iff₀ ht, lt_div_iff₀ ht, ← hx, hj, prefix_length f ws.length x hm i hin]
      constructor
      · rintro ⟨h2, h3⟩
        constructor
        · cases i with
          | zero => simpa using hx0
          | succ i => exact h2 i (by omega)
        · rcases Nat.lt_or_ge i ws.length with h | h
          · exact h3 h
          · have : i = ws.length := by omega
            have e3 : f i = (w :: ws).sum := by rw [hf, this]; simp
            rw [e3]; exact hx1
      · rintro ⟨h2, h3⟩
        refine ⟨fun k hk => ?_, fun _ => h3⟩
        cases i with
        | zero => omega
        | succ i => exact (hm k i (by omega)).trans h2

example : (sampleProb ["a", "b", "c"] [1/4, 0, 3/4] (1/5)).toOption = some "a" ∧
    (sampleProb ["a", "b", "c"] [1/4, 0, 3/4] (1/4)).toOption = some "c" := by decide +kernel

/-- A choice of probability zero is never drawn. -/
theorem C120_zero (cs : List C) (ws : List ℚ) (hl : ws.length = cs.length) (hw : ∀ w ∈ ws, 0 ≤ w) (ht : 0 < ws.sum)
    (r : ℚ) (h0 : 0 ≤ r) (h1 : r < 1) : ∃ j, ∃ hj : j < cs.length, sampleProb cs ws r = .ok cs[j] ∧ 0 < ws[j] := by
  obtain ⟨j, hj, e, h⟩ := C120_weighted cs ws hl hw ht r h0 h1
  refine ⟨j, hj, e, ?_⟩
  obtain ⟨h2, h3⟩ := (h j (by omega)).1 rfl
  have h4 : 0 < ws[j] / ws.sum := by linarith
  exact (div_pos_iff_of_pos_right ht).1 h4

/-- What is refused: no probabilities, a sum above one by the precision or more, and at the first draw a wrong number of them. -/
theorem C120_refused (cs : List C) (ps : List ℚ) (r : ℚ) :
    makeProb none = .error .assertion ∧
    (makeProb (some ps) = .error .assertion ↔ 1 + 1 / 2 ^ 52 ≤ ps.sum) ∧
    (makeProb (some ps) = .ok ps ↔ ps.sum < 1 + 1 / 2 ^ 52) ∧
    (ps.length ≠ cs.length → sampleProb cs ps r = .error .assertion) := by
  refine ⟨rfl, ?_, ?_, fun h => if_neg h⟩
  · rw [makeProb, eps]
    split <;> simp <;> linarith
  · rw [makeProb, eps]
    split <;> simp <;> linarith

/-- DISAGREEMENT: "make sure the sum is 1" is not enforced: every list with a smaller sum is accepted. If the sum is zero or less, then
every draw fails with a ValueError; otherwise the probabilities are scaled up silently. -/
theorem C120_sum_violated (cs : List C) (ps : List ℚ) (h : ps.sum < 1) (hl : ps.length = cs.length) (hne : ps ≠ []) :
    makeProb (some ps) = .ok ps ∧ (ps.sum ≤ 0 → ∀ r, sampleProb cs ps r = .error .value) := by
  constructor
  · rw [makeProb, if_pos]
    rw [eps]
    linarith [show (0 : ℚ) < 1 / 2 ^ 52 by norm_num]
  · intro h0 r
    rw [sampleProb, if_pos hl, randomChoices, if_neg (by simpa using hl), accumulate_last ps hne]
    simp only
    rw [if_pos h0]

example : (makeProb (some [0, 0])).toOption = some [0, 0] ∧ (makeProb (some [1/10, 1/10])).toOption = some [1/10, 1/10] ∧
    (sampleProb ["a", "b"] [1/10, 1/10] (1/2)).toOption = some "b" := by decide +kernel

/-- Only the proportions of the weights count. -/
theorem C120_scaled (cs : List C) (ws : List ℚ) (k : ℚ) (hk : 0 < k) (r : ℚ) :
    sampleProb cs (ws.map (k * ·)) r = sampleProb cs ws r := by
  have ha : accumulate (ws.map (k * ·)) = (accumulate ws).map (k * ·) := by
    simp only [accumulate, List.length_map, List.map_map]
    apply List.map_congr_left
    intro i _
    simp only [Function.comp, ← List.map_take]
    rw [List.sum_map_mul_left, List.map_id']
  rw [sampleProb, sampleProb, randomChoices, randomChoices, ha, List.getLast?_map, List.length_map]
  cases (accumulate ws).getLast? with
  | none => rfl
  | some t =>
    have h1 : k * t ≤ 0 ↔ t ≤ 0 := by
      constructor
      · intro h; by_contra hc; have := mul_pos hk (not_le.1 hc); linarith
      · intro h; nlinarith
    have h2 : ∀ l : List ℚ, ((l.map (k * ·)).takeWhile fun c => decide (c ≤ r * (k * t))).length =
        (l.takeWhile fun c => decide (c ≤ r * t)).length := by
      intro l
      rw [List.takeWhile_map, List.length_map]
      congr 2
      funext c
      simp only [Function.comp, decide_eq_decide]
      rw [show r * (k * t) = k * (r * t) by ring]
      exact mul_le_mul_iff_right₀ hk
    simp only [Option.map_some, h1, ← List.map_dropLast, h2]

end Verif.SampleLaw
