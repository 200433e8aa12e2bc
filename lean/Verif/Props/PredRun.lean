import Verif.Lemmas.PredRun

/-! Property C90: the metric predictor in the search and its handlers. -/

namespace Verif.PredRun
open Verif

/-! ## Property C90 -/

section Search
variable {S H : Type}

/-- DISAGREEMENT: a checkpoint of the predictor has no effect. The search validates every subnet, exactly
as without a predictor. -/
theorem C90_checkpoint_violated (cfg : Evolution.Cfg) (env : Env S H) (samples : List (S × (String → Option ℚ))) (h : H)
    (inputs : List (Evolution.Inputs S)) (st : Evolution.State S) :
    run cfg env samples (some (.ckpt (.ok h))) inputs st = (run cfg env samples none inputs st).map (fun r => { r with handler := some h }) ∧
    ∀ r, run cfg env samples (some (.ckpt (.ok h))) inputs st = .ok r → ∃ l, r.log = validatedLog env l := by
  have h1 : run cfg env samples (some (.ckpt (.ok h))) inputs st = epochs cfg env inputs { (start st : Run S H) with handler := some h } := rfl
  refine ⟨?_, fun r hr => ?_⟩
  · rw [h1, epochs_plain cfg env (some h) inputs (start st) rfl]
    rfl
  · rw [h1] at hr
    obtain ⟨_, k, hk⟩ := epochs_validated cfg env inputs _ r rfl hr
    exact ⟨k, hk⟩

/-- With a number of samples the handler is trained on exactly that many validated subnets (or all initial
candidates, if they are more), and the score of every subnet of the search is its rounded prediction. -/
theorem C90_trained (cfg : Evolution.Cfg) (env : Env S H) (samples : List (S × (String → Option ℚ))) (n : Nat)
    (inputs : List (Evolution.Inputs S)) (st : Evolution.State S) (r : Run S H)
    (hr : run cfg env samples (some (.train (.number n))) inputs st = .ok r) :
    ∃ (l : List S) (h : H) (preds : List (S × Source × ℚ)), l.length = max n st.pool.length ∧ st.pool.map (·.subnet) <+: l ∧
      env.fit (l.map fun s => (s, env.rnd (env.real s))) = .ok h ∧ r.log = validatedLog env l ++ preds ∧
      ∀ e ∈ preds, PredictedBy env h e := by
  unfold run at hr
  dsimp only at hr
  cases hi : initPredictor cfg env samples (.train (.number n)) (start st) with
  | error e => rw [hi] at hr; cases hr
  | ok r1 =>
    rw [hi] at hr
    dsimp only at hr
    unfold initPredictor start at hi
    dsimp only at hi
    cases hs : Evolution.sampleLoop { cfg with numCandidates := n } samples st.pool with
    | error e => rw [hs] at hi; cases hi
    | ok pool =>
      rw [hs] at hi
      dsimp only at hi
      rw [scores_validated] at hi
      dsimp only at hi
      obtain ⟨hl, hpre⟩ := sampled_length _ samples st.pool pool hs
      generalize hl2 : pool.map (·.subnet) = l at hi
      have hz : l.zip (l.map fun s => env.rnd (env.real s)) = l.map fun s => (s, env.rnd (env.real s)) := by
        clear hl2 hi
        induction l with
        | nil => rfl
        | cons a l ih => rw [List.map_cons, List.zip_cons_cons, ih, List.map_cons]
      rw [hz] at hi
      cases hf : env.fit (l.map fun s => (s, env.rnd (env.real s))) with
      | error e => rw [hf] at hi; cases hi
      | ok h =>
        rw [hf] at hi
        dsimp only at hi
        cases hi
        obtain ⟨k, h5, h6⟩ := epochs_predicted cfg env h inputs _ r rfl rfl hr
        refine ⟨l, h, k, ?_, ?_, hf, ?_, h6⟩
        · rw [← hl2, List.length_map, hl]
        · rw [← hl2]
          exact hpre.map _
        · rw [h5]
          dsimp only
          rw [entries_validated, List.nil_append]

/-- With a file of candidates the handler is trained on exactly the subnets and scores of the file, no subnet is validated, and the
score of every subnet of the search is its rounded prediction. -/
theorem C90_trained_file (cfg : Evolution.Cfg) (env : Env S H) (samples : List (S × (String → Option ℚ))) (l : List (S × ℚ))
    (inputs : List (Evolution.Inputs S)) (st : Evolution.State S) (r : Run S H)
    (hr : run cfg env samples (some (.train (.file (.cands l)))) inputs st = .ok r) :
    ∃ h : H, env.fit l = .ok h ∧ ∀ e ∈ r.log, PredictedBy env h e := by
  unfold run at hr
  dsimp only at hr
  unfold initPredictor start at hr
  dsimp only at hr
  cases hf : env.fit l with
  | error e => rw [hf] at hr; cases hr
  | ok h =>
    rw [hf] at hr
    dsimp only at hr
    obtain ⟨k, h1, h2⟩ := epochs_predicted cfg env h inputs _ r rfl rfl hr
    refine ⟨h, rfl, ?_⟩
    rw [h1]
    simpa using h2

example : (run exCfg exEnv [] (some (.train (.file (.cands [(1, 1), (2, 2), (3, 3)])))) [exInputs] exState).map (fun r => r.log) =
    .ok [(7, .predicted, 10), (8, .predicted, 11)] := by decide +kernel

/-- DISAGREEMENT: initial candidates given to the search are dropped when a predictor is trained: the
search starts with an empty pool. -/
theorem C90_initial_dropped_violated (cfg : Evolution.Cfg) (env : Env S H) (samples : List (S × (String → Option ℚ))) (t : Train S)
    (st : Evolution.State S) (r : Run S H) (hr : run cfg env samples (some (.train t)) [] st = .ok r) :
    r.st = { st with pool := [] } := by
  unfold run at hr
  dsimp only at hr
  cases hi : initPredictor cfg env samples (.train t) (start st) with
  | error e => rw [hi] at hr; cases hr
  | ok r1 =>
    rw [hi] at hr
    cases hr
    unfold initPredictor start at hi
    cases t with
    | file f =>
      cases f with
      | noKey => cases hi
      | plain => cases hi
      | cands l =>
        dsimp only at hi
        cases hf : env.fit l with
        | error e => rw [hf] at hi; cases hi
        | ok h => rw [hf] at hi; cases hi; rfl
    | number n =>
      dsimp only at hi
      generalize Evolution.sampleLoop _ samples st.pool = q at hi
      cases q with
      | error e => cases hi
      | ok pool =>
        dsimp only at hi
        rw [scores_validated] at hi
        dsimp only at hi
        generalize env.fit _ = q at hi
        cases q with
        | error e => cases hi
        | ok h => cases hi; rfl

/-- DISAGREEMENT: the files that the search writes cannot be given as training samples: the run stops with a
`KeyError` before it starts. -/
theorem C90_samples_file_fails (cfg : Evolution.Cfg) (env : Env S H) (samples : List (S × (String → Option ℚ))) (saved st : Evolution.State S)
    (inputs : List (Evolution.Inputs S)) : run cfg env samples (some (.train (.file (searcherFile saved)))) inputs st = .error (.raised .key) := rfl

example : (run exCfg exEnv [(1, fun _ => none), (2, fun _ => none)] (some (.train (.number 3))) [exInputs] exState).map (fun r => r.log) =
    .ok [(9, .validated, 9), (1, .validated, 1), (2, .validated, 2), (7, .predicted, 10), (8, .predicted, 11)] := by decide +kernel

example : (run exCfg exEnv [] (some (.ckpt (.ok 5))) [exInputs] exState).map (fun r => r.log) = .ok [(9, .validated, 9), (7, .validated, 7)] := by
  decide +kernel

end Search

section Mlp
variable {W X : Type}

/-- Training of the network handler gives the weights of the first of the epochs with the smallest loss on the validation
part, where the first `⌊n · ratio⌋` of the samples in random order are for training and the others for validation. Partial:
if both parts have samples and some loss is below the start value. -/
theorem C90_mlp_best_partial (t : Trainer W X) (ratio : ℚ) (epochs : Nat) (perm : List X) (w : W) (h0 : 1 ≤ perm.length * ratio) (h1 : ratio < 1)
    (hn : ∃ j < epochs, t.loss (perm.drop ⌊perm.length * ratio⌋₊) (weightsAfter t (perm.take ⌊perm.length * ratio⌋₊) w (j + 1)) < 10 ^ 33) :
    let tr := perm.take ⌊perm.length * ratio⌋₊
    let va := perm.drop ⌊perm.length * ratio⌋₊
    ∃ i < epochs, trainMlp t ratio epochs perm w = .ok (some (weightsAfter t tr w (i + 1))) ∧
      (∀ j < epochs, t.loss va (weightsAfter t tr w (i + 1)) ≤ t.loss va (weightsAfter t tr w (j + 1))) ∧
      ∀ j < i, t.loss va (weightsAfter t tr w (i + 1)) < t.loss va (weightsAfter t tr w (j + 1)) := by
  intro tr va
  have hlen : (0 : ℚ) < perm.length := by
    rcases Nat.eq_zero_or_pos perm.length with h | h
    · rw [h] at h0; norm_num at h0
    · exact_mod_cast h
  have hr : 0 ≤ (perm.length : ℚ) * ratio := by linarith
  have hk := splitAt_eq perm.length ratio hr h1.le
  have hk1 : 1 ≤ ⌊(perm.length : ℚ) * ratio⌋₊ := Nat.le_floor (by exact_mod_cast h0)
  have hk2 : ⌊(perm.length : ℚ) * ratio⌋₊ < perm.length := by
    rw [Nat.floor_lt hr]
    nlinarith
  have htr : tr ≠ [] := by
    intro h
    have := congrArg List.length h
    simp only [tr, List.length_take, List.length_nil] at this
    omega
  have hva : va ≠ [] := by
    intro h
    have := congrArg List.length h
    simp only [va, List.length_drop, List.length_nil] at this
    omega
  unfold trainMlp
  dsimp only
  rw [hk, Int.toNat_natCast]
  rcases loop_spec t tr va htr hva epochs w huge none with ⟨_, h⟩ | ⟨i, hi, e, _, h3, h4⟩
  · obtain ⟨j, hj, hlt⟩ := hn
    exact absurd (h j hj) (not_le.2 hlt)
  · refine ⟨i, hi, ?_, h3, h4⟩
    rw [e]

example : trainMlp exTrainer (4 / 5) 4 [5, 6, 7] 0 = .ok (some 2) := by decide +kernel

/-- DISAGREEMENT: without epochs, or when one of the two parts is empty (one sample with the default ratio; ratio 1), training
stops with an `UnboundLocalError`. -/
theorem C90_mlp_untrained_fails (t : Trainer W X) (ratio : ℚ) (epochs : Int) (perm : List X) (w : W)
    (h : epochs ≤ 0 ∨ (0 ≤ ratio ∧ perm.length * ratio < 1) ∨ 1 ≤ ratio) : trainMlp t ratio epochs perm w = .error .name := by
  unfold trainMlp
  dsimp only
  have key : trainLoop t (perm.take (splitAt perm.length ratio)) (perm.drop (splitAt perm.length ratio)) epochs.toNat (some w) huge none = none := by
    rcases h with h | h | h
    · rw [show epochs.toNat = 0 by omega]
      rfl
    · refine loop_nan t _ _ _ _ _ _ (Or.inl ?_)
      rcases Nat.eq_zero_or_pos perm.length with h0 | h0
      · rw [List.length_eq_zero_iff.1 h0, List.take_nil]
      have hr : ratio ≤ 1 := by
        by_contra hc
        push Not at hc
        have : (1 : ℚ) ≤ perm.length := by exact_mod_cast h0
        nlinarith [h.2]
      rw [splitAt_eq _ _ (mul_nonneg (by positivity) h.1) hr, Nat.floor_eq_zero.2 h.2, List.take_zero]
    · refine loop_nan t _ _ _ _ _ _ (Or.inr ?_)
      apply List.drop_eq_nil_of_le
      exact splitAt_all _ _ h
  rw [key]

example : ((1 : ℕ) : ℚ) * (4 / 5) < 1 := by norm_num

/-- A saved network handler can be loaded if the search space has the width of the configuration, and predicts the same. Partial: for
other widths see `C90_mlp_checkpoint_violated`. -/
theorem C90_mlp_checkpoint_partial (c : MlpCfg) (w w' : W) (width : Nat) (train : W → W) (h : width = c.inFeatures) :
    (Mlp.new c w').load ((Mlp.new c w).fit width train) = .ok ((Mlp.new c w).fit width train) := by
  unfold Mlp.load Mlp.fit Mlp.new
  dsimp only
  subst h
  have : (if c.inFeatures ≠ c.inFeatures then (⟨(c.hidden, c.inFeatures), train w⟩ : Mlp W) else ⟨(c.hidden, c.inFeatures), train w⟩) = ⟨(c.hidden, c.inFeatures), train w⟩ := ite_self _
  rw [this]
  dsimp only
  rw [if_pos rfl]

/-- DISAGREEMENT: a network handler trained on a search space of another width than configured (which `fit` allows) cannot be loaded
again by the same configuration. -/
theorem C90_mlp_checkpoint_violated (c : MlpCfg) (w w' : W) (width : Nat) (train : W → W) (h : width ≠ c.inFeatures) :
    (Mlp.new c w').load ((Mlp.new c w).fit width train) = .error .runtime := by
  unfold Mlp.load Mlp.fit Mlp.new
  dsimp only
  rw [if_pos h, if_neg (by intro e; exact h (congrArg Prod.snd e))]

end Mlp

section Carts
variable {T V : Type}

/-- Every tree is trained on all samples, each with its own label, restricted to at least one feature, each once. -/
theorem C90_trees [Inhabited V] (fit : List (List V × ℚ) → T) (width : Nat) (ds : List Draw) (data : List (List V)) (label : List ℚ)
    (hl : data.length = label.length) (hd : ∀ d ∈ ds, d.Valid data.length width) :
    List.Forall₂ (fun (d : Draw) (t : T × List Nat) => t.2 = d.feats.take d.n ∧ t.2 ≠ [] ∧ t.2.Nodup ∧ (∀ i ∈ t.2, i < width) ∧
      ∃ l, l.Perm (restrict t.2 (data.zip label)) ∧ t.1 = fit l) ds (makeTrees fit ds data label) := by
  obtain ⟨samples, hs⟩ : ∃ samples, samples = data.zip label := ⟨_, rfl⟩
  have hp : (data.zip label).Perm samples := by rw [hs]
  rw [← hs]
  clear hs
  induction ds generalizing data label with
  | nil => exact List.Forall₂.nil
  | cons d ds ih =>
    obtain ⟨h1, h2, h3, h4⟩ := hd d List.mem_cons_self
    have hlen : (pick data d.rows).length = data.length := by rw [pick_length, h1.length_eq, List.length_range]
    have hlen2 : (pick label d.rows).length = data.length := by rw [pick_length, h1.length_eq, List.length_range]
    have hperm := (pick_perm data label hl d.rows h1).trans hp
    rw [makeTrees]
    refine List.Forall₂.cons ⟨rfl, ?_, ?_, ?_, ?_⟩ (ih _ _ (hlen.trans hlen2.symm) (fun d' hd' => by rw [hlen]; exact hd d' (List.mem_cons_of_mem _ hd')) hperm)
    · intro h
      have := congrArg List.length h
      simp only [List.length_take, List.length_nil, h2.length_eq, List.length_range] at this
      omega
    · exact ((List.take_sublist _ _).nodup (h2.nodup_iff.2 List.nodup_range))
    · intro i hi
      exact List.mem_range.1 (h2.mem_iff.1 ((List.take_sublist _ _).subset hi))
    · refine ⟨_, ?_, rfl⟩
      have hz : ((pick data d.rows).map fun row => pick row (d.feats.take d.n)).zip (pick label d.rows) =
          restrict (d.feats.take d.n) ((pick data d.rows).zip (pick label d.rows)) := by
        unfold restrict
        rw [List.zip_map_left]
        rfl
      rw [hz]
      exact hperm.map _

example : (⟨[1, 0, 2], [1, 0], 1⟩ : Draw).Valid 3 2 := by
  refine ⟨by decide, by decide, by decide, by decide⟩

/-- The prediction is the mean over the trees, in whatever order they are. -/
theorem C90_tree_mean [Inhabited V] (ev : T → List V → ℚ) (trees trees' : List (T × List Nat)) (row : List V) (hp : trees'.Perm trees) (h : trees ≠ []) :
    predictRow ev trees' row = some ((trees.map fun p => ev p.1 (p.2.map fun i => row.getD i default)).sum / trees.length) := by
  have hm : (sortBy (fun a b => decide (a ≥ b)) (trees'.map fun p => ev p.1 (pick row p.2))).Perm (trees.map fun p => ev p.1 (pick row p.2)) :=
    (sortBy_perm _).trans (hp.map _)
  unfold predictRow
  dsimp only
  rw [if_neg, hm.sum_eq, hm.length_eq, List.length_map]
  · rfl
  · intro e
    rw [e] at hm
    exact h (List.map_eq_nil_iff.1 hm.symm.eq_nil)

end Carts

/-- Interpolation takes all samples exactly if there are more samples than groups, and always works on the indices of the
choices. -/
theorem C90_rbf {V : Type} (width : Nat) (data : List (List V)) (label : List ℚ) (t e : String) (he : encoding true t = .ok e) :
    (rbfFit width data label = if width < data.length then .ok (data.zip label) else .error .value) ∧ e = "normal" := by
  constructor
  · unfold rbfFit
    by_cases h : data.length ≤ width
    · rw [if_pos h, if_neg (by omega)]
    · rw [if_neg h, if_pos (by omega)]
  · unfold encoding at he
    by_cases h : t = "normal" ∨ t = "onehot"
    · rw [if_pos h, if_pos rfl] at he
      cases he
      rfl
    · rw [if_neg h] at he
      cases he

/-- Normalisation never divides by zero: from the normalised column, the mean and the positive deviation the column is found again; a constant
column becomes zero. -/
theorem C90_gp_normal (x : List ℝ) (h : 2 ≤ x.length) :
    ∃ m s n, gpStats x = some (m, s) ∧ 0 < s ∧ gpNormal x = some n ∧ n.map (fun v => m + s * v) = x ∧
      ∀ c, (∀ v ∈ x, v = c) → ∀ v ∈ n, v = 0 := by
  have hs : 0 < Real.sqrt ((x.map fun v => (v - x.sum / x.length) ^ 2).sum / (x.length - 1)) + 1e-6 := by
    have := Real.sqrt_nonneg ((x.map fun v => (v - x.sum / x.length) ^ 2).sum / (x.length - 1))
    have h6 : (0 : ℝ) < 1e-6 := by norm_num
    linarith
  have he : gpStats x = some (x.sum / x.length, Real.sqrt ((x.map fun v => (v - x.sum / x.length) ^ 2).sum / (x.length - 1)) + 1e-6) := by
    unfold gpStats
    rw [if_neg (by omega)]
  refine ⟨_, _, x.map fun v => (v - x.sum / x.length) / (Real.sqrt ((x.map fun v => (v - x.sum / x.length) ^ 2).sum / (x.length - 1)) + 1e-6),
    he, hs, ?_, ?_, ?_⟩
  · unfold gpNormal
    rw [he]
    rfl
  · rw [List.map_map]
    conv_rhs => rw [← List.map_id x]
    apply List.map_congr_left
    intro v _
    simp only [Function.comp_apply, id]
    field_simp
    ring
  · intro c hc v hv
    obtain ⟨u, hu, rfl⟩ := List.mem_map.1 hv
    have hsum : x.sum = x.length * c := by
      rw [List.eq_replicate_of_mem hc]
      simp
    have hn : (x.length : ℝ) ≠ 0 := by
      have : 0 < x.length := by omega
      positivity
    rw [hsum, mul_div_cancel_left₀ _ hn, hc u hu, sub_self, zero_div]

/-- DISAGREEMENT: one sample is not enough for a Gaussian process, but it is not refused: the deviation is not a number. -/
theorem C90_gp_single_fails (v : ℝ) : gpNormal [v] = none := by
  unfold gpNormal gpStats
  rw [if_pos (by simp)]
  rfl

/-- Only the two names of encodings are accepted. -/
theorem C90_encoding_refused (rbf : Bool) (t : String) (e : Err) :
    encoding rbf t = .error e ↔ t ≠ "normal" ∧ t ≠ "onehot" ∧ e = .assertion := by
  unfold encoding
  by_cases h : t = "normal" ∨ t = "onehot"
  · rw [if_pos h]
    rcases h with rfl | rfl <;> simp
  · rw [if_neg h]
    push Not at h
    simp [h.1, h.2, eq_comm]

example : encoding true "one-hot" = .error .assertion := (C90_encoding_refused _ _ _).2 (by decide)

end Verif.PredRun
