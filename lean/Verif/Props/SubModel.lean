import Verif.Lemmas.SubModel

namespace Verif.SubModel
open Verif

/-! ## Property C95 -/

/-- The static model of `GroupFisherSubModel`: every unit that may be pruned is a layer of
the smallest multiple of the divisor that holds the channels in use, and every other
unit keeps its width; all channels are in use. -/
theorem C95_widths (d : Nat) (hd : 0 < d) (us : List Chan) : ∃ vs s, subModel d us = .ok (vs, s) ∧
    List.Forall₂ (fun u v => v.layer = u.layer ∧ v.prunable = u.prunable ∧ v.kept = v.num ∧
      (u.prunable = true → SmallestMultiple d u.kept v.num) ∧ (u.prunable = false → v.num = u.kept)) us vs := by
  unfold subModel
  by_cases h : d ≠ 1
  · rw [if_pos h]
    unfold makeDivisible
    rw [if_neg (by omega)]
    refine ⟨_, _, rfl, ?_⟩
    unfold static
    rw [List.map_map, List.forall₂_map_right_iff, List.forall₂_same]
    intro u _
    dsimp only [Function.comp]
    cases hp : u.prunable
    · simp
    · exact ⟨by simp, by simp, by simp, fun _ => by simpa using divisibleWidth_smallest d u.kept hd, by simp⟩
  · rw [if_neg h]
    have hd1 : d = 1 := by omega
    subst hd1
    refine ⟨_, _, rfl, ?_⟩
    unfold static
    rw [List.forall₂_map_right_iff, List.forall₂_same]
    intro u _
    exact ⟨rfl, rfl, rfl, fun _ => ⟨Nat.one_dvd _, le_refl _, fun k _ hk => hk⟩, fun _ => rfl⟩

example : WF demo := ⟨by decide, by decide, by decide⟩

example : (subModel 16 demo).toOption = some ([⟨"conv1", 32, 32, true⟩, ⟨"conv2", 64, 64, true⟩, ⟨"fc", 10, 10, false⟩],
    [(("conv1", (0, 32), 32), 32), (("conv2", (0, 64), 64), 64)]) := by rfl

/-- From finetuning to deployment with the divisor 1: the saved structure, applied to the
unpruned architecture, gives a static model with the widths of the finetuned one, so the
checkpoint fits. Missing: other divisors, see `C95_names_violated`. -/
theorem C95_roundtrip_partial (us : List Chan) (h : WF us) : ∃ vs s ws, subModel 1 us = .ok (vs, s) ∧
    deploy (unpruned us) s = .ok ws ∧ widths ws = widths vs := by
  refine ⟨static us, template us, static us, rfl, ?_, rfl⟩
  have key := setChoices_template us [] (by simpa using h.names) fun u hu => ⟨(h.some u hu).2, h.fixed u hu⟩
  rw [List.nil_append, List.nil_append] at key
  unfold deploy
  rw [key]

/-- Making the deployed model divisible afterwards gives the widths finetuning with that
divisor would have given. -/
theorem C95_deploy_divisible (d : Nat) (hd : 0 < d) (us : List Chan) (h : WF us) : ∃ s ws xs vs t,
    subModel 1 us = .ok (static us, s) ∧ deploy (unpruned us) s = .ok ws ∧ postProcess d ws = .ok xs ∧
    subModel d us = .ok (vs, t) ∧ widths xs = widths vs := by
  have key := setChoices_template us [] (by simpa using h.names) fun u hu => ⟨(h.some u hu).2, h.fixed u hu⟩
  rw [List.nil_append, List.nil_append] at key
  have hdep : deploy (unpruned us) (template us) = .ok (static us) := by
    unfold deploy
    rw [key]
  unfold postProcess
  by_cases h1 : d ≠ 1
  · have hm : ∃ vs, makeDivisible d (static us) = .ok vs := by
      unfold makeDivisible
      rw [if_neg (by omega)]
      exact ⟨_, rfl⟩
    obtain ⟨vs, hvs⟩ := hm
    refine ⟨template us, static us, vs, vs, template vs, rfl, hdep, by rw [if_pos h1, hvs], ?_, rfl⟩
    unfold subModel
    rw [if_pos h1, hvs]
  · refine ⟨template us, static us, static us, static us, template us, rfl, hdep, by rw [if_neg h1], ?_, rfl⟩
    unfold subModel
    rw [if_neg h1]

example : (deploy (unpruned demo) (template demo)).toOption.map widths = some [("conv1", 30), ("conv2", 64), ("fc", 10)] := by
  decide +kernel

/-- DISAGREEMENT: with a divisor other than 1 `GroupFisherSubModel` saves the structure
under the names of the units of the *pruned* model, and names contain the numbers of
channels. As soon as some unit ends with another width than it had before pruning, the
saved file cannot be used for `GroupFisherDeploySubModel`: it ends with a key error. -/
theorem C95_names_violated (d : Nat) (hd : 0 < d) (h1 : d ≠ 1) (us : List Chan) (hwf : WF us) (u : Chan) (hu : u ∈ us)
    (hp : u.prunable = true) (hne : ¬ SmallestMultiple d u.kept u.num) : ∃ vs s, subModel d us = .ok (vs, s) ∧
    deploy (unpruned us) s = .error .key := by
  have hm : makeDivisible d (static us) = .ok ((static us).map fun u => if u.prunable then
      { u with num := divisibleWidth d u.num, kept := divisibleWidth d u.num } else u) := by
    unfold makeDivisible
    rw [if_neg (by omega)]
  refine ⟨_, _, by unfold subModel; rw [if_pos h1, hm], ?_⟩
  have hmiss := setChoices_missing (unpruned us) (template ((static us).map fun u => if u.prunable then
      { u with num := divisibleWidth d u.num, kept := divisibleWidth d u.num } else u))
    ((u.layer, (0, divisibleWidth d u.kept), divisibleWidth d u.kept), divisibleWidth d u.kept) (by
      unfold template
      refine List.mem_map.2 ⟨{ u with num := divisibleWidth d u.kept, kept := divisibleWidth d u.kept }, ?_, rfl⟩
      rw [List.mem_filter]
      refine ⟨List.mem_map.2 ⟨{ u with num := u.kept }, List.mem_map.2 ⟨u, hu, rfl⟩, ?_⟩, hp⟩
      rw [if_pos hp]) (by
      intro hmem
      obtain ⟨v, hv, he⟩ := List.mem_map.1 hmem
      obtain ⟨w, hw, rfl⟩ := List.mem_map.1 hv
      have hl : w.layer = u.layer := congrArg Prod.fst he
      have hn : w.num = divisibleWidth d u.kept := congrArg (fun x => x.2.2) he
      have : w = u := List.inj_on_of_nodup_map hwf.names hw hu hl
      subst this
      exact hne (hn ▸ divisibleWidth_smallest d w.kept hd))
  unfold deploy
  rw [hmiss]

example : ¬ SmallestMultiple 16 30 64 := fun h => absurd (h.2.2 32 (by decide) (by decide)) (by decide)

/-- With a divisor other than 1 the saved structure can be deployed when rounding restores
every unit to its width before pruning. Missing: units that rounding does not restore, see `C95_names_violated`. -/
theorem C95_names_partial (d : Nat) (hd : 0 < d) (us : List Chan) (hwf : WF us)
    (h : ∀ u ∈ us, u.prunable = true → SmallestMultiple d u.kept u.num) : ∃ vs s ws, subModel d us = .ok (vs, s) ∧
    deploy (unpruned us) s = .ok ws ∧ widths ws = widths vs := by
  by_cases h1 : d = 1
  · subst h1
    exact C95_roundtrip_partial us hwf
  · have hvs : (static us).map (fun u => if u.prunable then
        { u with num := divisibleWidth d u.num, kept := divisibleWidth d u.num } else u) = unpruned us := by
      unfold static unpruned
      rw [List.map_map]
      refine List.map_congr_left fun u hu => ?_
      dsimp only [Function.comp]
      cases hp : u.prunable
      · rw [if_neg (by simp), hwf.fixed u hu hp]
      · rw [if_pos rfl]
        have a := divisibleWidth_smallest d u.kept hd
        have b := h u hu hp
        have e : divisibleWidth d u.kept = u.num := Nat.le_antisymm (a.2.2 _ b.1 b.2.1) (b.2.2 _ a.1 a.2.1)
        rw [e]
    have hm : makeDivisible d (static us) = .ok (unpruned us) := by
      unfold makeDivisible
      rw [if_neg (by omega), hvs]
    refine ⟨unpruned us, template (unpruned us), static (unpruned us), by unfold subModel; rw [if_pos h1, hm], ?_, ?_⟩
    · have key := setChoices_template (unpruned us) [] (by
        have := hwf.names
        unfold unpruned
        rw [List.nil_append, List.map_map]
        exact this) fun u hu => by
          obtain ⟨v, _, rfl⟩ := List.mem_map.1 hu
          exact ⟨le_refl _, fun _ => rfl⟩
      rw [List.nil_append, List.nil_append] at key
      have e : unpruned (unpruned us) = unpruned us := by
        unfold unpruned
        rw [List.map_map]
        rfl
      rw [e] at key
      unfold deploy
      rw [key]
    · unfold widths static unpruned
      simp

/-- Making a model divisible again with the same divisor changes nothing. -/
theorem C95_divisible_again (d : Nat) (us vs : List Chan) (h : makeDivisible d us = .ok vs) : makeDivisible d vs = .ok vs := by
  unfold makeDivisible at h ⊢
  by_cases h1 : d = 0 ∧ us.any (·.prunable) = true
  · rw [if_pos h1] at h; cases h
  · rw [if_neg h1] at h
    simp only [Except.ok.injEq] at h
    by_cases hd : d = 0
    · have hno : ∀ u ∈ us, u.prunable = false := by
        intro u hu
        by_contra hc
        exact h1 ⟨hd, List.any_eq_true.2 ⟨u, hu, by simpa using hc⟩⟩
      have e : vs = us := by
        rw [← h]
        conv_rhs => rw [← List.map_id us]
        refine List.map_congr_left fun u hu => ?_
        rw [hno u hu]
        rfl
      subst e
      rw [if_neg h1, h]
    · rw [if_neg (by simp [hd])]
      congr 1
      rw [← h, List.map_map]
      refine List.map_congr_left fun u _ => ?_
      dsimp only [Function.comp]
      by_cases hp : u.prunable = true
      swap
      · simp [hp]
      · have a := divisibleWidth_smallest d u.num (by omega)
        have b := divisibleWidth_smallest d (divisibleWidth d u.num) (by omega)
        have e : divisibleWidth d (divisibleWidth d u.num) = divisibleWidth d u.num :=
          Nat.le_antisymm (b.2.2 _ a.1 (le_refl _)) b.2.1
        simp [hp, e]

/-- Units that the structure does not name are deployed complete; a structure naming a
unit the architecture does not have is refused. -/
theorem C95_deploy_missing (us : List Chan) : deploy (unpruned us) [] = .ok (unpruned us) ∧
    ∀ s, ∀ c ∈ s, c.1 ∉ us.map (·.name) → deploy us s = .error .key := by
  constructor
  · show Except.ok (static (unpruned us)) = _
    unfold static unpruned
    simp
  · intro s c hc h
    unfold deploy
    rw [setChoices_missing us s c hc h]

/-- The divisor 0 ends with a division by zero. -/
theorem C95_zero_fails (us : List Chan) (u : Chan) (hu : u ∈ us) (hp : u.prunable = true) :
    subModel 0 us = .error .zeroDivision := by
  unfold subModel makeDivisible
  rw [if_pos (by decide), if_pos]
  refine ⟨rfl, List.any_eq_true.2 ⟨{ u with num := u.kept }, List.mem_map.2 ⟨u, hu, rfl⟩, hp⟩⟩

/-- The built model is not initialised again, however often and wherever `init_weights`
is called, and the structure is saved exactly if the main process did so with a known
working directory. Missing: architectures that are no `BaseModel`, see `C95_init_violated`. -/
theorem C95_init_partial (s : Structure) (b : Built) (calls : List (Nat × Bool × Nat)) :
    (calls.foldl (fun b c => initWeights true c.1 c.2.1 c.2.2 s b) b).weights = b.weights ∧
    (calls.foldl (fun b c => initWeights true c.1 c.2.1 c.2.2 s b) b).saved =
      if ∃ c ∈ calls, c.1 = 0 ∧ c.2.1 = true then some s else b.saved := by
  induction calls generalizing b with
  | nil => simp
  | cons c cs ih =>
    rw [List.foldl_cons]
    obtain ⟨h1, h2⟩ := ih (initWeights true c.1 c.2.1 c.2.2 s b)
    rw [h1, h2]
    by_cases hc : c.1 = 0 ∧ c.2.1 = true
    · have e : initWeights true c.1 c.2.1 c.2.2 s b = { b with saved := some s } := by
        unfold initWeights
        rw [if_pos rfl, if_pos hc]
      rw [e]
      refine ⟨rfl, ?_⟩
      rw [ite_self, if_pos ⟨c, by simp, hc⟩]
    · have e : initWeights true c.1 c.2.1 c.2.2 s b = b := by
        unfold initWeights
        rw [if_pos rfl, if_neg hc]
      rw [e]
      refine ⟨rfl, ?_⟩
      by_cases h3 : ∃ d ∈ cs, d.1 = 0 ∧ d.2.1 = true
      · obtain ⟨d, hd, h4⟩ := h3
        rw [if_pos ⟨d, hd, h4⟩, if_pos ⟨d, List.mem_cons_of_mem _ hd, h4⟩]
      · rw [if_neg h3, if_neg]
        rintro ⟨d, hd, h4⟩
        rcases List.mem_cons.1 hd with h5 | h5
        · rw [h5] at h4; exact hc h4
        · exact h3 ⟨d, h5, h4⟩

/-- DISAGREEMENT: only a `BaseModel` is protected from being initialised again: another
architecture loses its weights when the runner initialises it, and its structure is never
saved. -/
theorem C95_init_violated (s : Structure) (b : Built) (rank : Nat) (dir : Bool) (w : Nat) (h : w ≠ b.weights) :
    (initWeights false rank dir w s b).weights ≠ b.weights ∧ (initWeights false rank dir w s b).saved = b.saved :=
  ⟨h, rfl⟩

example : initWeights false 0 true 7 [] ⟨3, none⟩ = ⟨7, none⟩ := by decide

end Verif.SubModel
