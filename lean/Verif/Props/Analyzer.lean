import Verif.Lemmas.Analyzer

namespace Verif.Analyzer
open Verif

/-! ## Property C91 -/

/-- A unit counts as prunable exactly if it has channels on both sides, every one of its channels belongs to a dynamic layer, to a
module without parameters, or is no placeholder of the model's inputs and outputs, and both sides have a dynamic layer. -/
theorem C91_prunable (inputs outputs : List Chan) :
    unitMutable inputs outputs = true ↔
      (∀ side ∈ [inputs, outputs], (∀ c ∈ side,
          (∀ m, c.module = some m → m.hasParams = false ∨ m.dynamic = true) ∧
          (c.module = none → c.name ≠ "input_placeholder" ∧ c.name ≠ "output_placeholder")) ∧
        ∃ c ∈ side, ∃ m, c.module = some m ∧ m.dynamic = true) := by
  have hm : ∀ c : Chan, c.mutable = true ↔ ((∀ m, c.module = some m → m.hasParams = false ∨ m.dynamic = true) ∧
      (c.module = none → c.name ≠ "input_placeholder" ∧ c.name ≠ "output_placeholder")) := by
    intro c
    unfold Chan.mutable
    cases hc : c.module with
    | some m => simp
    | none => simp
  have hd : ∀ c : Chan, c.dynamic = true ↔ ∃ m, c.module = some m ∧ m.dynamic = true := by
    intro c
    unfold Chan.dynamic
    cases hc : c.module with
    | some m => simp
    | none => simp
  have side : ∀ l : List Chan, ((traverse l false).1 = true ∧ (traverse l false).2 = true) ↔
      ((∀ c ∈ l, c.mutable = true) ∧ ∃ c ∈ l, c.dynamic = true) := by
    intro l
    rw [traverse_all]
    constructor
    · rintro ⟨h1, h2⟩
      exact ⟨h2, by simpa using (traverse_dyn l false h2).1 h1⟩
    · rintro ⟨h1, h2⟩
      exact ⟨(traverse_dyn l false h1).2 (.inr h2), h1⟩
  have hb : unitMutable inputs outputs = true ↔ (0 < outputs.length ∧ 0 < inputs.length) ∧
      ((traverse inputs false).1 = true ∧ (traverse inputs false).2 = true) ∧
      ((traverse outputs false).1 = true ∧ (traverse outputs false).2 = true) := by
    unfold unitMutable; simp only [Bool.and_eq_true, decide_eq_true_eq, and_assoc]
  rw [hb, side, side]
  simp only [List.mem_cons, List.not_mem_nil, or_false, forall_eq_or_imp, forall_eq, hm, hd]
  constructor
  · rintro ⟨_, h1, h2⟩; exact ⟨h1, h2⟩
  · rintro ⟨h1, h2⟩
    have h3 := h1
    have h4 := h2
    obtain ⟨_, c, hc, _⟩ := h3
    obtain ⟨_, c', hc', _⟩ := h4
    exact ⟨⟨List.length_pos_of_mem hc', List.length_pos_of_mem hc⟩, h1, h2⟩

example : unitMutable [⟨"conv2", some ⟨true, true⟩, 0, 8, false⟩, ⟨"relu", some ⟨false, false⟩, 0, 8, false⟩]
    [⟨"conv1", some ⟨true, true⟩, 0, 8, true⟩] = true := by decide +kernel

example : unitMutable [⟨"output_placeholder", none, 0, 8, false⟩, ⟨"conv2", some ⟨true, true⟩, 0, 8, false⟩]
    [⟨"conv1", some ⟨true, true⟩, 0, 8, true⟩] = false := by decide +kernel

/-- The check between the pruned and the unpruned model: the same nesting with the same keys, and tensors with as many
dimensions. -/
theorem C91_check (a b : Out) : sameShape a b = .ok () ↔ Supported a ∧ Supported b ∧ SameForm a b := sameShape_iff a b

example : ¬ SameForm (.seq [.tensor [1, 3]]) (.tensor [1, 3]) := by simp [SameForm]

/-- DISAGREEMENT: "the output has the same shape" is checked by the number of dimensions only: a model whose output loses channels
under pruning passes, so the units that make up its output are kept as prunable. -/
theorem C91_sizes_violated (a b : List Nat) (h : a.length = b.length) : sameShape (.tensor a) (.tensor b) = .ok () :=
  (sameShape_iff _ _).2 ⟨trivial, trivial, by rw [SameForm]; exact h⟩

example : sameShape (.tensor [1, 10]) (.tensor [1, 9]) = .ok () := C91_sizes_violated _ _ rfl

/-- DISAGREEMENT: if the output of the model in the first working mode holds anything besides tensors, lists and dictionaries (a
number, a data sample, `None`), every unit is reported as not prunable, without an error. -/
theorem C91_unsupported_fails {U : Type} (mutable : U → Bool) (units : List U) (fwd : String → Except Err (Option Out))
    (run : String → List U → Except Err Out) (t : Out) (h : fwd "loss" = .ok (some t)) (ht : ¬ Supported t) :
    analyse mutable units fwd run = .ok [] := by
  unfold analyse template
  rw [h]; dsimp only
  have hp : ∀ l, passes (run "loss") t l = false := by
    intro l
    cases hq : passes (run "loss") t l with
    | false => rfl
    | true => obtain ⟨_, _, hs, _⟩ := (passes_iff _ _ _).1 hq; exact absurd hs ht
  exact congrArg Except.ok (find_ind _ (fun _ r => r = []) rfl (fun l _ h => absurd h (by rw [hp]; simp)) (fun _ _ => rfl)
    (fun a b ra rb _ _ _ h1 h2 => by rw [h1, h2]; rfl) _ _ rfl)

example : analyse (fun _ : Nat => true) [1, 2] (fun _ => .ok (some (.dict [("loss", .other)]))) (fun _ _ => .ok (.dict [("loss", .other)])) =
    .ok [] := C91_unsupported_fails _ _ _ _ (.dict [("loss", .other)]) rfl (by simp [Supported, SupportedD])

/-- Every unit that works when it is pruned alone is kept; a unit is only kept together with a group of neighbours that works;
the order is kept. -/
theorem C91_kept {U : Type} [DecidableEq U] (run : List U → Except Err Out) (t : Out) (l : List U) :
    (findMutable (passes run t) l).Sublist l ∧
    (∀ u ∈ l, Works run t [u] → u ∈ findMutable (passes run t) l) ∧
    (∀ u ∈ findMutable (passes run t) l, ∃ g, g <:+: l ∧ u ∈ g ∧ Works run t g) := by
  refine find_ind (passes run t) (fun l r => r.Sublist l ∧ (∀ u ∈ l, Works run t [u] → u ∈ r) ∧
    ∀ u ∈ r, ∃ g, g <:+: l ∧ u ∈ g ∧ Works run t g) ?_ ?_ ?_ ?_ _ l rfl
  · simp
  · exact fun l _ h => ⟨List.Sublist.refl _, fun u hu _ => hu, fun u hu => ⟨l, List.infix_rfl, hu, (passes_iff _ _ _).1 h⟩⟩
  · intro u h
    refine ⟨by simp, fun v hv hw => ?_, by simp⟩
    rw [List.mem_singleton.1 hv, ← passes_iff, h] at hw; cases hw
  · rintro a b ra rb _ _ _ ⟨h1, h2, h3⟩ ⟨h4, h5, h6⟩
    refine ⟨h1.append h4, ?_, ?_⟩
    · intro u hu hw
      rcases List.mem_append.1 hu with hu | hu
      · exact List.mem_append.2 (.inl (h2 u hu hw))
      · exact List.mem_append.2 (.inr (h5 u hu hw))
    · intro u hu
      rcases List.mem_append.1 hu with hu | hu
      · obtain ⟨g, hg, h⟩ := h3 u hu; exact ⟨g, hg.trans (List.prefix_append a b).isInfix, h⟩
      · obtain ⟨g, hg, h⟩ := h6 u hu; exact ⟨g, hg.trans (List.suffix_append a b).isInfix, h⟩

example : Works (fun l : List Nat => if 3 ∈ l then .error .runtime else .ok (.tensor [1, 8])) (.tensor [1, 9]) [2] :=
  ⟨.tensor [1, 8], rfl, trivial, trivial, rfl⟩

/-- If units do not interact (a group works exactly if each of its units works alone), the kept units are exactly those that
work, and they work together. Missing: units that interact, see `C91_together_violated`. -/
theorem C91_independent_partial {U : Type} (run : List U → Except Err Out) (t : Out) (l : List U)
    (hi : ∀ g, g ≠ [] → (Works run t g ↔ ∀ u ∈ g, Works run t [u])) :
    (∀ u, u ∈ findMutable (passes run t) l ↔ u ∈ l ∧ Works run t [u]) ∧
    (findMutable (passes run t) l ≠ [] → Works run t (findMutable (passes run t) l)) := by
  have key := find_ind (passes run t) (fun l r => ∀ u, u ∈ r ↔ u ∈ l ∧ Works run t [u]) (by simp)
    (fun l hl h u => ⟨fun hu => ⟨hu, (hi l hl).1 ((passes_iff _ _ _).1 h) u hu⟩, fun h => h.1⟩)
    (fun u h v => ⟨by simp, fun ⟨hv, hw⟩ => by rw [List.mem_singleton.1 hv, ← passes_iff, h] at hw; cases hw⟩)
    (fun a b ra rb _ _ _ h1 h2 u => by rw [List.mem_append, List.mem_append, h1, h2]; tauto) _ l rfl
  exact ⟨key, fun hn => (hi _ hn).2 fun u hu => ((key u).1 hu).2⟩

/-- A model in which only unit 3 cannot be pruned. -/
example : ∀ g : List Nat, g ≠ [] → (Works (fun l => if 3 ∈ l then .error .runtime else .ok (.tensor [1])) (.tensor [1]) g ↔
    ∀ u ∈ g, Works (fun l => if 3 ∈ l then .error .runtime else .ok (.tensor [1])) (.tensor [1]) [u]) := by
  have h : ∀ g : List Nat, Works (fun l => if 3 ∈ l then .error .runtime else .ok (.tensor [1])) (.tensor [1]) g ↔ 3 ∉ g := by
    intro g
    unfold Works
    by_cases hg : 3 ∈ g
    · simp [hg]
    · simp only [hg, if_false]
      exact ⟨fun _ => by simp, fun _ => ⟨_, rfl, by rw [Supported]; trivial, by rw [Supported]; trivial, by rw [SameForm]⟩⟩
  intro g _
  rw [h]
  constructor
  · intro hg u hu
    rw [h, List.mem_singleton]
    exact fun e => hg (e ▸ hu)
  · intro hg h3
    have := (h [3]).1 (hg 3 h3)
    simp at this

/-- DISAGREEMENT: two units that work alone but not together are both reported as prunable: the reported units need not
work together. -/
theorem C91_together_violated {U : Type} (run : List U → Except Err Out) (t : Out) (a b : U) (ha : Works run t [a])
    (hb : Works run t [b]) (hab : ¬ Works run t [a, b]) :
    findMutable (passes run t) [a, b] = [a, b] ∧ ¬ Works run t (findMutable (passes run t) [a, b]) := by
  have e : findMutable (passes run t) [a, b] = [a, b] := by
    rw [find_split _ _ (by rw [← Bool.not_eq_true, passes_iff]; exact hab) (by simp)]
    rw [show [a, b].take ([a, b].length / 2) = [a] by simp, show [a, b].drop ([a, b].length / 2) = [b] by simp]
    rw [find_pass _ _ ((passes_iff _ _ _).2 ha), find_pass _ _ ((passes_iff _ _ _).2 hb)]; rfl
  exact ⟨e, by rw [e]; exact hab⟩

example : findMutable (passes (fun l : List Nat => if l.length = 1 then .ok (.tensor [1]) else .error .runtime) (.tensor [1])) [4, 5] = [4, 5] :=
  (C91_together_violated _ (.tensor [1]) 4 5 ⟨.tensor [1], rfl, trivial, trivial, rfl⟩ ⟨.tensor [1], rfl, trivial, trivial, rfl⟩
    (fun ⟨_, h, _⟩ => by simp at h)).1

/-- A tried unit of at least two channels really loses some, and keeps at least one, whatever was drawn. Missing: units of one
channel, see `C91_single_violated`. -/
theorem C91_trial_partial (n : Nat) (s : ℚ) (hn : 2 ≤ n) : 1 ≤ ratio2num n (trialRatio s) ∧ ratio2num n (trialRatio s) < n := by
  unfold ratio2num
  refine ⟨le_max_left _ _, max_lt (by omega) ?_⟩
  have h9 : trialRatio s ≤ 9 / 10 := min_le_right _ _
  have h1 : 1 / 10 ≤ trialRatio s := le_min (le_max_left _ _) (by norm_num)
  have hn' : (2 : ℚ) ≤ n := by exact_mod_cast hn
  have hpos : (0 : ℚ) ≤ n * trialRatio s := by positivity
  have hlt : (n : ℚ) * trialRatio s < n := by nlinarith
  have : pyInt (n * trialRatio s) < (n : Int) := by
    unfold pyInt
    rw [if_pos hpos]
    exact Int.floor_lt.2 (by exact_mod_cast hlt)
  omega

example : ratio2num 16 (trialRatio (1 / 2)) = 8 := by decide +kernel

/-- Any drawn number of channels is tried as nine tenths of the channels: the drawn number has no influence. -/
theorem C91_trial_number (n s : Nat) (hs : 1 ≤ s) : ratio2num n (trialRatio s) = max 1 (pyInt (n * (9 / 10 : ℚ))).toNat := by
  unfold ratio2num trialRatio
  have : (1 : ℚ) ≤ s := by exact_mod_cast hs
  rw [show max (1 / 10 : ℚ) s = s from max_eq_right (by linarith), show min (s : ℚ) (9 / 10) = 9 / 10 from min_eq_right (by linarith)]

example : ratio2num 64 (trialRatio 3) = 57 := by decide +kernel

/-- DISAGREEMENT: a unit with a single channel is tried with all its channels: it is reported as prunable without having been
tried. -/
theorem C91_single_violated (s : ℚ) : ratio2num 1 (trialRatio s) = 1 := by
  unfold ratio2num
  have h9 : trialRatio s ≤ 9 / 10 := min_le_right _ _
  have h1 : 1 / 10 ≤ trialRatio s := le_min (le_max_left _ _) (by norm_num)
  have : pyInt ((1 : Nat) * trialRatio s) = 0 := by
    unfold pyInt
    have e : ((1 : Nat) : ℚ) * trialRatio s = trialRatio s := by norm_num
    rw [e, if_pos (by linarith)]
    exact Int.floor_eq_iff.2 ⟨by push_cast; linarith, by push_cast; linarith⟩
  rw [this]; rfl

/-- The template is the output of the first of the modes `loss`, `tensor` and `predict` that does not fail; the kept units are
taken from the prunable ones, in that mode. -/
theorem C91_template {U : Type} (mutable : U → Bool) (units : List U) (fwd : String → Except Err (Option Out))
    (run : String → List U → Except Err Out) (r : List U) (h : analyse mutable units fwd run = .ok r) :
    ∃ pre m post t, ["loss", "tensor", "predict"] = pre ++ m :: post ∧ (∀ p ∈ pre, ∃ e, fwd p = .error e) ∧ fwd m = .ok (some t) ∧
      r.Sublist (units.filter mutable) ∧ ∀ u ∈ units, mutable u = true → Works (run m) t [u] → u ∈ r := by
  classical
  have ht : ∀ (l : List String) m o, template fwd l = some (m, o) → ∃ pre post, l = pre ++ m :: post ∧ (∀ p ∈ pre, ∃ e, fwd p = .error e) ∧
      fwd m = .ok o := by
    intro l
    induction l with
    | nil => intro m o h; cases h
    | cons a l ih =>
      intro m o h
      unfold template at h
      cases hf : fwd a with
      | ok o' => rw [hf] at h; cases h; exact ⟨[], l, rfl, by simp, hf⟩
      | error e =>
        rw [hf] at h
        obtain ⟨pre, post, h1, h2, h3⟩ := ih m o h
        refine ⟨a :: pre, post, by rw [h1]; rfl, ?_, h3⟩
        intro p hp
        rcases List.mem_cons.1 hp with rfl | hp
        · exact ⟨e, hf⟩
        · exact h2 p hp
  unfold analyse at h
  generalize hq : template fwd ["loss", "tensor", "predict"] = q at h
  match q, h with
  | none, h => cases h
  | some (_, none), h => cases h
  | some (m, some t), h =>
    cases h
    obtain ⟨pre, post, h1, h2, h3⟩ := ht _ _ _ hq
    obtain ⟨k1, k2, _⟩ := C91_kept (run m) t (units.filter mutable)
    exact ⟨pre, m, post, t, h1, h2, h3, k1, fun u hu hm hw => k2 u (List.mem_filter.2 ⟨hu, hm⟩) hw⟩

example : template (fun m => if m = "loss" then .error .key else .ok (some (.tensor [1]))) ["loss", "tensor", "predict"] =
    some ("tensor", some (.tensor [1])) := by simp [template]

/-- DISAGREEMENT: a model that returns `None` in its loss mode cannot be analysed, though the later modes would work. -/
theorem C91_none_fails {U : Type} (mutable : U → Bool) (units : List U) (fwd : String → Except Err (Option Out))
    (run : String → List U → Except Err Out) (h : fwd "loss" = .ok none) : analyse mutable units fwd run = .error .runtime := by
  unfold analyse template
  rw [h]

/-- After the channels of a unit are registered, every dynamic layer among them has the unit at its place, nothing registered before
has changed, and doing it again changes nothing. -/
theorem C91_registered (unit n : Nat) (hn : 0 < n) (l : List Chan) (k k' : Store) (h : registerAll unit n l k = .ok k') :
    (∃ e, k' = k ++ e) ∧ (∀ c ∈ l, c.dynamic = true → ∃ r, k'.lookup c.key = some r ∧ r.unit = unit) ∧
    registerAll unit n l k' = .ok k' := by
  obtain ⟨h1, h2⟩ := registerAll_spec unit n l k k' h
  refine ⟨h1, fun c hc hd => (h2 c hc hd).2, registerAll_again unit n k' l fun c hc hd => ?_⟩
  obtain ⟨a, b⟩ := h2 c hc hd
  exact ⟨a, by omega, b⟩

example : registerAll 7 4 [⟨"fc", some ⟨true, true⟩, 0, 8, false⟩, ⟨"relu", some ⟨false, false⟩, 0, 4, false⟩] [] =
    .ok [(("fc", false, 0, 8), ⟨7, 2, 1⟩)] := by rfl

/-- A new place is filled with the channels of the unit, each repeated as often as the layer has channels per channel of the
unit. -/
theorem C91_expanded (unit n : Nat) (hn : 0 < n) (c : Chan) (k : Store) (hd : c.dynamic = true) (hk : k.lookup c.key = none)
    (hm : n ≤ c.stop - c.start) :
    ∃ r, registerOne unit n k c = .ok (k ++ [(c.key, r)]) ∧ r.unit = unit ∧ n * r.num = (c.stop - c.start) * r.den := by
  unfold registerOne
  rw [if_pos hd]; dsimp only; rw [if_neg (by omega), if_neg (by omega), hk]
  refine ⟨_, rfl, ?_⟩
  by_cases h1 : c.stop - c.start = n
  · rw [if_pos h1]; exact ⟨rfl, by rw [h1]⟩
  · rw [if_neg h1]
    by_cases h2 : (c.stop - c.start) % n = 0
    · rw [if_pos h2]; exact ⟨rfl, by show n * ((c.stop - c.start) / n) = (c.stop - c.start) * 1; rw [Nat.mul_div_cancel' (Nat.dvd_of_mod_eq_zero h2), Nat.mul_one]⟩
    · rw [if_neg h2]; exact ⟨rfl, Nat.mul_comm _ _⟩

/-- A layer with fewer channels than the unit, and a place that another unit holds, are refused. -/
theorem C91_refused (unit n : Nat) (hn : 0 < n) (c : Chan) (l : List Chan) (k : Store) (hd : c.dynamic = true) :
    (c.stop - c.start < n → registerAll unit n (c :: l) k = .error .notImplemented) ∧
    (n ≤ c.stop - c.start → ∀ r, k.lookup c.key = some r → r.unit ≠ unit → registerAll unit n (c :: l) k = .error .assertion) := by
  constructor
  · intro h
    rw [registerAll]; unfold registerOne
    rw [if_pos hd]; dsimp only; rw [if_pos h]
  · intro h r hr hu
    rw [registerAll]; unfold registerOne
    rw [if_pos hd]; dsimp only; rw [if_neg (by omega), if_neg (by omega), hr]; dsimp only; rw [if_neg hu]

example : registerAll 7 4 [⟨"fc", some ⟨true, true⟩, 0, 8, false⟩] [(("fc", false, 0, 8), ⟨6, 2, 1⟩)] = .error .assertion := by rfl

/-- The kind of demo input: a known scope decides; otherwise the first matching class of the model, in the order detector,
classifier, segmentor, pose estimator, any OpenMMLab model; plain tensors for everything else. -/
theorem C91_generator (is : Class → Bool) :
    (∀ p ∈ [("mmcls", Gen.cls), ("mmdet", .det), ("mmseg", .seg), ("mmrotate", .rotate), ("mmyolo", .yolo), ("mmpose", .pose),
        ("torchvision", .base)], genOf is (some p.1) = p.2) ∧
    (∀ s, s ∉ ["mmcls", "mmdet", "mmseg", "mmrotate", "mmyolo", "mmpose", "torchvision"] → genOf is (some s) = genOf is none) ∧
    (is .detector = true → genOf is none = .det) ∧
    (is .detector = false → is .classifier = true → genOf is none = .cls) ∧
    (is .detector = false → is .classifier = false → is .segmentor = true → genOf is none = .seg) ∧
    (is .detector = false → is .classifier = false → is .segmentor = false → is .topdown = true → genOf is none = .pose) ∧
    (is .detector = false → is .classifier = false → is .segmentor = false → is .topdown = false → is .baseModel = true →
      genOf is none = .mm) ∧
    (is .detector = false → is .classifier = false → is .segmentor = false → is .topdown = false → is .baseModel = false →
      genOf is none = .base) := by
  refine ⟨?_, ?_, ?_, ?_, ?_, ?_, ?_, ?_⟩
  · intro p h
    simp only [List.mem_cons, List.not_mem_nil, or_false] at h
    rcases h with rfl | rfl | rfl | rfl | rfl | rfl | rfl <;> rfl
  · intro s h
    unfold genOf; dsimp only
    have : scopes.lookup s = none := by
      cases hl : scopes.lookup s with
      | none => rfl
      | some g =>
        exfalso
        obtain ⟨l1, l2, he, _⟩ := List.lookup_eq_some_iff.1 hl
        have hm : s ∈ scopes.map Prod.fst := List.mem_map.2 ⟨(s, g), by rw [he]; simp, rfl⟩
        exact h hm
    rw [this]
  · intro h; simp [genOf, byClass, classes, h]
  · intro h1 h2; simp [genOf, byClass, classes, h1, h2]
  · intro h1 h2 h3; simp [genOf, byClass, classes, h1, h2, h3]
  · intro h1 h2 h3 h4; simp [genOf, byClass, classes, h1, h2, h3, h4]
  · intro h1 h2 h3 h4 h5; simp [genOf, byClass, classes, h1, h2, h3, h4, h5]
  · intro h1 h2 h3 h4 h5
    simp [genOf, byClass, classes, h1, h2, h3, h4, h5]

/-- Demo inputs have the requested shape and flag, for plain and OpenMMLab models, for classifiers with a batch of at most four and a
shape of four numbers, and for detectors with a batch of one. Missing: other models, batches and shapes, see `C91_batch_fails`,
`C91_detector_batch_violated`, `C91_pose_violated` and `C91_segmentor_violated`. -/
theorem C91_data_partial (d : Demo) (is : Class → Bool) (i : Info) (b c h w : Nat) (training : Bool)
    (hg : genOf is d.scope = .base ∨ genOf is d.scope = .mm ∨ (genOf is d.scope = .cls ∧ b ≤ 4) ∨
      ((genOf is d.scope = .det ∨ genOf is d.scope = .yolo) ∧ is .detector = true ∧ b = 1) ∨ (genOf is d.scope = .rotate ∧ b = 1)) :
    ∃ r, d.get is i (some [b, c, h, w]) (some training) = .ok r ∧ r.shape = [b, c, h, w] ∧ r.training = training := by
  unfold Demo.get
  rcases hg with hg | hg | ⟨hg, hb⟩ | ⟨hg | hg, hd, hb⟩ | ⟨hg, hb⟩
  · rw [hg]; exact ⟨_, rfl, rfl, rfl⟩
  · rw [hg]; exact ⟨_, rfl, rfl, rfl⟩
  · rw [hg]
    refine ⟨⟨[b, c, h, w], some b, training⟩, ?_, rfl, rfl⟩
    show (if 3 + 1 < b then _ else _) = _
    rw [if_neg (by omega)]; rfl
  · rw [hg]; refine ⟨⟨[1, c, h, w], some 1, training⟩, ?_, by rw [hb], rfl⟩
    show (if is .detector = true then _ else _) = _
    rw [if_pos hd]; rfl
  · rw [hg]; refine ⟨⟨[1, c, h, w], some 1, training⟩, ?_, by rw [hb], rfl⟩
    show (if is .detector = true then _ else _) = _
    rw [if_pos hd]; rfl
  · rw [hg]; exact ⟨⟨[1, c, h, w], some 1, training⟩, rfl, by rw [hb], rfl⟩

example : (Demo.new none false (some "mmcls")).get (fun _ => false) ⟨0, []⟩ (some [2, 3, 32, 32]) (some true) =
    .ok ⟨[2, 3, 32, 32], some 2, true⟩ := by rfl

/-- DISAGREEMENT: a classifier cannot get a demo batch of more than four images: the code indexes the shape by the number of the
image. -/
theorem C91_batch_fails (d : Demo) (is : Class → Bool) (i : Info) (b c h w : Nat) (training : Option Bool)
    (hg : genOf is d.scope = .cls) (hb : 4 < b) : d.get is i (some [b, c, h, w]) training = .error .index := by
  unfold Demo.get
  rw [hg]
  show (if 3 + 1 < b then _ else _) = _
  rw [if_pos (by omega)]

example : genOf (fun c => c = .classifier) none = .cls := by decide +kernel

/-- DISAGREEMENT: a detector gets one image whatever batch is asked for. -/
theorem C91_detector_batch_violated (d : Demo) (is : Class → Bool) (i : Info) (b c h w : Nat) (training : Option Bool)
    (hg : genOf is d.scope = .det) (hi : is .detector = true) (hb : b ≠ 1) :
    ∃ r, d.get is i (some [b, c, h, w]) training = .ok r ∧ r.shape ≠ [b, c, h, w] := by
  unfold Demo.get
  rw [hg]
  refine ⟨⟨[1, c, h, w], some 1, training.getD d.training⟩, ?_, by simp; exact fun h => hb h.symm⟩
  show (if is .detector = true then _ else _) = _
  rw [if_pos hi]; rfl

/-- DISAGREEMENT: the shape asked for a pose estimator is passed as the training flag: its inputs always have the size of the
model's decoder, and are always prepared for training. -/
theorem C91_pose_violated (d : Demo) (is : Class → Bool) (i : Info) (shape : List Nat) (hs : shape ≠ []) (training : Option Bool)
    (hg : genOf is d.scope = .pose) (hi : is .topdown = true) :
    d.get is i (some shape) training = .ok ⟨1 :: 3 :: i.poseSize, some 1, true⟩ := by
  unfold Demo.get
  rw [hg]
  show (if is .topdown = true then _ else _) = _
  rw [if_pos hi]
  cases shape with
  | nil => exact absurd rfl hs
  | cons a l => rfl

example : (Demo.new none false none).get (fun c => c = .topdown) ⟨0, [192, 256]⟩ (some [4, 3, 64, 64]) (some false) =
    .ok ⟨[1, 3, 192, 256], some 1, true⟩ := by rfl

/-- DISAGREEMENT: inputs of a segmentor are never prepared for training, and a segmentor with one class gets none at all. -/
theorem C91_segmentor_violated (d : Demo) (is : Class → Bool) (i : Info) (b c h w : Nat) (hg : genOf is d.scope = .seg)
    (hi : is .segmentor = true) :
    (2 ≤ i.numClasses → d.get is i (some [b, c, h, w]) (some true) = .ok ⟨[b, c, h, w], some b, false⟩) ∧
    (i.numClasses = 1 → d.get is i (some [b, c, h, w]) (some true) = .error .runtime) := by
  unfold Demo.get
  rw [hg]
  constructor
  · intro hn
    show (if is .segmentor = true then (if i.numClasses ≤ 1 then _ else _) else _) = _
    rw [if_pos hi, if_neg (by omega)]; rfl
  · intro hn
    show (if is .segmentor = true then (if i.numClasses ≤ 1 then _ else _) else _) = _
    rw [if_pos hi, if_pos (by omega)]

/-- DISAGREEMENT: calling a configured demo input ignores the configured shape and training flag. -/
theorem C91_call_violated (d e : Demo) (is : Class → Bool) (i : Info) (h : d.scope = e.scope) : d.call is i = e.call is i := by
  unfold Demo.call Demo.get
  rw [h]; rfl

example : (Demo.new (some [2, 3, 32, 32]) true none).call (fun _ => false) ⟨0, []⟩ = .ok ⟨[1, 3, 224, 224], none, false⟩ := by rfl

/-- Without a shape, a configured demo input uses its configured one; without that, the default of its scope. -/
theorem C91_default (is : Class → Bool) (i : Info) (shape : Option (List Nat)) (training : Bool) (scope : Option String) :
    (Demo.new shape training scope).get is i none none =
      (Demo.new shape training scope).get is i
        (some (match shape with
          | some s => s
          | none => if scope = some "mmyolo" then [1, 3, 125, 320] else [1, 3, 224, 224])) (some training) := by
  have hs : (Demo.new shape training scope).shape = (match shape with
          | some s => s
          | none => if scope = some "mmyolo" then [1, 3, 125, 320] else [1, 3, 224, 224]) := by
    cases shape with
    | some s => rfl
    | none =>
      show (genOf (fun _ => false) scope).defaultShape = if scope = some "mmyolo" then [1, 3, 125, 320] else [1, 3, 224, 224]
      obtain ⟨h1, h2, _, _, _, _, _, h8⟩ := C91_generator (fun _ => false)
      cases scope with
      | none => rw [h8 rfl rfl rfl rfl rfl]; rfl
      | some s =>
        by_cases hk : s ∈ ["mmcls", "mmdet", "mmseg", "mmrotate", "mmyolo", "mmpose", "torchvision"]
        · simp only [List.mem_cons, List.not_mem_nil, or_false] at hk
          rcases hk with rfl | rfl | rfl | rfl | rfl | rfl | rfl <;> rfl
        · rw [h2 s hk, h8 rfl rfl rfl rfl rfl, if_neg]
          · rfl
          · intro h
            cases h
            exact hk (by simp)
  unfold Demo.get
  rw [← hs]; rfl

/-- Which places of a unit are refused, and with which error: a dynamic layer with fewer channels than the unit
(NotImplementedError), any channels for a unit without channels (ZeroDivisionError), and a place that already belongs to
another unit (AssertionError). Layers that are not dynamic are never refused. -/
theorem C91_register_refused (unit n : Nat) (k : Store) (c : Chan) (e : Err) :
    registerOne unit n k c = .error e ↔ c.dynamic = true ∧
      ((c.stop - c.start < n ∧ e = .notImplemented) ∨
        (n = 0 ∧ c.start < c.stop ∧ e = .zeroDivision) ∨
        (n ≤ c.stop - c.start ∧ (n = 0 → c.stop ≤ c.start) ∧ e = .assertion ∧
          ∃ r, k.lookup (c.name, c.isOutput, c.start, c.stop) = some r ∧ r.unit ≠ unit)) := by
  unfold registerOne Chan.key
  by_cases hd : c.dynamic = true
  · simp only [hd, if_true, true_and]
    by_cases h1 : c.stop - c.start < n
    · rw [if_pos h1]
      constructor
      · intro h
        cases h
        exact Or.inl ⟨h1, rfl⟩
      · rintro (⟨-, rfl⟩ | ⟨h2, -⟩ | ⟨h2, -⟩)
        · rfl
        · omega
        · omega
    · rw [if_neg h1]
      by_cases h2 : c.stop - c.start ≠ n ∧ n = 0
      · rw [if_pos h2]
        constructor
        · intro h
          cases h
          exact Or.inr (Or.inl ⟨h2.2, by omega, rfl⟩)
        · rintro (⟨h3, -⟩ | ⟨-, -, rfl⟩ | ⟨-, h3, -⟩)
          · omega
          · rfl
          · have := h3 h2.2
            omega
      · rw [if_neg h2]
        cases hl : k.lookup (c.name, c.isOutput, c.start, c.stop) with
        | none =>
          constructor
          · intro h
            cases h
          · rintro (⟨h3, -⟩ | ⟨h3, h4, -⟩ | ⟨-, -, -, r, h5, -⟩)
            · omega
            · omega
            · cases h5
        | some r =>
          dsimp only
          by_cases hr : r.unit = unit
          · rw [if_pos hr]
            constructor
            · intro h
              cases h
            · rintro (⟨h3, -⟩ | ⟨h3, h4, -⟩ | ⟨-, -, -, r, h5, h6⟩)
              · omega
              · omega
              · cases h5
                exact absurd hr h6
          · rw [if_neg hr]
            constructor
            · intro h
              cases h
              exact Or.inr (Or.inr ⟨by omega, by omega, rfl, r, rfl, hr⟩)
            · rintro (⟨h3, -⟩ | ⟨h3, h4, -⟩ | ⟨-, -, rfl, -⟩)
              · omega
              · omega
              · rfl
  · simp [hd]

example : registerOne 1 0 [] ⟨"conv", some ⟨true, true⟩, 0, 4, true⟩ = .error .zeroDivision := by decide +kernel

/-- Which demo inputs are refused, and with which error: models of another class by the generators of detectors,
segmentors and pose models (AssertionError), batches of classifiers that are empty or larger than the number of dimensions
(IndexError), shapes of segmentors without four dimensions (ValueError) and segmentors of at most one class
(RuntimeError). -/
theorem C91_data_refused (g : Gen) (is : Class → Bool) (i : Info) (shape : List Nat) (training : Bool) (e : Err) :
    g.data is i shape training = .error e ↔
      (g = .cls ∧ (∀ n, shape.head? = some n → shape.length < n) ∧ e = .index) ∨
      ((g = .det ∨ g = .yolo) ∧ is .detector = false ∧ e = .assertion) ∨
      (g = .seg ∧ is .segmentor = false ∧ e = .assertion) ∨
      (g = .pose ∧ is .topdown = false ∧ e = .assertion) ∨
      (g = .seg ∧ is .segmentor = true ∧ shape.length ≠ 4 ∧ e = .value) ∨
      (g = .seg ∧ is .segmentor = true ∧ shape.length = 4 ∧ i.numClasses ≤ 1 ∧ e = .runtime) := by
  cases g <;> simp only [Gen.data, reduceCtorEq, false_and, or_false, false_or, true_and, or_self, or_true]
  case cls =>
    cases shape with
    | nil => simp [eq_comm]
    | cons n r =>
      by_cases h : r.length + 1 < n
      · simp [h, eq_comm]
      · simp [h]
  case det => cases h : is .detector <;> simp [eq_comm]
  case yolo => cases h : is .detector <;> simp [eq_comm]
  case pose => cases h : is .topdown <;> simp [eq_comm]
  case seg =>
    cases h : is .segmentor
    · simp [eq_comm]
    · match shape with
      | [] => simp [eq_comm]
      | [_] => simp [eq_comm]
      | [_, _] => simp [eq_comm]
      | [_, _, _] => simp [eq_comm]
      | [_, _, _, _] =>
        by_cases hn : i.numClasses ≤ 1
        · simp [hn, eq_comm]
        · simp [hn]
      | _ :: _ :: _ :: _ :: _ :: _ => simp [eq_comm]

end Verif.Analyzer
