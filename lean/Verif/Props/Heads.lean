import Verif.Lemmas.Heads

namespace Verif.Heads
open Verif

/-! ## Property C105 -/

/-- The pseudo loss of any nested output is the sum of the entries of all tensors inside it, each
counted once, whatever lists, tuples and dictionaries they are wrapped in; it fails (with a
NotImplementedError) exactly if something else than a tensor or a container lies somewhere inside. -/
theorem C105_sum (x : Out) :
    ((∃ ℓ, sumOf x = .ok ℓ) ↔ ¬ Part x .other) ∧
    (∀ e, sumOf x = .error e → e = .notImplemented) ∧
    (∀ ℓ, sumOf x = .ok ℓ → ∃ l : List (Nat × List Int),
      (∀ n e, (n, e) ∈ l ↔ Part x (.tensor n e)) ∧ l = tensorsOf x ∧
      ℓ.value = (l.map fun p => p.2.sum).sum ∧ ℓ.tensors = l.map (·.1)) := by
  rcases sumOf_spec x with ⟨h1, h2⟩ | ⟨h1, h2⟩
  · refine ⟨⟨fun _ => h1, fun _ => ⟨_, h2⟩⟩, ?_, ?_⟩
    · intro e he; rw [h2] at he; cases he
    · intro ℓ hl
      rw [h2] at hl; cases hl
      exact ⟨tensorsOf x, fun n e => mem_tensorsOf x n e, rfl, rfl, rfl⟩
  · refine ⟨⟨fun ⟨ℓ, hl⟩ => absurd (h2 ▸ hl) (by intro hc; cases hc), fun h => absurd h1 h⟩, ?_, ?_⟩
    · intro e he; rw [h2] at he; cases he; rfl
    · intro ℓ hl; rw [h2] at hl; cases hl

example : sumOf (.dict [("a", .tensor 1 [2, 3]), ("b", .tuple [.list [], .tensor 2 [5]])]) =
    .ok { value := 10, tensors := [1, 2] } := by rfl

/-- Walking back from the pseudo loss reaches every tensor of the output, and it can be walked as soon
as there is one. -/
theorem C105_backward (x : Out) (ℓ : Loss) (h : sumOf x = .ok ℓ) (n : Nat) (e : List Int)
    (hp : Part x (.tensor n e)) : ∃ l, backward ℓ = .ok l ∧ ∀ m, m ∈ l ↔ ∃ f, Part x (.tensor m f) := by
  rcases sumOf_spec x with ⟨_, h2⟩ | ⟨_, h2⟩
  · rw [h2] at h; cases h
    have hm := (mem_tensorsOf x n e).2 hp
    refine ⟨(tensorsOf x).map (·.1), ?_, ?_⟩
    · unfold backward
      rw [if_neg]
      intro h
      dsimp only at h
      rw [List.map_eq_nil_iff] at h
      rw [h] at hm; cases hm
    · intro m
      rw [List.mem_map]
      constructor
      · rintro ⟨⟨a, f⟩, ha, rfl⟩; exact ⟨f, (mem_tensorsOf x a f).1 ha⟩
      · rintro ⟨f, hf⟩; exact ⟨(m, f), (mem_tensorsOf x m f).2 hf, rfl⟩
  · rw [h2] at h; cases h

example : backward { value := 10, tensors := [1, 2] } = .ok [1, 2] := by rfl

/-- DISAGREEMENT: an output without any tensor (an empty list, a dictionary of empty tuples) does not
fail as an unsupported output: the pseudo loss is the number zero and the walk back from it stops with
an AttributeError. -/
theorem C105_empty_violated (x : Out) (h : ¬ Part x .other) (ht : ∀ n e, ¬ Part x (.tensor n e)) :
    sumOf x = .ok { value := 0, tensors := [] } ∧ backward { value := 0, tensors := [] } = .error .attribute := by
  have : tensorsOf x = [] := by
    rw [List.eq_nil_iff_forall_not_mem]
    rintro ⟨n, e⟩ hm
    exact ht n e ((mem_tensorsOf x n e).1 hm)
  rcases sumOf_spec x with ⟨_, h2⟩ | ⟨h1, _⟩
  · rw [this] at h2; exact ⟨h2, rfl⟩
  · exact absurd h1 h

example : sumOf (.tuple [.list [], .dict [("k", .tuple [])]]) = .ok { value := 0, tensors := [] } := by rfl

/-- DISAGREEMENT: computing the pseudo loss does not restore the modes of the modules: a model in
training mode is in evaluation mode afterwards, also if the loss fails. -/
theorem C105_mode_violated (modes : List Bool) (run : List Bool → Out) (h : true ∈ modes) :
    (pseudoLoss modes run).1 ≠ modes ∧ (∀ b ∈ (pseudoLoss modes run).1, b = false) ∧
    (pseudoLoss modes run).1.length = modes.length := by
  have hall : ∀ b ∈ (pseudoLoss modes run).1, b = false := by
    intro b hb
    simp only [pseudoLoss, List.mem_map] at hb
    obtain ⟨_, _, rfl⟩ := hb
    rfl
  refine ⟨?_, hall, by simp [pseudoLoss]⟩
  intro he
  have := hall true (by rw [he]; exact h)
  cases this

example : (pseudoLoss [true, false] fun _ => .other) = ([false, false], .error .notImplemented) := by rfl

/-- The targets of a batch: the labels of all samples if the first has no scores, the scores of all
samples (of one length) if it has. -/
theorem C105_targets (samples : List Sample) :
    (∀ l, targets samples = .ok (.labels l) ↔
      (∃ s r, samples = s :: r ∧ s.score = none) ∧ samples.map Sample.label = l.map some) ∧
    (∀ l, targets samples = .ok (.scores l) ↔
      (∃ s r, samples = s :: r ∧ s.score.isSome = true) ∧ samples.map Sample.score = l.map some ∧ ∃ n : Nat, ∀ x ∈ l, x.length = n) := by
  cases samples with
  | nil => simp [targets]
  | cons s r =>
    rw [targets]
    by_cases hs : s.score.isSome = true
    · rw [if_pos hs]
      constructor
      · intro l
        constructor
        · intro h
          cases hr : readAll Sample.score (s :: r) with
          | error e => rw [hr] at h; cases h
          | ok u =>
            rw [hr] at h; dsimp only at h
            split at h <;> cases h
        · rintro ⟨⟨a, b, hab, hn⟩, _⟩
          cases hab
          rw [hn] at hs; cases hs
      · intro l
        constructor
        · intro h
          cases hr : readAll Sample.score (s :: r) with
          | error e => rw [hr] at h; cases h
          | ok u =>
            rw [hr] at h; dsimp only at h
            split at h
            · rename_i hall
              cases h
              refine ⟨⟨s, r, rfl, hs⟩, (readAll_ok _ _ _).1 hr, (l.headD []).length, ?_⟩
              intro x hx
              exact eq_of_beq (List.all_eq_true.1 hall x hx)
            · cases h
        · rintro ⟨_, hm, n, hn⟩
          rw [(readAll_ok _ _ _).2 hm]
          dsimp only
          rw [if_pos]
          rw [List.all_eq_true]
          intro x hx
          cases l with
          | nil => cases hx
          | cons y t =>
            rw [beq_iff_eq, hn x hx, List.headD_cons, hn y List.mem_cons_self]
    · rw [if_neg hs]
      have hs' : s.score = none := by simpa using hs
      constructor
      · intro l
        constructor
        · intro h
          cases hr : readAll Sample.label (s :: r) with
          | error e => rw [hr] at h; cases h
          | ok u =>
            rw [hr] at h; dsimp only at h
            cases h
            exact ⟨⟨s, r, rfl, hs'⟩, (readAll_ok _ _ _).1 hr⟩
        · rintro ⟨_, hm⟩
          rw [(readAll_ok _ _ _).2 hm]
      · intro l
        constructor
        · intro h
          cases hr : readAll Sample.label (s :: r) with
          | error e => rw [hr] at h; cases h
          | ok u => rw [hr] at h; cases h
        · rintro ⟨⟨a, b, hab, hn⟩, _⟩
          cases hab
          exact absurd hn hs

example : targets [⟨some 1, none⟩, ⟨some 3, none⟩] = .ok (.labels [1, 3]) := by rfl

/-- DISAGREEMENT: the first sample decides for the batch: if it has no scores, the scores of all other
samples are ignored (their labels are the targets), and if it has, a sample with only a label stops the
step with an AttributeError. -/
theorem C105_mixed_violated (s : Sample) (r : List Sample) :
    (s.score = none → ∀ r', r'.map Sample.label = r.map Sample.label → targets (s :: r') = targets (s :: r)) ∧
    (s.score.isSome = true → (∃ x ∈ r, x.score = none) → targets (s :: r) = .error .attribute) := by
  constructor
  · intro hs r' hr'
    have hread : ∀ a b : List Sample, a.map Sample.label = b.map Sample.label →
        readAll Sample.label a = readAll Sample.label b := by
      intro a
      induction a with
      | nil => intro b hb; cases b with
        | nil => rfl
        | cons x y => cases hb
      | cons x y ih =>
        intro b hb
        cases b with
        | nil => cases hb
        | cons z w =>
          rw [List.map_cons, List.map_cons, List.cons.injEq] at hb
          rw [readAll, readAll, hb.1, ih w hb.2]
    rw [targets, targets, hs]
    rw [hread (s :: r') (s :: r) (by rw [List.map_cons, List.map_cons, hr'])]
    rfl
  · rintro hs ⟨x, hx, hn⟩
    rw [targets, if_pos hs]
    cases hr : readAll Sample.score (s :: r) with
    | error e => dsimp only; rw [readAll_error _ _ _ hr]
    | ok u =>
      have hm := (readAll_ok _ _ _).1 hr
      have : (none : Option (List ℚ)) ∈ (s :: r).map Sample.score :=
        List.mem_map.2 ⟨x, List.mem_cons_of_mem _ hx, hn⟩
      rw [hm, List.mem_map] at this
      obtain ⟨_, _, hc⟩ := this
      cases hc

example : targets [⟨none, some [1, 0]⟩, ⟨some 1, none⟩] = .error .attribute := by rfl

/-- What is minimised is the loss of the main classifier on the last features plus the loss of the
auxiliary classifier on the first features, both against the same targets and averaged over the batch;
the accuracies do not count. -/
theorem C105_darts {F S : Type} (h : DartsHead F S) (feats : List F) (first last : F) (hf : feats.head? = some first)
    (hl : feats.getLast? = some last) (samples : List Sample) (t : Target) (ht : targets samples = .ok t)
    (d : List (String × ℚ)) (hd : h.loss feats samples = .ok d) :
    d.lookup "loss" = some (h.lossModule (h.fc last) t (h.size (h.fc last))) ∧
    d.lookup "aux_head.loss" = some (h.auxModule (h.auxLinear first) t (h.size (h.auxLinear first))) ∧
    minimised d = h.lossModule (h.fc last) t (h.size (h.fc last)) +
      h.auxModule (h.auxLinear first) t (h.size (h.auxLinear first)) := by
  unfold DartsHead.loss at hd
  rw [hf, hl] at hd
  dsimp only at hd
  cases hm : getLoss h h.lossModule (h.fc last) samples with
  | error e => rw [hm] at hd; cases hd
  | ok m =>
    rw [hm] at hd; dsimp only at hd
    cases ha : getLoss h h.auxModule (h.auxLinear first) samples with
    | error e => rw [ha] at hd; cases hd
    | ok a =>
      rw [ha] at hd; dsimp only at hd
      cases hd
      have h2 := update_both _ _ _ _ (getLoss_begins h _ _ samples t ht m hm)
        (begins_map _ _ (getLoss_begins h _ _ samples t ht a ha))
      exact ⟨(lookup_two _ _ _ h2).1, (lookup_two _ _ _ h2).2, minimised_two _ _ _ h2⟩

/-- The loss is computed exactly if there are features and targets and, where the accuracy is asked
for, the targets are labels. -/
theorem C105_darts_ok {F S : Type} (h : DartsHead F S) (feats : List F) (samples : List Sample) :
    (∃ d, h.loss feats samples = .ok d) ↔
      feats ≠ [] ∧ ∃ t, targets samples = .ok t ∧ (h.calAcc = true → ∃ l, t = .labels l) := by
  cases feats with
  | nil => simp [DartsHead.loss]
  | cons x r =>
    unfold DartsHead.loss
    rw [List.head?_cons, List.getLast?_eq_some_getLast (List.cons_ne_nil x r)]
    dsimp only
    cases ht : targets samples with
    | error e =>
      constructor
      · rintro ⟨d, hd⟩
        rw [getLoss, ht] at hd; cases hd
      · rintro ⟨_, t, h', _⟩; cases h'
    | ok t =>
      have hm := getLoss_ok h h.lossModule (h.fc ((x :: r).getLast (List.cons_ne_nil x r))) samples t ht
      have ha := getLoss_ok h h.auxModule (h.auxLinear x) samples t ht
      constructor
      · rintro ⟨d, hd⟩
        refine ⟨List.cons_ne_nil _ _, t, rfl, ?_⟩
        rw [← hm]
        cases hg : getLoss h h.lossModule (h.fc ((x :: r).getLast (List.cons_ne_nil x r))) samples with
        | error e => rw [hg] at hd; cases hd
        | ok m => exact ⟨m, rfl⟩
      · rintro ⟨_, t', h', hc⟩
        cases h'
        obtain ⟨m, hm'⟩ := hm.2 hc
        obtain ⟨a, ha'⟩ := ha.2 hc
        rw [hm', ha']
        exact ⟨_, rfl⟩

/-- A head for the examples. -/
def exHead : DartsHead ℚ ℚ :=
  { fc := fun x => 2 * x, auxLinear := fun x => x + 1, size := fun _ => 1, lossModule := fun s _ n => s / n,
    auxModule := fun s _ n => 4 / 10 * s / n, calAcc := true, topk := [1, 5], accuracy := fun _ _ k => k.map fun _ => 50 }

example : exHead.loss [1, 3] [⟨some 0, none⟩] =
    .ok [("loss", 6), ("accuracy_top-1", 50), ("accuracy_top-5", 50), ("aux_head.loss", 4 / 5),
      ("aux_head.accuracy_top-1", 50), ("aux_head.accuracy_top-5", 50)] := by decide +kernel

example : exHead.loss [1, 3] [⟨none, some [1, 0]⟩] = .error .assertion := by decide +kernel

/-- The distilled head reads the class and distillation tokens of the last stage, both through the same
hidden layer; the score it returns depends on the class token only and what a recorder sees of the other
classifier on the distillation token only. -/
theorem C105_deit {T : Type} (h : DeitHead T) (feats : List (List T)) (a b : T) :
    h.forward feats = .ok (a, b) ↔ ∃ pre x cls dist, feats = pre ++ [[x, cls, dist]] ∧
      a = h.head (h.hidden.getD id cls) ∧ b = h.headDist (h.hidden.getD id dist) := by
  have key : ∀ pre : List (List T), ∀ last, h.forward (pre ++ [last]) = .ok (a, b) ↔
      ∃ x cls dist, last = [x, cls, dist] ∧ a = h.head (h.hidden.getD id cls) ∧ b = h.headDist (h.hidden.getD id dist) := by
    intro pre last
    unfold DeitHead.forward
    rw [List.getLast?_concat]
    match last with
    | [] => simp
    | [_] => simp
    | [_, _] => simp
    | [x, cls, dist] =>
      cases hh : h.hidden with
      | none =>
        dsimp only
        constructor
        · intro h'; cases h'; exact ⟨x, cls, dist, rfl, rfl, rfl⟩
        · rintro ⟨x', c', d', he, rfl, rfl⟩; cases he; rfl
      | some f =>
        dsimp only
        constructor
        · intro h'; cases h'; exact ⟨x, cls, dist, rfl, rfl, rfl⟩
        · rintro ⟨x', c', d', he, rfl, rfl⟩; cases he; rfl
    | _ :: _ :: _ :: _ :: _ => simp
  rcases List.eq_nil_or_concat feats with rfl | ⟨pre, last, rfl⟩
  · simp [DeitHead.forward]
  · rw [List.concat_eq_append, key]
    constructor
    · rintro ⟨x, c, d, rfl, h1, h2⟩; exact ⟨pre, x, c, d, rfl, h1, h2⟩
    · rintro ⟨pre', x, c, d, he, h1, h2⟩
      have := List.append_inj_right' he rfl
      rw [List.cons.injEq] at this
      exact ⟨x, c, d, this.1, h1, h2⟩

example : ({ hidden := some fun x => 10 * x, head := fun x => x + 1, headDist := fun x => x + 2 } : DeitHead Int).forward
    [[7], [1, 2, 3]] = .ok (21, 32) := by rfl

/-- The convolution connector computes its layers in their order and leaves every tensor but its input
unchanged. -/
theorem C105_conv {V : Type} (c : ConvModule V) (m : Heap V) (x : Nat) (hx : x < m.used) :
    (c.run (m, x)).1.val (c.run (m, x)).2 = valueOf c c.order (m.val x) ∧
    ∀ i, i < m.used → i ≠ x → (c.run (m, x)).1.val i = m.val i :=
  fold_val c m.used m.val x c.order (m, x) hx (le_refl _) (fun _ _ _ => rfl) (Or.inl rfl)

/-- PARTIAL (see `C105_conv_violated`): the input of the connector is left unchanged too, if the
activation does not work in place, there is none, or a convolution or normalisation comes before it. -/
theorem C105_conv_partial {V : Type} (c : ConvModule V) (m : Heap V) (x : Nat) (hx : x < m.used)
    (h : c.inplace = false ∨ c.act = none ∨ CopiedBefore c) : (c.run (m, x)).1.val x = m.val x := by
  rcases h with h | h | ⟨a, b, he, hna, hc⟩
  · exact fold_keep c x c.order (fun _ => Or.inl h) (m, x) hx hx
  · exact fold_keep c x c.order (fun _ => Or.inr h) (m, x) hx hx
  · have gen : ∀ (a : List Layer) (s : Heap V × Nat), s.2 < s.1.used → x < s.1.used → s.2 = x → .act ∉ a →
        (.conv ∈ a ∨ (.norm ∈ a ∧ c.norm.isSome = true)) → ∀ b, ((a ++ b).foldl c.step s).1.val x = s.1.val x := by
      intro a
      induction a with
      | nil => intro s _ _ _ _ hc; rcases hc with hc | ⟨hc, _⟩ <;> cases hc
      | cons l a ih =>
        intro s hs hx hsx hna hc b
        obtain ⟨h1, h2, _, _⟩ := step_val c s hs l
        rw [List.cons_append, List.foldl_cons]
        obtain ⟨m, y⟩ := s
        dsimp only at hs hx hsx
        subst hsx
        cases l with
        | act => exact absurd List.mem_cons_self hna
        | conv =>
          rw [fold_away c y (a ++ b) _ h1 (lt_of_lt_of_le hx h2)]
          · cases hp : c.padding with
            | none => simp only [ConvModule.step, hp, Heap.fresh]; rw [if_neg (by omega)]
            | some p => simp only [ConvModule.step, hp, Heap.fresh]; rw [if_neg (by omega), if_neg (by omega)]
          · cases hp : c.padding <;> simp only [ConvModule.step, hp, Heap.fresh] <;> omega
        | norm =>
          cases hp : c.norm with
          | some f =>
            rw [fold_away c y (a ++ b) _ h1 (lt_of_lt_of_le hx h2)]
            · simp only [ConvModule.step, hp, Heap.fresh]; rw [if_neg (by omega)]
            · simp only [ConvModule.step, hp, Heap.fresh]; omega
          | none =>
            have hstep : c.step (m, y) .norm = (m, y) := by simp only [ConvModule.step, hp]
            rw [hstep]
            refine ih (m, y) hs hx rfl (fun h => hna (List.mem_cons_of_mem _ h)) ?_ b
            rcases hc with hc | ⟨_, hc⟩
            · rcases List.mem_cons.1 hc with hc | hc
              · cases hc
              · exact Or.inl hc
            · rw [hp] at hc; cases hc
    unfold ConvModule.run
    rw [he]
    exact gen a (m, x) hx hx rfl hna hc (.act :: b)

/-- An example: convolution, normalisation and an activation in place. -/
def exConv (order : List Layer) : ConvModule Int :=
  { order, padding := none, conv := fun x => 3 * x, norm := some fun x => x - 1, act := some fun x => max x 0, inplace := true }

example : CopiedBefore (exConv [.conv, .norm, .act]) := ⟨[.conv, .norm], [], rfl, by decide, Or.inl (by decide)⟩

example : ((exConv [.conv, .norm, .act]).run (⟨1, fun _ => -4⟩, 0)).1.val 0 = -4 := by decide

/-- DISAGREEMENT: with the activation first (`order=('act', 'conv', 'norm')`, or with only a missing
normalisation before it) and the default `inplace=True`, the connector overwrites the feature it was
given with its activation, so everybody else who holds this feature — a recorder, another loss, the
backbone's next stage — sees the changed one. -/
theorem C105_conv_violated {V : Type} (c : ConvModule V) (f : V → V) (m : Heap V) (x : Nat) (hx : x < m.used) (hi : c.inplace = true)
    (hf : c.act = some f) (a b : List Layer) (he : c.order = a ++ .act :: b) (ha : .conv ∉ a ∧ .act ∉ a) (hn : .norm ∈ a → c.norm = none)
    (hb : .act ∉ b) : (c.run (m, x)).1.val x = f (m.val x) := by
  have pre : ∀ (a : List Layer), (.conv ∉ a ∧ .act ∉ a) → (.norm ∈ a → c.norm = none) → a.foldl c.step (m, x) = (m, x) := by
    intro a
    induction a with
    | nil => intro _ _; rfl
    | cons l a ih =>
      intro h1 h2
      have : c.step (m, x) l = (m, x) := by
        cases l with
        | conv => exact absurd List.mem_cons_self h1.1
        | act => exact absurd List.mem_cons_self h1.2
        | norm => simp only [ConvModule.step, h2 List.mem_cons_self]
      rw [List.foldl_cons, this]
      exact ih ⟨fun h => h1.1 (List.mem_cons_of_mem _ h), fun h => h1.2 (List.mem_cons_of_mem _ h)⟩
        fun h => h2 (List.mem_cons_of_mem _ h)
  have hstep : c.step (m, x) .act = m.inPlace f x := by simp only [ConvModule.step, hf, hi, if_true]
  unfold ConvModule.run
  rw [he, List.foldl_append, pre a ha hn, List.foldl_cons, hstep,
    fold_keep c x b (fun h => absurd h hb) _ (show x < m.used from hx) (show x < m.used from hx)]
  show (if x = x then f (m.val x) else m.val x) = _
  rw [if_pos rfl]

example : ((exConv [.act, .conv, .norm]).run (⟨1, fun _ => -4⟩, 0)).1.val 0 = 0 := by decide

/-- The teacher's connector of factor transfer: in the training phase a map with `i` channels becomes a
factor with `o` channels and the same sizes and nothing is learned by the connector; in the phase before
it comes back to the sizes it had, and the connector learns. Other phases and other numbers of channels
are refused, and so are empty maps. -/
theorem C105_paraphrase (i o : Nat) (use : Bool) (phase : String) (s t : Shape) (g : Bool) :
    paraphrase i o use phase s = .ok (t, g) ↔
      s.channels = i ∧ 0 < s.height ∧ 0 < s.width ∧
      ((phase = "train" ∧ t = { s with channels := o } ∧ g = false) ∨ (phase = "pretrain" ∧ t = s ∧ g = true)) := by
  have henc : seqShape (encoder i o use) s =
      if s.channels = i ∧ 0 < s.height ∧ 0 < s.width then .ok { s with channels := o } else .error .runtime :=
    encoder_shape i o use s
  unfold paraphrase
  rw [henc]
  by_cases hc : s.channels = i ∧ 0 < s.height ∧ 0 < s.width
  · rw [if_pos hc]
    obtain ⟨h1, h2, h3⟩ := hc
    by_cases hp : phase = "train"
    · rw [if_pos hp]
      dsimp only
      constructor
      · intro h; cases h; exact ⟨h1, h2, h3, Or.inl ⟨hp, rfl, rfl⟩⟩
      · rintro ⟨_, _, _, h | h⟩
        · rw [h.2.1, h.2.2]
        · rw [hp] at h; exact absurd h.1 (by decide)
    · rw [if_neg hp]
      by_cases hq : phase = "pretrain"
      · rw [if_pos hq]
        dsimp only
        rw [decoder_shape i o use { s with channels := o }, if_pos ⟨rfl, h2, h3⟩]
        dsimp only
        have he : ({ s with channels := i } : Shape) = s := by rw [← h1]
        constructor
        · intro h; cases h; exact ⟨h1, h2, h3, Or.inr ⟨hq, he, rfl⟩⟩
        · rintro ⟨_, _, _, h | h⟩
          · exact absurd h.1 hp
          · rw [h.2.1, h.2.2]; rw [show ({ channels := i, height := s.height, width := s.width } : Shape) = s from he]
      · rw [if_neg hq]
        constructor
        · intro h; cases h
        · rintro ⟨_, _, _, h | h⟩
          · exact absurd h.1 hp
          · exact absurd h.1 hq
  · rw [if_neg hc]
    constructor
    · intro h
      by_cases hp : phase = "train"
      · rw [if_pos hp] at h; cases h
      · rw [if_neg hp] at h
        by_cases hq : phase = "pretrain"
        · rw [if_pos hq] at h; cases h
        · rw [if_neg hq] at h; cases h
    · rintro ⟨h1, h2, h3, _⟩
      exact absurd ⟨h1, h2, h3⟩ hc

example : paraphrase 64 32 true "train" ⟨64, 7, 9⟩ = .ok (⟨32, 7, 9⟩, false) := by decide +kernel

/-- How it refuses: an `AssertionError` for an unknown phase, before any map is seen, and a `RuntimeError` for a map it cannot take. -/
theorem C105_paraphrase_refused (i o : Nat) (use : Bool) (phase : String) (s : Shape) (e : Err) :
    paraphrase i o use phase s = .error e ↔
      (phase ≠ "train" ∧ phase ≠ "pretrain" ∧ e = .assertion) ∨
        ((phase = "train" ∨ phase = "pretrain") ∧ ¬ (s.channels = i ∧ 0 < s.height ∧ 0 < s.width) ∧ e = .runtime) := by
  have henc : seqShape (encoder i o use) s =
      if s.channels = i ∧ 0 < s.height ∧ 0 < s.width then .ok { s with channels := o } else .error .runtime :=
    encoder_shape i o use s
  have hok := fun t g => C105_paraphrase i o use phase s t g
  by_cases h1 : phase = "train"
  · by_cases hc : s.channels = i ∧ 0 < s.height ∧ 0 < s.width
    · have := (hok { s with channels := o } false).2 ⟨hc.1, hc.2.1, hc.2.2, Or.inl ⟨h1, rfl, rfl⟩⟩
      rw [this]
      simp [h1, hc]
    · unfold paraphrase
      rw [if_pos h1, henc, if_neg hc]
      constructor
      · intro he
        cases he
        exact Or.inr ⟨Or.inl h1, hc, rfl⟩
      · rintro (⟨h, _⟩ | ⟨_, _, rfl⟩)
        · exact absurd h1 h
        · rfl
  · by_cases h2 : phase = "pretrain"
    · by_cases hc : s.channels = i ∧ 0 < s.height ∧ 0 < s.width
      · have := (hok s true).2 ⟨hc.1, hc.2.1, hc.2.2, Or.inr ⟨h2, rfl, rfl⟩⟩
        rw [this]
        simp [h2, hc]
      · unfold paraphrase
        rw [if_neg h1, if_pos h2, henc, if_neg hc]
        constructor
        · intro he
          cases he
          exact Or.inr ⟨Or.inr h2, hc, rfl⟩
        · rintro (⟨_, h, _⟩ | ⟨_, _, rfl⟩)
          · exact absurd h2 h
          · rfl
    · unfold paraphrase
      rw [if_neg h1, if_neg h2]
      simp [h1, h2, eq_comm]

example : paraphrase 64 32 true "test" ⟨64, 7, 9⟩ = .error .assertion ∧ paraphrase 64 32 true "train" ⟨32, 7, 9⟩ = .error .runtime := by
  decide +kernel

/-- In training, the factors of teacher and student can be compared entry by entry: whatever numbers of
channels the two have, with the same number for the factors and maps of the same sizes the two
connectors give factors of the same sizes, of which only the student's can be learned. -/
theorem C105_factors (i i' o : Nat) (use use' : Bool) (h w : Nat) (hh : 0 < h) (hw : 0 < w) :
    ∃ t, paraphrase i o use "train" ⟨i, h, w⟩ = .ok (t, false) ∧ translate i' o use' ⟨i', h, w⟩ = .ok (t, true) := by
  refine ⟨⟨o, h, w⟩, (C105_paraphrase _ _ _ _ _ _ _).2 ⟨rfl, hh, hw, Or.inl ⟨rfl, rfl, rfl⟩⟩, ?_⟩
  unfold translate
  rw [encoder_shape, if_pos ⟨rfl, hh, hw⟩]

example : translate 128 32 true ⟨128, 7, 9⟩ = .ok (⟨32, 7, 9⟩, true) := by decide +kernel

/-- The mode of every module after any calls of `train`: that of the last call, except that with
`norm_training` the normalisations of the architecture are always in training mode after one. -/
theorem C105_modes (normTraining : Bool) (calls : List Bool) (mode : Bool) (l : List Mod) (k : Nat) :
    (((calls ++ [mode]).foldl (fun s m => setMode normTraining m s) l)[k]?).map (·.training) =
      l[k]?.map fun m => mode || (normTraining && m.inArch && m.isNorm) := by
  have one : ∀ (mode : Bool) (l : List Mod), setMode normTraining mode l =
      l.map fun m => { m with training := mode || (normTraining && m.inArch && m.isNorm) } := by
    intro mode l
    unfold setMode
    dsimp only
    cases normTraining <;> cases mode
    · simp
    · simp
    · simp only [Bool.not_false, Bool.and_self, if_true, List.map_map]
      apply List.map_congr_left
      rintro ⟨a, b, c, d⟩ _
      cases a <;> cases b <;> simp
    · simp
  have fold : ∀ (calls : List Bool) (l : List Mod),
      (calls.foldl (fun s m => setMode normTraining m s) l).map (fun m => (m.inArch, m.isNorm)) =
        l.map (fun m => (m.inArch, m.isNorm)) := by
    intro calls
    induction calls with
    | nil => intro l; rfl
    | cons c r ih =>
      intro l
      rw [List.foldl_cons, ih, one, List.map_map]
      rfl
  rw [List.foldl_append, List.foldl_cons, List.foldl_nil, one, List.getElem?_map, Option.map_map]
  have hk : (calls.foldl (fun s m => setMode normTraining m s) l)[k]?.map (fun m => (m.inArch, m.isNorm)) =
      l[k]?.map (fun m => (m.inArch, m.isNorm)) := by
    rw [← List.getElem?_map, fold, List.getElem?_map]
  generalize (calls.foldl (fun s m => setMode normTraining m s) l)[k]? = a at hk
  generalize l[k]? = b at hk
  cases a with
  | none => cases b with
    | none => rfl
    | some b => cases hk
  | some a => cases b with
    | none => cases hk
    | some b =>
      simp only [Option.map_some, Option.some.injEq, Prod.mk.injEq] at hk
      simp [hk.1, hk.2]

example : (setMode true false [⟨true, true, true, 0⟩, ⟨true, false, true, 0⟩, ⟨false, true, true, 0⟩]).map (·.training) =
    [true, false, false] := by decide

/-- PARTIAL (see `C105_evaluate_violated`): without `norm_training`, evaluating any batches leaves every
running mean as it was. -/
theorem C105_evaluate_partial (m : ℚ) (batches : List ℚ) (l : List Mod) :
    (evaluate false m batches l).map (·.mean) = l.map (·.mean) := by
  have gen : ∀ (b : List ℚ) (s : List Mod), (∀ a ∈ s, a.training = false) → b.foldl (fun s x => pass m x s) s = s := by
    intro b
    induction b with
    | nil => intro s _; rfl
    | cons x b ih =>
      intro s hs
      have : pass m x s = s := by
        unfold pass
        conv_rhs => rw [← List.map_id s]
        apply List.map_congr_left
        intro a ha
        rw [hs a ha, Bool.and_false]; rfl
      rw [List.foldl_cons, this]; exact ih s hs
  unfold evaluate
  rw [gen]
  · simp [setMode, Function.comp_def]
  · intro a ha
    simp only [setMode, Bool.false_and, Bool.false_eq_true, if_false, List.mem_map] at ha
    obtain ⟨_, _, rfl⟩ := ha
    rfl

example : (evaluate false (1 / 10) [5, 6] [⟨true, true, true, 3⟩]).map (·.mean) = [3] := by decide +kernel

/-- DISAGREEMENT: with `norm_training`, evaluating a subnet trains the statistics of the shared
normalisations: after `n` batches of mean `x` a running mean `μ` has become `x + (1 - m)ⁿ (μ - x)`, so
evaluating one subnet changes the network the next one (and the saved checkpoint) is made of. -/
theorem C105_evaluate_violated (m x μ : ℚ) (n : Nat) (mode : Bool) (rest : List Mod) :
    ((evaluate true m (List.replicate n x) (⟨true, true, mode, μ⟩ :: rest))[0]?).map (·.mean) =
      some (x + (1 - m) ^ n * (μ - x)) := by
  have gen : ∀ (n : Nat) (μ : ℚ) (s : List Mod),
      (((List.replicate n x).foldl (fun s x => pass m x s) (⟨true, true, true, μ⟩ :: s))[0]?).map (·.mean) =
        some (x + (1 - m) ^ n * (μ - x)) := by
    intro n
    induction n with
    | zero => intro μ s; simp
    | succ n ih =>
      intro μ s
      rw [List.replicate_succ, List.foldl_cons]
      have : pass m x (⟨true, true, true, μ⟩ :: s) = ⟨true, true, true, (1 - m) * μ + m * x⟩ :: pass m x s := rfl
      rw [this, ih]
      congr 1
      ring
  exact gen n μ _

example : (evaluate true (1 / 10) [5] [⟨true, true, true, 3⟩]).map (·.mean) = [16 / 5] := by decide +kernel

/-- Every training step of the single path method computes the loss under choices drawn in this step:
each unit of the search space takes one of its own candidates, whatever it had before, and keeps it. -/
theorem C105_sampled {L : Type} (cands : List (String × List String)) (hk : (cands.map (·.1)).Nodup) (hne : ∀ p ∈ cands, p.2 ≠ [])
    (draw : String → Nat) (run : Choices → L) (cur : Choices) (k : String) (c : List String) (hc : (k, c) ∈ cands) (old : String)
    (hold : (k, old) ∈ cur) :
    ∃ v, v ∈ c ∧ (k, v) ∈ (sposLoss cands draw run cur).2 ∧ c[draw k % c.length]? = some v ∧
      (sposLoss cands draw run cur).1 = run (sposLoss cands draw run cur).2 ∧
      (sposLoss cands draw run cur).2.map (·.1) = cur.map (·.1) := by
  have hlen : draw k % c.length < c.length := Nat.mod_lt _ (List.length_pos_iff.2 (hne _ hc))
  refine ⟨c[draw k % c.length], List.getElem_mem hlen, ?_, List.getElem?_eq_getElem hlen, rfl, ?_⟩
  · simp only [sposLoss, setChoices, List.mem_map]
    refine ⟨(k, old), hold, ?_⟩
    dsimp only
    have : (sampleChoices cands draw).find? (fun q => q.1 == k) = some (k, c[draw k % c.length]) := by
      have hmem : (k, c[draw k % c.length]) ∈ sampleChoices cands draw := by
        simp only [sampleChoices, List.mem_map]
        exact ⟨(k, c), hc, by simp [List.getD_eq_getElem?_getD, List.getElem?_eq_getElem hlen]⟩
      have hnd : ((sampleChoices cands draw).map (·.1)).Nodup := by
        simp only [sampleChoices, List.map_map]
        exact hk
      generalize sampleChoices cands draw = l at hmem hnd
      induction l with
      | nil => cases hmem
      | cons p l ih =>
        rw [List.map_cons, List.nodup_cons] at hnd
        rcases List.mem_cons.1 hmem with h | h
        · rw [← h, List.find?_cons]; simp
        · rw [List.find?_cons]
          have : (p.1 == k) = false := by
            rw [beq_eq_false_iff_ne]
            intro he
            exact hnd.1 (List.mem_map.2 ⟨_, h, he.symm⟩)
          rw [this]
          exact ih h hnd.2
    rw [this]; rfl
  · simp [sposLoss, setChoices, Function.comp_def]

example : (sposLoss [("a", ["x", "y"]), ("b", ["u"])] (fun _ => 3) id [("a", "x"), ("b", "u")]).2 = [("a", "y"), ("b", "u")] := by
  decide +kernel

/-- The head of DeiT fails exactly for features without a stage and for a last stage that is not made of three tensors. -/
theorem C105_deit_refused {T : Type} (h : DeitHead T) (feats : List (List T)) (e : Err) :
    h.forward feats = .error e ↔ (feats = [] ∧ e = .index) ∨ (∃ l, feats.getLast? = some l ∧ l.length ≠ 3 ∧ e = .value) := by
  unfold DeitHead.forward
  cases hf : feats.getLast? with
  | none =>
    rw [List.getLast?_eq_none_iff] at hf
    simp [hf, eq_comm (a := e)]
  | some l =>
    have hne : feats ≠ [] := by rintro rfl; simp at hf
    match l with
    | [] => simp [hne, eq_comm (a := e)]
    | [_] => simp [hne, eq_comm (a := e)]
    | [_, _] => simp [hne, eq_comm (a := e)]
    | [_, _, _] => cases h.hidden <;> simp [hne]
    | _ :: _ :: _ :: _ :: _ => simp [hne, eq_comm (a := e)]

example : (⟨none, id, id⟩ : DeitHead ℚ).forward [[1, 2, 3], [4, 5]] = .error .value ∧
    (⟨none, id, id⟩ : DeitHead ℚ).forward [] = .error .index :=
  ⟨(C105_deit_refused _ _ _).2 (by simp), (C105_deit_refused _ _ _).2 (by simp)⟩

end Verif.Heads
