import Verif.Lemmas.Distiller

/-! C59: configurable distillation. -/

namespace Verif.Distiller
open Verif

variable {T : Type}

/-! ### The check -/

/-- C59: the configuration is accepted exactly when each mapped loss exists, its mapped arguments
are arguments of its `forward`, and those without a default value name an existing recorder of the
right side and an existing connector. -/
theorem C59_accepts (c : Cfg T) (ms : List (Name × List (Name × Info))) : check c ms = .ok () ↔ Accepted c ms := by
  unfold Accepted
  induction ms with
  | nil => simp [check]
  | cons nm ms ih =>
    obtain ⟨n, m⟩ := nm
    rw [check, List.forall_mem_cons, ← ih]
    cases h : get? c.losses n with
    | none => simp
    | some l =>
      simp only [Option.some.injEq, exists_eq_left']
      rw [← checkItems_ok]
      cases h2 : checkItems c l m with
      | error e => simp
      | ok u => simp

/-! ### Computing -/

/-- C59: an accepted configuration in which every argument without a default value is given and
every record info is well formed computes exactly the mapped losses, each from the recorded data its
infos describe. Missing: arguments that are not given and infos that are not well formed, see `C59_missing_violated`,
`C59_default_violated` and `C59_unknown_key_violated`. -/
theorem C59_compute_partial (c : Cfg T) (w : World T) (ms : List (Name × List (Name × Info))) (ha : check c ms = .ok ()) (hc : Complete c ms)
    (hn : ∀ nm ∈ ms, ∀ ki ∈ nm.2, Named c ki.2 ∧ ki.2.extra = [])
    (D : Info → Data T) (hD : ∀ nm ∈ ms, ∀ ki ∈ nm.2, Located c w ki.2 (D ki.2)) :
    ∃ vs, compute c w ms = .ok vs ∧ List.Forall₂ (fun nm v => v.1 = nm.1 ∧
      ∃ l, get? c.losses nm.1 = some l ∧ v.2 = l.forward (nm.2.map fun ki => (ki.1, D ki.2))) ms vs := by
  rw [C59_accepts] at ha
  induction ms with
  | nil => exact ⟨[], rfl, .nil⟩
  | cons nm ms ih =>
    obtain ⟨vs, h1, h2⟩ := ih (fun x hx => ha x (by simp [hx])) (fun x hx => hc x (by simp [hx])) (fun x hx => hn x (by simp [hx]))
      (fun x hx => hD x (by simp [hx]))
    obtain ⟨l, hl, hp⟩ := ha nm (by simp)
    obtain ⟨n, m⟩ := nm
    have e1 := getArgs_located c w D m fun ki hk =>
      getRecord_located c w ki.2 _ (hn (n, m) (by simp) ki hk).1 (hn (n, m) (by simp) ki hk).2 (hD (n, m) (by simp) ki hk)
    have e2 : call l (m.map fun ki => (ki.1, D ki.2)) = .ok (l.forward (m.map fun ki => (ki.1, D ki.2))) := by
      unfold call
      rw [if_pos]
      simp only [List.all_map, Bool.and_eq_true, List.all_eq_true, Function.comp, Bool.or_eq_true]
      constructor
      · intro ki hk
        obtain ⟨d, hd, -⟩ := hp ki hk
        rw [hd]; rfl
      · intro p hpm
        by_cases hp2 : p.2 = true
        · exact Or.inl hp2
        · right
          rw [get?_isSome, List.map_map]
          have := hc (n, m) (by simp) l hl p hpm (by simpa using hp2)
          simpa using this
    refine ⟨(n, l.forward (m.map fun ki => (ki.1, D ki.2))) :: vs, ?_, .cons ⟨rfl, l, hl, rfl⟩ h2⟩
    rw [compute, e1]
    simp only at hl ⊢
    rw [hl]
    simp only
    rw [e2]
    simp only
    rw [h1]

/-- C59: the losses computed are exactly those mapped, in order. -/
theorem C59_names (c : Cfg T) (w : World T) (ms : List (Name × List (Name × Info))) (vs : List (Name × ℚ))
    (h : compute c w ms = .ok vs) : vs.map (·.1) = ms.map (·.1) := by
  induction ms generalizing vs with
  | nil => cases h; rfl
  | cons nm ms ih =>
    obtain ⟨n, m⟩ := nm
    rw [compute] at h
    cases h1 : getArgs c w m with
    | error e => rw [h1] at h; cases h
    | ok args =>
      rw [h1] at h; simp only at h
      cases h2 : get? c.losses n with
      | none => rw [h2] at h; cases h
      | some l =>
        rw [h2] at h; simp only at h
        cases h3 : call l args with
        | error e => rw [h3] at h; cases h
        | ok v =>
          rw [h3] at h; simp only at h
          cases h4 : compute c w ms with
          | error e => rw [h4] at h; cases h
          | ok us =>
            rw [h4] at h; cases h
            rw [List.map_cons, List.map_cons, ih us h4]

/-! ### Accepted, but failing or without effect -/

/-- C59 is violated when an argument without a default value is not mapped: the configuration is
accepted (arguments that are not mapped are not looked at), but the losses can never be
computed. -/
theorem C59_missing_violated (c : Cfg T) (w : World T) (ms : List (Name × List (Name × Info))) (h : ¬ Complete c ms) :
    ∀ vs, compute c w ms ≠ .ok vs := by
  induction ms with
  | nil => exact absurd (by simp [Complete]) h
  | cons nm ms ih =>
    obtain ⟨n, m⟩ := nm
    intro vs hvs
    rw [compute] at hvs
    cases h1 : getArgs c w m with
    | error e => rw [h1] at hvs; cases hvs
    | ok args =>
      rw [h1] at hvs; simp only at hvs
      cases h2 : get? c.losses n with
      | none => rw [h2] at hvs; cases hvs
      | some l =>
        rw [h2] at hvs; simp only at hvs
        cases h3 : call l args with
        | error e => rw [h3] at hvs; cases hvs
        | ok v =>
          rw [h3] at hvs; simp only at hvs
          cases h4 : compute c w ms with
          | error e => rw [h4] at hvs; cases hvs
          | ok us =>
            refine ih (fun hcm => h ?_) us h4
            intro x hx l' hl' p hp hp2
            rcases List.mem_cons.1 hx with rfl | hx
            · simp only at hl'
              rw [h2] at hl'
              cases hl'
              unfold call at h3
              by_cases hc : (args.all (fun a => (get? l.params a.1).isSome) && l.params.all (fun p => p.2 || (get? args p.1).isSome)) = true
              · simp only [Bool.and_eq_true, List.all_eq_true, Bool.or_eq_true] at hc
                have := hc.2 p hp
                rw [hp2, get?_isSome, getArgs_names c w m args h1] at this
                simpa using this
              · rw [if_neg hc] at h3; cases h3
            · exact hcm x hx l' hl' p hp hp2

example : check (demo []) [("loss_neck".toList, [("s".toList, feat true)])] = .ok () ∧
    ¬ Complete (demo []) [("loss_neck".toList, [("s".toList, feat true)])] := by
  refine ⟨by rfl, fun h => ?_⟩
  have := h _ (List.mem_singleton.2 rfl) l2 rfl ("t".toList, false) (by decide +kernel) rfl
  revert this
  decide +kernel

/-- C59 is violated for arguments with a default value: their record infos are not checked, and a
recorder that does not exist is accepted; computing the losses then fails, whatever was recorded. -/
theorem C59_default_violated : ∃ ms, check (demo ms) ms = .ok () ∧ ∀ w, compute (demo ms) w ms = .error .key := by
  refine ⟨[("loss_neck".toList, [("weight".toList, { recorder := some "nothing".toList, fromStudent := some (.bool true) }),
    ("s".toList, feat true), ("t".toList, feat false)])], by rfl, fun w => by rfl⟩

/-- C59 is violated for unknown keys in a record info, such as a misspelt `data_idx`: they are
accepted, and computing the losses fails with a `TypeError`. -/
theorem C59_unknown_key_violated : ∃ ms, check (demo ms) ms = .ok () ∧ ∀ w, compute (demo ms) w ms = .error .type := by
  refine ⟨[("loss_neck".toList, [("s".toList, { feat true with extra := ["data_id".toList] }), ("t".toList, feat false)])], by rfl, fun w => by rfl⟩

/-- C59 is violated for the example in the documentation of the class, which names the recorder
by the key `from_recorder`: it is rejected. -/
theorem C59_documentation_violated :
    let doc := fun b => ({ fromStudent := some (.bool b), extra := ["from_recorder".toList] } : Info)
    check (demo []) [("loss_neck".toList, [("s".toList, doc true), ("t".toList, doc false)])] = .error .assertion := by
  rfl

/-- C59 is violated for losses that are configured but not mapped: the configuration is accepted
and the losses are left out without a message. -/
theorem C59_unmapped_violated : ∃ ms, check (demo ms) ms = .ok () ∧ (demo ms).losses ≠ [] ∧ ∀ w, compute (demo ms) w ms = .ok [] :=
  ⟨[], rfl, by simp [demo], fun _ => rfl⟩

example : ∃ w : World ℚ, compute (demo []) w [("loss_neck".toList, [("s".toList, feat true), ("t".toList, feat false)])] =
    .ok [("loss_neck".toList, 1)] := ⟨⟨fun _ => [.tensor 1], fun _ => [.tensor 2], fun x _ => .ok x⟩, by rfl⟩

/-! ### The losses of an iteration -/

/-- C59: the loss that is minimised is the teacher's if it is trained, the student's if it is
used, and the distillation losses unless distillation has been stopped. -/
theorem C59_total (o : Opts) (stopped : Bool) (t s d : List (Name × ℚ)) :
    total (losses o stopped t s d) = (if o.teacherTrainable then lossSum t else 0) + (if o.calculateStudentLoss then lossSum s else 0) +
      (if stopped then 0 else lossSum d) := by
  have e : ∀ (b : Bool) (p : Name) (l : List (Name × ℚ)), (p = "teacher".toList ∨ p = "student".toList ∨ p = "distill".toList) →
      total (if b then addPrefix p l else []) = if b then total l else 0 := by
    intro b p l hp
    cases b
    · simp [total]
    · simp only [if_true]; exact total_prefix p l hp
  unfold losses
  simp only [← total_eq]
  rw [total_append, total_append, e _ _ _ (Or.inl rfl), e _ _ _ (Or.inr (Or.inl rfl))]
  cases stopped
  · simp only [Bool.false_eq_true, if_false]
    rw [total_prefix _ _ (Or.inr (Or.inr rfl))]
  · simp [total]

/-- C59: no loss of one part overwrites a loss of another: all names are different. -/
theorem C59_reported (o : Opts) (stopped : Bool) (t s d : List (Name × ℚ)) (ht : (t.map (·.1)).Nodup) (hs : (s.map (·.1)).Nodup)
    (hd : (d.map (·.1)).Nodup) : ((losses o stopped t s d).map (·.1)).Nodup := by
  have hp : ∀ (p : Name) (l : List (Name × ℚ)), (addPrefix p l).map (·.1) = (l.map (·.1)).map (fun n => p ++ '.' :: n) := by
    intro p l; simp [addPrefix]
  have hn : ∀ (p : Name) (l : List (Name × ℚ)), (l.map (·.1)).Nodup → ((addPrefix p l).map (·.1)).Nodup := by
    intro p l h
    rw [hp]
    exact List.Nodup.map (fun a b hab => by simpa using hab) h
  have hh : ∀ (p : Name) (l : List (Name × ℚ)) (x : Name), x ∈ (addPrefix p l).map (·.1) → p <+: x := by
    intro p l x hx
    rw [hp] at hx
    obtain ⟨n, -, rfl⟩ := List.mem_map.1 hx
    exact List.prefix_append _ _
  have hne : ∀ (p q : Name) (x : Name), p <+: x → q <+: x → p.head? ≠ q.head? → p ≠ [] → q ≠ [] → False := by
    rintro p q x ⟨a, rfl⟩ ⟨b, hb⟩ h hp hq
    cases p with
    | nil => exact hp rfl
    | cons x p =>
      cases q with
      | nil => exact hq rfl
      | cons y q => simp at hb h; exact h hb.1.symm
  have hsub : ∀ (b : Bool) (p : Name) (l : List (Name × ℚ)) (x : Name), x ∈ (if b then addPrefix p l else []).map (·.1) → p <+: x := by
    intro b p l x hx
    cases b
    · simp at hx
    · exact hh p l x hx
  have hsubn : ∀ (b : Bool) (p : Name) (l : List (Name × ℚ)), (l.map (·.1)).Nodup → ((if b then addPrefix p l else []).map (·.1)).Nodup := by
    intro b p l h
    cases b
    · simp
    · exact hn p l h
  have hst : (if stopped then [] else addPrefix "distill".toList d) = (if !stopped then addPrefix "distill".toList d else []) := by
    cases stopped <;> rfl
  unfold losses
  rw [hst, List.map_append, List.map_append, List.nodup_append, List.nodup_append]
  refine ⟨⟨hsubn _ _ _ ht, hsubn _ _ _ hs, ?_⟩, hsubn _ _ _ hd, ?_⟩
  · intro x hx y hy hxy
    subst hxy
    exact hne _ _ x (hsub _ _ _ x hx) (hsub _ _ _ x hy) (by decide +kernel) (by decide +kernel) (by decide +kernel)
  · intro x hx y hy hxy
    subst hxy
    rw [List.mem_append] at hx
    rcases hx with hx | hx
    · exact hne _ _ x (hsub _ _ _ x hx) (hsub _ _ _ x hy) (by decide +kernel) (by decide +kernel) (by decide +kernel)
    · exact hne _ _ x (hsub _ _ _ x hx) (hsub _ _ _ x hy) (by decide +kernel) (by decide +kernel) (by decide +kernel)

/-- C59 is violated for `student_trainable = False`: unless the student's loss is switched off as
well, the student is trained. -/
theorem C59_student_frozen_violated : ∃ o : Opts, o.studentTrainable = false ∧ studentGrad o = true ∧
    ∀ stopped t s d, total (losses o stopped t s d) = lossSum s + if stopped then 0 else lossSum d :=
  ⟨⟨false, true, false, true⟩, rfl, rfl, fun stopped t s d => by rw [C59_total]; simp⟩

/-! ### Stopping -/

/-- C59: with the hook distillation is used exactly in the epochs before `stop_epoch`, also after
resuming at any epoch. -/
theorem C59_stop (stop epoch n : Nat) :
    epochs stop epoch n (some false) = .ok ((List.range n).map fun k => some (decide (stop ≤ epoch + k))) := by
  have key : ∀ (n epoch : Nat) (b : Bool), (b = true → stop ≤ epoch) →
      epochs stop epoch n (some b) = .ok ((List.range n).map fun k => some (decide (stop ≤ epoch + k))) := by
    intro n
    induction n with
    | zero => intro epoch b _; rfl
    | succ n ih =>
      intro epoch b hb
      have hb' : (if stop ≤ epoch then true else b) = decide (stop ≤ epoch) := by
        by_cases h : stop ≤ epoch
        · simp [h]
        · cases b
          · simp [h]
          · exact absurd (hb rfl) h
      rw [epochs, beforeEpoch, hb']
      simp only
      rw [ih (epoch + 1) (decide (stop ≤ epoch)) (fun h => by have := of_decide_eq_true h; omega)]
      simp only
      rw [List.range_succ_eq_map, List.map_cons, List.map_map]
      congr 2
      apply List.map_congr_left
      intro k _
      simp [Nat.add_assoc, Nat.add_comm 1 k]
  exact key n epoch false (by simp)

example : epochs 3 1 4 (some false) = .ok [some false, some false, some true, some true] := by rfl

/-- C59 is violated for algorithms that cannot stop distillation, such as `SelfDistill`: with the
hook they are trained up to `stop_epoch` and fail then. -/
theorem C59_stop_late_violated (stop epoch n : Nat) (h : epoch + n = stop) :
    epochs stop epoch n none = .ok (List.replicate n none) ∧ epochs stop epoch (n + 1) none = .error .assertion := by
  induction n generalizing epoch with
  | zero =>
    refine ⟨rfl, ?_⟩
    rw [epochs, beforeEpoch, if_pos (by omega)]
  | succ n ih =>
    obtain ⟨h1, h2⟩ := ih (epoch + 1) (by omega)
    constructor
    · rw [epochs, beforeEpoch, if_neg (by omega)]
      simp only
      rw [h1]
      rfl
    · rw [epochs, beforeEpoch, if_neg (by omega)]
      simp only
      rw [h2]

/-- C59: during training the normalisation layers of the teacher are in evaluation mode exactly
when this is configured, and for validation the whole teacher is. -/
theorem C59_teacher_norm (o : Opts) (isNorm : Bool) : teacherMode o false isNorm = false ∧
    teacherMode o true true = !o.teacherNormEval := by
  cases o with
  | mk a b c d => cases b <;> exact ⟨rfl, rfl⟩

/-- C59 is violated for the other layers of a teacher that is not trained: during training they
are in training mode, for all options, so a teacher with dropout gives random outputs. -/
theorem C59_teacher_mode_violated (o : Opts) : teacherMode o true false = true := by
  cases o with
  | mk a b c d => cases b <;> rfl

/-! ### Records -/

/-- Records are found by their number, counted from the first or, with negative numbers, from behind; numbers that are too large
fail in the assertion, numbers that are too small in the list. -/
theorem C59_record (buf : List (Data T)) (i : Int) :
    (∀ d, recordData buf i none = .ok d ↔ ∃ k : Nat, buf[k]? = some d ∧ (i = k ∨ i = (k : Int) - buf.length)) ∧
    (buf.length ≤ i → recordData buf i none = .error .assertion) ∧
    (i < -(buf.length : Int) → recordData buf i none = .error .index) := by
  refine ⟨fun d => ?_, fun h => by unfold recordData; rw [if_pos h], fun h => ?_⟩
  · unfold recordData
    by_cases h : (buf.length : Int) ≤ i
    · rw [if_pos h]
      refine ⟨fun h => (by cases h), ?_⟩
      rintro ⟨k, hk, he⟩
      obtain ⟨hk', _⟩ := List.getElem?_eq_some_iff.1 hk
      omega
    · rw [if_neg h]
      unfold pyGet
      by_cases h0 : i < 0
      · rw [if_pos h0]
        by_cases h1 : i < -(buf.length : Int)
        · have hz : (i + buf.length).toNat = 0 := by omega
          rw [hz]
          constructor
          · intro h2
            cases h3 : buf[0]? with
            | none => rw [h3] at h2; cases h2
            | some x =>
              rw [h3] at h2
              dsimp only at h2
              rw [if_pos h1] at h2
              cases h2
          · rintro ⟨k, hk, he⟩
            obtain ⟨hk', _⟩ := List.getElem?_eq_some_iff.1 hk
            omega
        · have hlt : (i + buf.length).toNat < buf.length := by omega
          rw [List.getElem?_eq_getElem hlt]
          dsimp only
          rw [if_neg h1]
          dsimp only
          constructor
          · intro h2
            cases h2
            exact ⟨_, List.getElem?_eq_getElem hlt, Or.inr (by omega)⟩
          · rintro ⟨k, hk, he⟩
            have : k = (i + buf.length).toNat := by
              obtain ⟨hk', _⟩ := List.getElem?_eq_some_iff.1 hk
              omega
            subst this
            rw [List.getElem?_eq_getElem hlt] at hk
            rw [Option.some.inj hk]
      · rw [if_neg h0]
        have hlt : i.toNat < buf.length := by omega
        rw [List.getElem?_eq_getElem hlt]
        dsimp only
        rw [if_neg (by omega)]
        dsimp only
        constructor
        · intro h2
          cases h2
          exact ⟨_, List.getElem?_eq_getElem hlt, Or.inl (by omega)⟩
        · rintro ⟨k, hk, he⟩
          have : k = i.toNat := by
            obtain ⟨hk', _⟩ := List.getElem?_eq_some_iff.1 hk
            omega
          subst this
          rw [List.getElem?_eq_getElem hlt] at hk
          rw [Option.some.inj hk]
  · unfold recordData pyGet
    rw [if_neg (by omega)]
    cases h3 : buf[(if i < 0 then i + (buf.length : Int) else i).toNat]? with
    | none => rfl
    | some x => dsimp only; rw [if_pos h]

/-- The same for a part of a record that is a sequence; a record that is a tensor has no parts. -/
theorem C59_record_part (buf : List (Data T)) (i j : Int) :
    (∀ t, recordData buf i none = .ok (.tensor t) → recordData buf i (some j) = .error .type) ∧
    (∀ l, recordData buf i none = .ok (.seq l) → (∀ d, recordData buf i (some j) = .ok d ↔ recordData l j none = .ok d) ∧
      (l.length ≤ j → recordData buf i (some j) = .error .assertion)) := by
  have key : ∀ d, recordData buf i none = .ok d → ¬ (buf.length : Int) ≤ i ∧ pyGet buf i = .ok d := by
    intro d h
    unfold recordData at h
    by_cases hb : (buf.length : Int) ≤ i
    · rw [if_pos hb] at h; cases h
    · rw [if_neg hb] at h
      refine ⟨hb, ?_⟩
      cases hp : pyGet buf i with
      | error e => rw [hp] at h; cases h
      | ok r => rw [hp] at h; exact h
  refine ⟨fun t h => ?_, fun l h => ?_⟩
  · obtain ⟨h1, h2⟩ := key _ h
    unfold recordData
    rw [if_neg h1, h2]
  · obtain ⟨h1, h2⟩ := key _ h
    have e : recordData buf i (some j) = recordData l j none := by
      unfold recordData
      rw [if_neg h1, h2]
      dsimp only
      by_cases hj : (l.length : Int) ≤ j
      · rw [if_pos hj, if_pos hj]
      · rw [if_neg hj, if_neg hj]
        cases pyGet l j with
        | error e => rfl
        | ok r => rfl
    refine ⟨fun d => by rw [e], fun hj => ?_⟩
    rw [e]
    unfold recordData
    rw [if_pos hj]

example : recordData [Data.seq [Data.tensor 1, Data.tensor 2], Data.tensor 3] (-2) (some (-1)) = .ok (Data.tensor (2 : Nat)) := rfl

/-- C59: a configuration is refused by an assertion, or with a TypeError when `from_student` is something else than a
boolean; in particular only by assertions when all of these are booleans or missing. -/
theorem C59_refused (c : Cfg T) (ms : List (Name × List (Name × Info))) (e : Err) (h : check c ms = .error e) :
    ¬ Accepted c ms ∧ (e = .assertion ∨
      e = .type ∧ ∃ nm ∈ ms, ∃ ki ∈ nm.2, ki.2.recorder ≠ none ∧ ∀ b, ki.2.fromStudent ≠ none ∧ ki.2.fromStudent ≠ some (.bool b)) := by
  refine ⟨fun ha => ?_, ?_⟩
  · rw [(C59_accepts c ms).2 ha] at h
    cases h
  · induction ms with
    | nil => cases h
    | cons nm ms ih =>
      obtain ⟨n, m⟩ := nm
      rw [check] at h
      cases hl : get? c.losses n with
      | none =>
        rw [hl] at h
        cases h
        exact Or.inl rfl
      | some l =>
        rw [hl] at h
        dsimp only at h
        cases hi : checkItems c l m with
        | ok u =>
          rw [hi] at h
          rcases ih h with h' | ⟨h', x, hx, h2⟩
          · exact Or.inl h'
          · exact Or.inr ⟨h', x, List.mem_cons_of_mem _ hx, h2⟩
        | error e' =>
          rw [hi] at h
          cases h
          have key : ∀ m : List (Name × Info), checkItems c l m = .error e →
              e = .assertion ∨ e = .type ∧ ∃ ki ∈ m, ki.2.recorder ≠ none ∧
                ∀ b, ki.2.fromStudent ≠ none ∧ ki.2.fromStudent ≠ some (.bool b) := by
            intro m
            induction m with
            | nil => exact nofun
            | cons ki m ihm =>
              obtain ⟨k, i⟩ := ki
              intro h
              rw [checkItems] at h
              cases hk : checkItem c l k i with
              | ok u =>
                rw [hk] at h
                rcases ihm h with h' | ⟨h', x, hx, h2⟩
                · exact Or.inl h'
                · exact Or.inr ⟨h', x, List.mem_cons_of_mem _ hx, h2⟩
              | error e'' =>
                rw [hk] at h
                cases h
                unfold checkItem at hk
                repeat' split at hk
                all_goals first
                  | cases hk
                  | skip
                all_goals first
                  | exact Or.inl rfl
                  | skip
                refine Or.inr ⟨rfl, (k, i), List.mem_cons_self, ?_⟩
                simp_all
          rcases key m hi with h' | ⟨h', x, hx, h2⟩
          · exact Or.inl h'
          · exact Or.inr ⟨h', (n, m), List.mem_cons_self, x, hx, h2⟩

/-- Indexing a list as Python does fails exactly outside of `-n, …, n - 1`. -/
theorem C59_index_refused {A : Type} (l : List A) (i : Int) (e : Err) :
    pyGet l i = .error e ↔ e = .index ∧ (i < -(l.length : Int) ∨ (l.length : Int) ≤ i) := by
  unfold pyGet
  by_cases h1 : i < -(l.length : Int)
  · cases l[(if i < 0 then i + (l.length : Int) else i).toNat]? <;> simp [h1, eq_comm (a := e)]
  · by_cases h2 : (l.length : Int) ≤ i
    · have : l[(if i < 0 then i + (l.length : Int) else i).toNat]? = none := by
        rw [List.getElem?_eq_none]
        rw [if_neg (by omega)]
        omega
      rw [this]
      simp [h2, eq_comm (a := e)]
    · have hlt : (if i < 0 then i + (l.length : Int) else i).toNat < l.length := by
        split <;> omega
      rw [List.getElem?_eq_getElem hlt]
      simp only [if_neg h1]
      simp [h2]
      omega

example : pyGet [1, 2, 3] (-4) = .error .index := (C59_index_refused _ _ _).2 (by decide)

end Verif.Distiller
