import Verif.Lemmas.InputRec

namespace Verif.InputRec
open Verif

/-! ## Property C104 -/

/-- The recorded inputs of a call are what the caller gave, in the order of the parameters, however
it was given: by place, by keyword or in `*rest`. -/
theorem C104_inputs {V : Type} (ps : List (Param V)) (hv : Valid ps) (args : List V) (kw : List (String × V))
    (hp : Plain ps kw) (b : List (String × Bound V)) (h : bindCall ps args kw = .ok b) :
    inputs ps args kw = b.flatMap (fun e => e.2.values) ∧ b.map (·.1) = ps.map (·.name) := by
  obtain ⟨extra, h'⟩ := bindCall_all h
  exact ⟨(bindAll_values ps args b hv hp h').symm, bindAll_names ps args b h'⟩

/-- `f(x, y, *, z=0)` called as `f(1, z=3, y=2)`. -/
example : inputs [⟨"x", .ordinary, none⟩, ⟨"y", .ordinary, none⟩, ⟨"z", .keyword, some 0⟩] [1] [("z", 3), ("y", 2)] = [1, 2, 3] := by
  decide +kernel

/-- Two calls that bind the parameters alike are recorded alike. -/
theorem C104_alike {V : Type} (ps : List (Param V)) (hv : Valid ps) (args args' : List V) (kw kw' : List (String × V))
    (hp : Plain ps kw) (hp' : Plain ps kw') (b : List (String × Bound V))
    (h : bindCall ps args kw = .ok b) (h' : bindCall ps args' kw' = .ok b) : inputs ps args kw = inputs ps args' kw' := by
  rw [(C104_inputs ps hv args kw hp b h).1, (C104_inputs ps hv args' kw' hp' b h').1]

/-- Where a parameter is found in the record: at the number of parameters before it that were
given. Missing: a place that does not depend on the call, see `C104_shift_violated`. -/
theorem C104_place_partial {V : Type} (ps : List (Param V)) (hv : Valid ps) (args : List V) (kw : List (String × V))
    (hp : Plain ps kw) (b : List (String × Bound V)) (h : bindCall ps args kw = .ok b)
    (i : Nat) (n : String) (v : V) (hi : b[i]? = some (n, .given v))
    (hb : ∀ e ∈ b.take i, ∃ w, e.2 = .given w ∨ e.2 = .default w) :
    (inputs ps args kw)[(b.take i).countP fun e => e.2.isGiven]? = some v ∧
    ((∀ e ∈ b.take i, ∃ w, e.2 = .given w) → (inputs ps args kw)[i]? = some v) := by
  have hpl := place b i n v hb hi
  rw [← (C104_inputs ps hv args kw hp b h).1] at hpl
  refine ⟨hpl, fun ha => ?_⟩
  have hlen : i < b.length := by
    by_contra hc
    rw [List.getElem?_eq_none (by omega)] at hi
    cases hi
  have : (b.take i).countP (fun e => e.2.isGiven) = i := by
    rw [List.countP_eq_length.2, List.length_take]
    · omega
    · intro e he
      obtain ⟨w, hw⟩ := ha e he
      rw [hw]; rfl
  rwa [this] at hpl

/-- DISAGREEMENT: the place of a parameter in the record depends on the call: when a parameter with a
default is left out, the next one that is given stands in its place. -/
theorem C104_shift_violated {V : Type} (ps : List (Param V)) (hv : Valid ps) (args : List V) (kw : List (String × V))
    (hp : Plain ps kw) (b : List (String × Bound V)) (h : bindCall ps args kw = .ok b)
    (i : Nat) (m n : String) (d v : V) (hd : b[i]? = some (m, .default d)) (hi : b[i + 1]? = some (n, .given v))
    (hb : ∀ e ∈ b.take i, ∃ w, e.2 = .given w) :
    (inputs ps args kw)[i]? = some v := by
  have ht : b.take (i + 1) = b.take i ++ [(m, .default d)] := by
    rw [List.take_add_one, hd]; rfl
  have := (C104_place_partial ps hv args kw hp b h (i + 1) n v hi (by
    intro e he
    rw [ht] at he
    rcases List.mem_append.1 he with he | he
    · obtain ⟨w, hw⟩ := hb e he; exact ⟨w, Or.inl hw⟩
    · simp at he; exact ⟨d, Or.inr (by rw [he])⟩)).1
  have hc : (b.take (i + 1)).countP (fun e => e.2.isGiven) = i := by
    have hlen : i < b.length := by
      by_contra hc
      rw [List.getElem?_eq_none (by omega)] at hd
      cases hd
    rw [ht, List.countP_append, List.countP_eq_length.2, List.length_take]
    · simp [Bound.isGiven]; omega
    · intro e he
      obtain ⟨w, hw⟩ := hb e he
      rw [hw]; rfl
  rwa [hc] at this

/-- `f(x, scale=1, mask=None)` called as `f(5, mask=7)`: the mask stands where the scale is
expected. -/
example : inputs [⟨"x", .ordinary, none⟩, ⟨"scale", .ordinary, some 1⟩, ⟨"mask", .ordinary, some 0⟩] [5] [("mask", 7)] = [5, 7] ∧
    bindCall [⟨"x", .ordinary, none⟩, ⟨"scale", .ordinary, some 1⟩, ⟨"mask", .ordinary, some 0⟩] [5] [("mask", 7)]
      = .ok [("x", .given 5), ("scale", .default 1), ("mask", .given 7)] := by
  decide +kernel

/-- DISAGREEMENT: keywords taken by `**more` are inputs of the function but are not recorded. -/
theorem C104_more_violated {V : Type} (ps : List (Param V)) (args : List V) (kw : List (String × V)) (n : String) (v : V)
    (hn : ∀ p ∈ ps, p.name ≠ n) (b : List (String × Bound V)) (h : bindCall ps args (kw ++ [(n, v)]) = .ok b) :
    inputs ps args (kw ++ [(n, v)]) = inputs ps args kw ∧
    ∃ p ∈ ps, p.kind = .more ∧ ∃ d, (p.name, .more d) ∈ b ∧ (n, v) ∈ d := by
  have happ : ∀ m, m ≠ n → (kw ++ [(n, v)]).lookup m = kw.lookup m := by
    intro m hm
    rw [List.lookup_append]
    have : List.lookup m [(n, v)] = none := by
      rw [List.lookup_cons]
      have : (m == n) = false := by simpa using hm
      rw [this]; rfl
    rw [this]
    cases kw.lookup m <;> rfl
  refine ⟨?_, ?_⟩
  · unfold inputs
    congr 1
    apply List.filterMap_congr
    intro m hm
    obtain ⟨p, hp, rfl⟩ := List.mem_map.1 hm
    exact happ _ (hn p hp)
  · unfold bindCall at h
    dsimp only at h
    generalize hE : (kw ++ [(n, v)]).filter (fun k => !ps.any fun p => p.named && p.name == k.1) = E at h
    have hmem : (n, v) ∈ E := by
      rw [← hE, List.mem_filter]
      refine ⟨by simp, ?_⟩
      rw [Bool.not_eq_true', List.any_eq_false]
      intro p hp
      simp [hn p hp]
    split at h
    · cases h
    · rename_i hc
      have hany : ps.any (fun p => p.kind == .more) = true := by
        cases hany : ps.any (fun p => p.kind == .more) with
        | true => rfl
        | false =>
          exfalso; apply hc
          rw [hany]
          have : E.isEmpty = false := by
            cases E with
            | nil => cases hmem
            | cons => rfl
          rw [this]; rfl
      obtain ⟨p, hp, hk⟩ := List.any_eq_true.1 hany
      have hk : p.kind = .more := by simpa using hk
      refine ⟨p, hp, hk, E, ?_, hmem⟩
      clear hE hc hany hn happ hmem
      generalize kw ++ [(n, v)] = K at h
      induction ps generalizing args b with
      | nil => cases hp
      | cons q ps ih =>
        rw [bindAll_cons] at h
        rcases List.mem_cons.1 hp with rfl | hp
        · rw [hk] at h
          obtain ⟨x, s, hx, hs, rfl⟩ := cons_ok h
          cases hx
          simp
        · cases hq : q.kind with
          | ordinary =>
            rw [hq] at h
            cases args with
            | cons w args =>
              dsimp only at h
              by_cases hl : (K.lookup q.name).isSome = true
              · rw [if_pos hl] at h; cases h
              · rw [if_neg hl] at h
                obtain ⟨x, s, hx, hs, rfl⟩ := cons_ok h
                exact List.mem_cons_of_mem _ (ih _ _ hp hs)
            | nil =>
              obtain ⟨x, s, hx, hs, rfl⟩ := cons_ok h
              exact List.mem_cons_of_mem _ (ih _ _ hp hs)
          | rest =>
            rw [hq] at h
            obtain ⟨x, s, hx, hs, rfl⟩ := cons_ok h
            exact List.mem_cons_of_mem _ (ih _ _ hp hs)
          | keyword =>
            rw [hq] at h
            obtain ⟨x, s, hx, hs, rfl⟩ := cons_ok h
            exact List.mem_cons_of_mem _ (ih _ _ hp hs)
          | more =>
            rw [hq] at h
            obtain ⟨x, s, hx, hs, rfl⟩ := cons_ok h
            exact List.mem_cons_of_mem _ (ih _ _ hp hs)

example : bindCall [⟨"x", .ordinary, none⟩, ⟨"kwargs", .more, none⟩] [1] [("y", 2)] = .ok [("x", .given 1), ("kwargs", .more [("y", 2)])] ∧
    inputs [⟨"x", .ordinary, none⟩, ⟨"kwargs", .more, none⟩] [1] [("y", 2)] = [1] := by decide +kernel

/-- A method called on an object is recorded as a function of its other parameters: within the
recording the wrapper is called, and it gets the object first. -/
theorem C104_method {V : Type} (c : Cls) (n : String) (w : Nat) (self : Param V) (hs : self.kind = .ordinary) (ps : List (Param V))
    (s : V) (args got : List V) (hc : callAttr (enter c n w) n (some s) args = some (w, got))
    (kw : List (String × V)) (b : List (String × Bound V)) (h : bindCall (self :: ps) got kw = .ok b) :
    got = s :: args ∧ methodInputs (self :: ps) got kw = inputs ps args kw := by
  have hg : got = s :: args := by
    unfold callAttr enter Cls.set at hc
    simp at hc
    exact hc.symm
  refine ⟨hg, ?_⟩
  subst hg
  obtain ⟨extra, h'⟩ := bindCall_all h
  rw [bindAll_cons, hs] at h'
  dsimp only at h'
  have hn : kw.lookup self.name = none := by
    cases hq : kw.lookup self.name with
    | none => rfl
    | some w => rw [hq] at h'; cases h'
  unfold methodInputs inputs
  rw [filterMap_names, hn]
  rfl

example : methodInputs [⟨"self", .ordinary, none⟩, ⟨"x", .ordinary, none⟩, ⟨"y", .ordinary, none⟩] [9] [("y", 2), ("x", 1)] = [1, 2] := by
  decide +kernel

/-- After the recording a method is what it was, and no other name of the class has changed at any
time. Missing: static methods, see `C104_static_violated`. -/
theorem C104_restored_partial (c : Cls) (n : String) (w f : Nat) (h : c n = some (.func f)) (saved : Nat)
    (hr : methodRecorder c n = .ok saved) :
    exit (enter c n w) n saved = c ∧ ∀ m, m ≠ n → enter c n w m = c m := by
  unfold methodRecorder at hr
  rw [h] at hr
  cases hr
  refine ⟨?_, fun m hm => ?_⟩
  · funext m
    unfold exit enter Cls.set
    by_cases hm : m = n
    · rw [if_pos hm, hm, h]; rfl
    · rw [if_neg hm, if_neg hm]
  · unfold enter Cls.set
    rw [if_neg hm]

example : methodRecorder (fun m => if m = "f" then some (.func 3) else none) "f" = .ok 3 := by decide +kernel

/-- DISAGREEMENT: a static method is accepted, but turned into an ordinary one: within and after the
recording a call on an object gets that object as first argument, and the record of a call through
the class lacks the first input. -/
theorem C104_static_violated {V : Type} (c : Cls) (n : String) (w f : Nat) (h : c n = some (.static f))
    (ps : List (Param V)) (s v : V) (args : List V) (kw : List (String × V)) :
    methodRecorder c n = .ok f ∧
    callAttr c n (some s) (v :: args) = some (f, v :: args) ∧
    callAttr (enter c n w) n (some s) (v :: args) = some (w, s :: v :: args) ∧
    callAttr (exit (enter c n w) n f) n (some s) (v :: args) = some (f, s :: v :: args) ∧
    callAttr (enter c n w) n none (v :: args) = some (w, v :: args) ∧
    inputs ps (v :: args) kw = v :: methodInputs ps (v :: args) kw := by
  refine ⟨?_, ?_, ?_, ?_, ?_, rfl⟩
  · unfold methodRecorder; rw [h]; rfl
  · unfold callAttr; rw [h]
  · simp [callAttr, enter, Cls.set]
  · simp [callAttr, exit, Cls.set]
  · simp [callAttr, enter, Cls.set]

/-- Recording changes no result and no exception, and the buffer holds one record for every call that
returned, in the order of the calls. -/
theorem C104_calls {V R : Type} (rcd : List (Param V) → List V → List (String × V) → List V) (ps : List (Param V))
    (body : List (String × Bound V) → Except Err R) (buf : List (List V)) (cs : List (Call V)) :
    calls rcd ps body buf cs = (cs.map (unwrapped ps body),
      buf ++ (cs.filter fun c => (unwrapped ps body c).toOption.isSome).map fun c => rcd ps c.args c.kw) := by
  induction cs generalizing buf with
  | nil => simp [calls]
  | cons c cs ih =>
    have hw : wrapped rcd ps body buf c = (unwrapped ps body c,
        if (unwrapped ps body c).toOption.isSome then buf ++ [rcd ps c.args c.kw] else buf) := by
      cases hb : bindCall ps c.args c.kw with
      | error e => simp [wrapped, unwrapped, hb, Except.toOption]
      | ok b =>
        cases hr : body b with
        | error e => simp [wrapped, unwrapped, hb, hr, Except.toOption]
        | ok r => simp [wrapped, unwrapped, hb, hr, Except.toOption]
    rw [calls, hw, ih]
    by_cases hc : (unwrapped ps body c).toOption.isSome = true
    · simp [hc]
    · simp [hc]

/-- DISAGREEMENT: the recorder of the inputs of a module does not see keywords: a module called with
all its inputs by keyword has an empty record. -/
theorem C104_module_violated {V : Type} (ps : List (Param V)) (kw : List (String × V)) (b : List (String × Bound V))
    (hv : Valid ps) (hp : Plain ps kw) (h : bindCall ps [] kw = .ok b) :
    moduleInputs [] kw = [] ∧ inputs ps [] kw = b.flatMap fun e => e.2.values :=
  ⟨rfl, (C104_inputs ps hv [] kw hp b h).1⟩

/-- With positional inputs only, it records the inputs. Missing: inputs given by keyword, see `C104_module_violated`. -/
theorem C104_module_partial {V : Type} (ps : List (Param V)) (args : List V) : moduleInputs args [] = inputs ps args [] := by
  unfold moduleInputs inputs
  have : ((ps.map (·.name)).filterMap fun n => List.lookup n ([] : List (String × V))) = [] := by
    rw [List.filterMap_eq_nil_iff]; intro n _; rfl
  rw [this, List.append_nil]

/-- The parameter recorder finds a parameter under the first of its names. -/
theorem C104_param (source : String) (buf : List Nat) (m : List (String × Nat)) (hm : (m.map (·.1)).Nodup) (x : Nat) :
    prepareParam source buf (some m) = .ok (buf ++ [x]) ↔
      ∃ a b, m = a ++ (source, x) :: b ∧ ∀ y ∈ a, y.2 ≠ x := by
  have key : ∀ {p : String × Nat}, (firsts m).find? (fun p => p.1 == source) = some p ↔ p.1 = source ∧ p ∈ firsts m := by
    intro p
    constructor
    · intro h
      exact ⟨by simpa using List.find?_some h, List.mem_of_find?_eq_some h⟩
    · rintro ⟨hs, hp⟩
      cases hf : (firsts m).find? (fun p => p.1 == source) with
      | none =>
        rw [List.find?_eq_none] at hf
        exact absurd (by simpa using hs) (hf p hp)
      | some q =>
        have h1 : q.1 = source := by simpa using List.find?_some hf
        have h2 := List.mem_of_find?_eq_some hf
        have hsub : ∀ z ∈ firsts m, z ∈ m := by
          intro z hz
          obtain ⟨a, b, rfl, _⟩ := firsts_mem.1 hz
          simp
        have : ∀ (l : List (String × Nat)), (l.map (·.1)).Nodup → ∀ a ∈ l, ∀ b ∈ l, a.1 = b.1 → a = b := by
          intro l hl
          induction l with
          | nil => intro a ha; cases ha
          | cons c l ih =>
            rw [List.map_cons, List.nodup_cons] at hl
            intro a ha b hb he
            rcases List.mem_cons.1 ha with rfl | ha' <;> rcases List.mem_cons.1 hb with rfl | hb'
            · rfl
            · exact absurd (List.mem_map.2 ⟨b, hb', he.symm⟩) hl.1
            · exact absurd (List.mem_map.2 ⟨a, ha', he⟩) hl.1
            · exact ih hl.2 a ha' b hb' he
        rw [this m hm q (hsub q h2) p (hsub p hp) (h1.trans hs.symm)]
  unfold prepareParam
  dsimp only
  constructor
  · intro h
    cases hf : (firsts m).find? (fun p => p.1 == source) with
    | none => rw [hf] at h; cases h
    | some q =>
      rw [hf] at h
      have hx : q.2 = x := by simpa using h
      obtain ⟨h1, h2⟩ := key.1 hf
      obtain ⟨a, b, he, hne⟩ := firsts_mem.1 h2
      refine ⟨a, b, ?_, fun y hy => hx ▸ hne y hy⟩
      rw [he, ← h1, ← hx]
  · rintro ⟨a, b, he, hne⟩
    have := (key (p := (source, x))).2 ⟨rfl, firsts_mem.2 ⟨a, b, he, hne⟩⟩
    rw [this]

/-- Without a model, and for a parameter that is not there, preparing is an `AssertionError`. -/
theorem C104_param_refused (source : String) (buf : List Nat) (m : Option (List (String × Nat)))
    (h : ∀ l, m = some l → source ∉ l.map (·.1)) : prepareParam source buf m = .error .assertion := by
  unfold prepareParam
  cases m with
  | none => rfl
  | some l =>
    dsimp only
    rw [List.find?_eq_none.2]
    intro p hp hs
    obtain ⟨a, b, rfl, _⟩ := firsts_mem.1 hp
    exact h _ rfl (List.mem_map.2 ⟨p, by simp, by simpa using hs⟩)

example : prepareParam "fc.weight" [] (some [("conv.weight", 0)]) = .error .assertion ∧ prepareParam "fc.weight" [] none = .error .assertion := by
  decide +kernel

/-- DISAGREEMENT: a parameter shared by two layers is not found under its second name. -/
theorem C104_tied_violated (buf : List Nat) (a b c : List (String × Nat)) (n n' : String) (x : Nat)
    (hm : ((a ++ (n, x) :: b ++ (n', x) :: c).map (·.1)).Nodup) :
    prepareParam n' buf (some (a ++ (n, x) :: b ++ (n', x) :: c)) = .error .assertion := by
  unfold prepareParam
  dsimp only
  cases hf : (firsts (a ++ (n, x) :: b ++ (n', x) :: c)).find? (fun p => p.1 == n') with
  | none => rfl
  | some q =>
    exfalso
    have h1 : q.1 = n' := by simpa using List.find?_some hf
    have hq : prepareParam n' buf (some (a ++ (n, x) :: b ++ (n', x) :: c)) = .ok (buf ++ [q.2]) := by
      unfold prepareParam; dsimp only; rw [hf]
    obtain ⟨a', b', he, hne⟩ := (C104_param n' buf _ hm q.2).1 hq
    -- the name occurs once, so the places agree
    have huniq : ∀ (l l' r r' : List (String × Nat)) (u w : Nat), l ++ (n', u) :: r = l' ++ (n', w) :: r' →
        ((l ++ (n', u) :: r).map (·.1)).Nodup → l = l' ∧ u = w := by
      intro l
      induction l with
      | nil =>
        intro l' r r' u w h hnd
        cases l' with
        | nil => simp at h; exact ⟨rfl, h.1⟩
        | cons z l' =>
          simp at h
          obtain ⟨rfl, rfl⟩ := h
          simp at hnd
      | cons z l ih =>
        intro l' r r' u w h hnd
        cases l' with
        | nil =>
          simp at h
          obtain ⟨rfl, h⟩ := h
          simp at hnd
        | cons z' l' =>
          simp at h
          obtain ⟨rfl, h⟩ := h
          rw [List.cons_append, List.map_cons, List.nodup_cons] at hnd
          obtain ⟨h1, h2⟩ := ih l' r r' u w h hnd.2
          exact ⟨by rw [h1], h2⟩
    obtain ⟨h2, h3⟩ := huniq _ _ _ _ _ _ he hm
    exact hne (n, x) (by rw [← h2]; simp) h3

example : prepareParam "head.weight" [] (some [("embed.weight", 0), ("head.weight", 0)]) = .error .assertion := by decide +kernel

/-- DISAGREEMENT: initialising again with another model does not change what is read: the parameter
of the first model, also within the context, whose entry clears every other recorder. -/
theorem C104_again_violated (source : String) (m : List (String × Nat)) (ms : List (List (String × Nat))) (buf : List Nat)
    (h : initParam source [] (m :: ms) = .ok buf) :
    ∃ x, prepareParam source [] (some m) = .ok [x] ∧ recordData (resetParam buf) = .ok x := by
  have hpre : ∀ (ms : List (List (String × Nat))) (b c : List Nat), initParam source b ms = .ok c → ∃ d, c = b ++ d := by
    intro ms
    induction ms with
    | nil => intro b c h; rw [initParam] at h; cases h; exact ⟨[], by simp⟩
    | cons k ms ih =>
      intro b c h
      rw [initParam] at h
      cases hp : prepareParam source b (some k) with
      | error e => rw [hp] at h; cases h
      | ok b' =>
        rw [hp] at h
        obtain ⟨d, rfl⟩ := ih b' c h
        unfold prepareParam at hp
        dsimp only at hp
        split at hp
        · rename_i q _
          cases hp
          exact ⟨q.2 :: d, by simp⟩
        · cases hp
  rw [initParam] at h
  cases hp : prepareParam source [] (some m) with
  | error e => rw [hp] at h; cases h
  | ok b =>
    rw [hp] at h
    obtain ⟨d, rfl⟩ := hpre ms b buf h
    unfold prepareParam at hp
    dsimp only at hp
    split at hp
    · rename_i p _
      cases hp
      exact ⟨p.2, rfl, rfl⟩
    · cases hp

example : initParam "w" [] [[("w", 1)], [("w", 2)]] = .ok [1, 2] := by decide +kernel

/-- A keyword that names no parameter that can be given by name is refused (unless there is a `**more`);
the names of `*rest` and `**more` are no such parameters. -/
theorem C104_unknown_refused {V : Type} (ps : List (Param V)) (args : List V) (kw : List (String × V)) {n : String} {v : V}
    (hn : (n, v) ∈ kw) (hp : ∀ p ∈ ps, p.name = n → p.kind = .rest) (hm : ∀ p ∈ ps, p.kind ≠ .more) :
    bindCall ps args kw = .error .type := by
  unfold bindCall
  dsimp only
  apply if_pos
  have h1 : ps.any (fun p => p.kind == .more) = false := by
    rw [List.any_eq_false]
    intro p hpp
    simpa using hm p hpp
  rw [h1]
  have h2 : (n, v) ∈ kw.filter fun k => !ps.any fun p => p.named && p.name == k.1 := by
    refine List.mem_filter.2 ⟨hn, ?_⟩
    rw [Bool.not_eq_true', List.any_eq_false]
    intro p hpp
    by_cases hpn : p.name = n
    · simp [Param.named, hp p hpp hpn]
    · simp [hpn]
  generalize kw.filter (fun k => !ps.any fun p => p.named && p.name == k.1) = l at h2
  cases l with
  | nil => cases h2
  | cons a l => rfl

example : bindCall (V := Nat) [⟨"x", .ordinary, none⟩, ⟨"args", .rest, none⟩] [1] [("args", 2)] = .error .type ∧
    bindCall (V := Nat) [⟨"x", .ordinary, none⟩, ⟨"y", .keyword, none⟩] [1] [("y", 2)] = .ok [("x", .given 1), ("y", .given 2)] := by
  decide +kernel

/-- Whatever is wrong with the arguments of a call, it is a `TypeError`. -/
theorem C104_binding_refused {V : Type} (ps : List (Param V)) (args : List V) (kw : List (String × V)) (e : Err)
    (h : bindCall ps args kw = .error e) : e = .type := by
  have hfill : ∀ (p : Param V) e, fill p kw = .error e → e = .type := by
    intro p e h
    unfold fill at h
    split at h
    · simp at h
    · split at h
      · simp at h
      · simpa using h.symm
  have hcons : ∀ (n : String) (b : Except Err (Bound V)) (r : Except Err (List (String × Bound V))) e,
      (∀ e, b = .error e → e = .type) → (∀ e, r = .error e → e = .type) → cons n b r = .error e → e = .type := by
    intro n b r e hb hr h
    cases b with
    | error x => exact hb e (by simpa [cons] using h)
    | ok b =>
      cases r with
      | error x => exact hr e (by simpa [cons] using h)
      | ok r => simp [cons] at h
  have hok : ∀ (b : Bound V) (e : Err), (Except.ok b : Except Err (Bound V)) = .error e → e = .type := by simp
  have hall : ∀ (extra : List (String × V)) (ps : List (Param V)) (args : List V) e, bindAll kw extra ps args = .error e → e = .type := by
    intro extra ps
    induction ps with
    | nil =>
      intro args e h
      cases args with
      | nil => simp [bindAll] at h
      | cons a args => simpa [bindAll] using h.symm
    | cons p ps ih =>
      intro args e h
      unfold bindAll at h
      split at h
      · split at h
        · split at h
          · simpa using h.symm
          · exact hcons _ _ _ _ (hok _) (ih _) h
        · exact hcons _ _ _ _ (hfill p) (ih _) h
      · exact hcons _ _ _ _ (hok _) (ih _) h
      · exact hcons _ _ _ _ (hfill p) (ih _) h
      · exact hcons _ _ _ _ (hok _) (ih _) h
  unfold bindCall at h
  dsimp only at h
  split at h
  · simpa using h.symm
  · exact hall _ _ _ _ h

example : bindCall ([] : List (Param ℕ)) [1] [] = .error .type := rfl

end Verif.InputRec
