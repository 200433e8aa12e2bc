import Verif.Spec.Sandwich

/-! Helper lemmas for `Verif/Props/Sandwich.lean`. -/

namespace Verif.Sandwich
open Verif

variable {N B W O : Type} [AddCommGroup W] [Module ℚ W]

/-- Kinds that need no teacher. -/
def Kind.plain : Kind → Prop
  | .max => True
  | .subnet _ => True
  | _ => False

/-- The state after the forward pass of a kind. -/
def seen (pick : Kind → N) (b : B) (s : St N B W O) (k : Kind) : St N B W O :=
  { s with teacher := if k = .max then some (pick .max, b, s.w) else s.teacher, log := s.log ++ [(pick k, b, s.w)] }

/-- A list of kinds that can be trained: the largest subnet comes first, or no teacher is
needed, or one was recorded. -/
def Fed (pick : Kind → N) (b : B) (s : St N B W O) (ks : List Kind) : Prop :=
  (∃ r, ks = .max :: r) ∨ ∀ k ∈ ks, k.plain ∨ s.teacher = some (pick .max, b, s.w)

/-- At the beginning of iteration `it`: the counters agree with the iteration, or will be set. -/
def Counted (t : Task N B W O) (it : Nat) (s : St N B W O) : Prop :=
  s.ready = false ∨ s.c = ⟨t.acc, it * t.size, t.maxIters * t.size⟩

theorem update_quiet (t : Task N B W O) (s : St N B W O) (g : W) (f : Nat) (hf : s.c.factor = .ok f)
    (hu : Counter.shouldUpdate { s.c with inner := s.c.inner + 1 } = false) :
    s.update t g = .ok { s with g := s.g + (1 / (f : ℚ)) • g, c := { s.c with inner := s.c.inner + 1 } } := by
  unfold St.update
  rw [hf]
  dsimp only
  rw [if_neg (by simp [hu])]

theorem update_last (t : Task N B W O) (s : St N B W O) (g : W) (f : Nat) (hf : s.c.factor = .ok f)
    (hu : Counter.shouldUpdate { s.c with inner := s.c.inner + 1 } = true) :
    s.update t g = .ok { s with
      w := (t.opt s.o s.w (s.g + (1 / (f : ℚ)) • g)).2, o := (t.opt s.o s.w (s.g + (1 / (f : ℚ)) • g)).1,
      g := 0, c := { s.c with inner := s.c.inner + 1 } } := by
  unfold St.update
  rw [hf]
  dsimp only
  rw [if_pos hu]

/-- What training a kind comes to: an update with its gradient. -/
theorem train_eq (t : Task N B W O) (pick : Kind → N) (b : B) (s : St N B W O) (k : Kind)
    (hk : k.plain ∨ s.teacher = some (pick .max, b, s.w)) :
    s.train t pick b k = St.update t (seen pick b s k) (lossGrad t pick b s.w k) := by
  cases k with
  | max => rfl
  | subnet i => rfl
  | min =>
    have h : s.teacher = some (pick .max, b, s.w) := hk.resolve_left (fun h => h)
    cases ha : t.algo <;> simp [St.train, St.distillStep, h, lossGrad, seen, ha]
  | random i =>
    have h : s.teacher = some (pick .max, b, s.w) := hk.resolve_left (fun h => h)
    cases ha : t.algo <;> simp [St.train, St.distillStep, h, lossGrad, seen, ha]

/-- Several kinds without a step before the last one. -/
theorem loop (t : Task N B W O) (pick : Kind → N) (b : B) (f : Nat) (u : Bool) (ks : List Kind) (hne : ks ≠ [])
    (s : St N B W O) (hfed : Fed pick b s ks)
    (hf : ∀ j < ks.length, Counter.factor { s.c with inner := s.c.inner + j } = .ok f)
    (hq : ∀ j, 0 < j → j < ks.length → Counter.shouldUpdate { s.c with inner := s.c.inner + j } = false)
    (hu : Counter.shouldUpdate { s.c with inner := s.c.inner + ks.length } = u) :
    ∃ s', ks.foldlM (St.train t pick b) s = .ok s' ∧
      s'.c = { s.c with inner := s.c.inner + ks.length } ∧ s'.ready = s.ready ∧
      s'.log = s.log ++ ks.map (fun k => (pick k, b, s.w)) ∧
      (let G := s.g + (1 / (f : ℚ)) • (ks.map (lossGrad t pick b s.w)).sum
       if u then (s'.o, s'.w) = t.opt s.o s.w G ∧ s'.g = 0 else s'.o = s.o ∧ s'.w = s.w ∧ s'.g = G) := by
  induction ks generalizing s with
  | nil => exact absurd rfl hne
  | cons k ks ih =>
    have hk : k.plain ∨ s.teacher = some (pick .max, b, s.w) := by
      rcases hfed with ⟨r, hr⟩ | h
      · obtain ⟨rfl, rfl⟩ := List.cons.inj hr
        exact Or.inl trivial
      · exact h k (by simp)
    have hf0 : s.c.factor = .ok f := by simpa using hf 0 (by simp)
    have hmap : ∀ x : St N B W O, (k :: ks).foldlM (St.train t pick b) s =
        (s.train t pick b k).bind fun y => ks.foldlM (St.train t pick b) y := fun _ => rfl
    cases ks with
    | nil =>
      rw [hmap s, train_eq t pick b s k hk]
      cases u with
      | false =>
        rw [update_quiet t (seen pick b s k) _ f hf0 hu]
        refine ⟨_, rfl, rfl, rfl, by simp [seen], ?_⟩
        simp [seen]
      | true =>
        rw [update_last t (seen pick b s k) _ f hf0 hu]
        refine ⟨_, rfl, rfl, rfl, by simp [seen], ?_⟩
        simp [seen]
    | cons k' ks =>
      have hq1 : Counter.shouldUpdate { s.c with inner := s.c.inner + 1 } = false := hq 1 (by omega) (by simp)
      rw [hmap s, train_eq t pick b s k hk, update_quiet t (seen pick b s k) _ f hf0 hq1]
      obtain ⟨s', e0, e1, e2, e3, e4⟩ := ih (by simp) { seen pick b s k with
          g := s.g + (1 / (f : ℚ)) • lossGrad t pick b s.w k, c := { s.c with inner := s.c.inner + 1 } }
        (by
          right
          intro x hx
          by_cases hm : k = .max
          · right; simp [seen, hm]
          · rcases hfed with ⟨r, hr⟩ | h
            · exact absurd (List.cons.inj hr).1 hm
            · simpa [seen, hm] using h x (by simp at hx ⊢; tauto))
        (by
          intro j hj
          have := hf (j + 1) (by simp at hj ⊢; omega)
          rw [show s.c.inner + (j + 1) = s.c.inner + 1 + j by omega] at this
          exact this)
        (by
          intro j h0 hj
          have := hq (j + 1) (by omega) (by simp at hj ⊢; omega)
          rw [show s.c.inner + (j + 1) = s.c.inner + 1 + j by omega] at this
          exact this)
        (by
          have h2 : s.c.inner + (k :: k' :: ks).length = s.c.inner + 1 + (k' :: ks).length := by simp; omega
          rw [h2] at hu
          exact hu)
      refine ⟨s', e0, ?_, e2, ?_, ?_⟩
      · rw [e1]
        dsimp only
        simp only [List.length_cons]
        congr 1
        omega
      · rw [e3]; simp [seen]
      · dsimp only at e4 ⊢
        rw [add_assoc, ← smul_add] at e4
        rw [List.map_cons, List.sum_cons]
        exact e4

theorem kinds_fed (pick : Kind → N) (b : B) (s : St N B W O) (a : Algo) (n : Nat) : Fed pick b s (kinds a n) := by
  cases a with
  | slimmable =>
    right
    intro k hk
    obtain ⟨i, _, rfl⟩ := List.mem_map.1 hk
    exact Or.inl trivial
  | autoslim => exact Or.inl ⟨_, rfl⟩
  | bignas => exact Or.inl ⟨_, rfl⟩

theorem reinit_spec (t : Task N B W O) (it : Nat) (s : St N B W O) (h : Counted t it s) :
    ∃ s', s.reinit t it = s' ∧ s'.ready = true ∧ s'.c = ⟨t.acc, it * t.size, t.maxIters * t.size⟩ ∧
      s'.w = s.w ∧ s'.o = s.o ∧ s'.g = s.g ∧ s'.log = s.log := by
  unfold St.reinit
  by_cases hr : s.ready = true
  · rw [if_pos hr]
    refine ⟨s, rfl, hr, ?_, rfl, rfl, rfl, rfl⟩
    rcases h with h | h
    · rw [h] at hr; cases hr
    · exact h
  · rw [if_neg hr]
    exact ⟨_, rfl, rfl, rfl, rfl, rfl, rfl, rfl⟩

/-- One iteration in which at most the last update takes a step. -/
theorem step_spec (t : Task N B W O) (it : Nat) (pick : Kind → N) (b : B) (s : St N B W O) (f : Nat) (u : Bool)
    (h0 : 0 < t.size) (h : Counted t it s)
    (hf : ∀ j < t.size, Counter.factor ⟨t.acc, it * t.size + j, t.maxIters * t.size⟩ = .ok f)
    (hq : ∀ j, 0 < j → j < t.size → Counter.shouldUpdate ⟨t.acc, it * t.size + j, t.maxIters * t.size⟩ = false)
    (hu : Counter.shouldUpdate ⟨t.acc, (it + 1) * t.size, t.maxIters * t.size⟩ = u) :
    ∃ s', s.step t it pick b = .ok s' ∧ Counted t (it + 1) s' ∧
      s'.log = s.log ++ forwards t s.w (pick, b) ∧
      (let G := s.g + (1 / (f : ℚ)) • batchGrad t s.w (pick, b)
       if u then (s'.o, s'.w) = t.opt s.o s.w G ∧ s'.g = 0 else s'.o = s.o ∧ s'.w = s.w ∧ s'.g = G) := by
  obtain ⟨r, er, r1, r2, r3, r4, r5, r6⟩ := reinit_spec t it s h
  have hlen : (kinds t.algo t.num).length = t.size := rfl
  obtain ⟨s', e0, e1, e2, e3, e4⟩ := loop t pick b f u (kinds t.algo t.num)
    (by intro he; rw [he] at hlen; simp at hlen; omega) r (kinds_fed pick b r _ _)
    (by rw [r2, hlen]; exact hf) (by rw [r2, hlen]; exact hq)
    (by rw [r2, hlen]; dsimp only; rw [← hu]; congr 2; ring)
  refine ⟨s', ?_, ?_, ?_, ?_⟩
  · unfold St.step
    rw [er]
    exact e0
  · right
    rw [e1, r2, hlen]
    dsimp only
    congr 1
    ring
  · rw [e3, r6, r3]; rfl
  · rw [r3, r4, r5] at e4
    exact e4

theorem factor_inside (acc j m : Nat) (ha : 0 < acc) (h : j < m - m % acc) : Counter.factor ⟨acc, j, m⟩ = .ok acc := by
  unfold Counter.factor
  dsimp only
  by_cases h1 : acc = 1
  · rw [if_pos h1, h1]
  · rw [if_neg h1, if_pos h, if_pos ha]

theorem update_total (t : Task N B W O) (s : St N B W O) (g : W) (ha : 0 < s.c.acc) (hi : s.c.inner < s.c.max) :
    ∃ s', s.update t g = .ok s' ∧ s'.c = { s.c with inner := s.c.inner + 1 } ∧ s'.ready = s.ready ∧ s'.log = s.log ∧
      s'.teacher = s.teacher ∧ (s.c.inner + 1 = s.c.max → s'.g = 0) := by
  obtain ⟨f, hf⟩ : ∃ f, s.c.factor = .ok f := by
    unfold Counter.factor
    by_cases h1 : s.c.acc = 1
    · exact ⟨1, by rw [if_pos h1]⟩
    · rw [if_neg h1]
      dsimp only
      by_cases h2 : s.c.inner < s.c.max - s.c.max % s.c.acc
      · rw [if_pos h2, if_pos ha]; exact ⟨_, rfl⟩
      · rw [if_neg h2, if_pos (by omega)]; exact ⟨_, rfl⟩
  cases hu : Counter.shouldUpdate { s.c with inner := s.c.inner + 1 } with
  | false =>
    refine ⟨_, update_quiet t s g f hf hu, rfl, rfl, rfl, rfl, ?_⟩
    intro h
    unfold Counter.shouldUpdate at hu
    simp [h] at hu
  | true => exact ⟨_, update_last t s g f hf hu, rfl, rfl, rfl, rfl, fun _ => rfl⟩

theorem loop_total (t : Task N B W O) (pick : Kind → N) (b : B) (ks : List Kind) (s : St N B W O)
    (hfed : (∃ r, ks = .max :: r) ∨ ∀ k ∈ ks, k.plain ∨ s.teacher.isSome) (ha : 0 < s.c.acc)
    (hi : s.c.inner + ks.length ≤ s.c.max) :
    ∃ s', ks.foldlM (St.train t pick b) s = .ok s' ∧ s'.c = { s.c with inner := s.c.inner + ks.length } ∧ s'.ready = s.ready ∧
      s'.log.map (fun r => (r.1, r.2.1)) = s.log.map (fun r => (r.1, r.2.1)) ++ ks.map (fun k => (pick k, b)) ∧
      (ks ≠ [] → s.c.inner + ks.length = s.c.max → s'.g = 0) := by
  induction ks generalizing s with
  | nil => exact ⟨s, rfl, by simp, rfl, by simp, by simp⟩
  | cons k ks ih =>
    have hk : k.plain ∨ s.teacher.isSome := by
      rcases hfed with ⟨r, hr⟩ | h
      · obtain ⟨rfl, rfl⟩ := List.cons.inj hr
        exact Or.inl trivial
      · exact h k (by simp)
    simp only [List.length_cons] at hi
    obtain ⟨g, te, htr, hte⟩ : ∃ g te, s.train t pick b k =
        St.update t { s with teacher := te, log := s.log ++ [(pick k, b, s.w)] } g ∧
        (k = .max → te.isSome) ∧ (s.teacher.isSome → te.isSome) := by
      cases k with
      | max => exact ⟨_, some _, rfl, fun _ => rfl, fun _ => rfl⟩
      | subnet i => exact ⟨_, s.teacher, rfl, by simp, id⟩
      | min =>
        obtain ⟨r, hr⟩ := Option.isSome_iff_exists.1 (hk.resolve_left (fun h => h))
        exact ⟨_, s.teacher, by simp only [St.train, St.distillStep, hr]; rfl, by simp, id⟩
      | random i =>
        obtain ⟨r, hr⟩ := Option.isSome_iff_exists.1 (hk.resolve_left (fun h => h))
        exact ⟨_, s.teacher, by simp only [St.train, St.distillStep, hr]; rfl, by simp, id⟩
    obtain ⟨s1, e0, e1, e2, e3, e4, e5⟩ := update_total t { s with teacher := te, log := s.log ++ [(pick k, b, s.w)] } g ha
      (by dsimp only; omega)
    obtain ⟨s', f0, f1, f2, f3, f4⟩ := ih s1
      (by
        right
        intro x hx
        rw [e4]
        rcases hfed with ⟨r, hr⟩ | h
        · exact Or.inr (hte.1 (List.cons.inj hr).1)
        · exact (h x (by simp [hx])).imp id hte.2)
      (by rw [e1]; exact ha) (by rw [e1]; dsimp only; omega)
    refine ⟨s', ?_, ?_, by rw [f2, e2], ?_, ?_⟩
    · rw [List.foldlM_cons, htr, e0]
      exact f0
    · rw [f1, e1]
      dsimp only
      simp only [List.length_cons]
      congr 1
      omega
    · rw [f3, e3]; simp
    · intro _ hm
      simp only [List.length_cons] at hm
      cases ks with
      | nil =>
        have : s' = s1 := (Except.ok.inj f0).symm
        rw [this]
        exact e5 (by simpa using hm)
      | cons y ys =>
        exact f4 (by simp) (by rw [e1]; dsimp only; omega)

theorem update_log (t : Task N B W O) (s s' : St N B W O) (g : W) (h : s.update t g = .ok s') : s'.log = s.log := by
  unfold St.update at h
  cases hf : s.c.factor with
  | error e => rw [hf] at h; cases h
  | ok f =>
    rw [hf] at h
    dsimp only at h
    by_cases hu : Counter.shouldUpdate { s.c with inner := s.c.inner + 1 } = true
    · rw [if_pos hu] at h; cases h; rfl
    · rw [if_neg hu] at h; cases h; rfl

theorem train_log (t : Task N B W O) (pick : Kind → N) (b : B) (s s' : St N B W O) (k : Kind)
    (h : s.train t pick b k = .ok s') : s'.log = s.log ++ [(pick k, b, s.w)] := by
  cases k with
  | max => exact update_log t _ s' _ h
  | subnet i => exact update_log t _ s' _ h
  | min =>
    cases ht : s.teacher with
    | none => simp [St.train, St.distillStep, ht] at h
    | some r => simp only [St.train, St.distillStep, ht] at h; exact update_log t _ s' _ h
  | random i =>
    cases ht : s.teacher with
    | none => simp [St.train, St.distillStep, ht] at h
    | some r => simp only [St.train, St.distillStep, ht] at h; exact update_log t _ s' _ h

theorem loop_log (t : Task N B W O) (pick : Kind → N) (b : B) (ks : List Kind) (s s' : St N B W O)
    (h : ks.foldlM (St.train t pick b) s = .ok s') : s.log <+: s'.log := by
  induction ks generalizing s with
  | nil => cases h; exact List.prefix_refl _
  | cons k ks ih =>
    rw [List.foldlM_cons] at h
    cases hk : s.train t pick b k with
    | error e => rw [hk] at h; cases h
    | ok s1 =>
      rw [hk] at h
      have := ih s1 h
      rw [train_log t pick b s s1 k hk] at this
      exact (List.prefix_append _ _).trans this

theorem put_new {V : Type} (d : List (Name × V)) (k : Name) (v : V) (h : k ∉ d.map (·.1)) : put d k v = d ++ [(k, v)] := by
  unfold put
  rw [if_neg]
  intro ha
  obtain ⟨x, hx, e⟩ := List.any_eq_true.1 ha
  exact h (List.mem_map.2 ⟨x, hx, by simpa using e⟩)

theorem update_new {V : Type} (e : List (Name × V)) : ∀ d : List (Name × V), ((d ++ e).map (·.1)).Nodup → update d e = d ++ e := by
  induction e with
  | nil => intro d _; simp [update]
  | cons x e ih =>
    intro d h
    have h1 : x.1 ∉ d.map (·.1) := by
      intro hx
      rw [List.map_append, List.nodup_append] at h
      exact h.2.2 _ hx _ (by simp) rfl
    have h2 : update d (x :: e) = update (put d x.1 x.2) e := rfl
    rw [h2, put_new d x.1 x.2 h1, ih _ (by simpa using h)]
    simp

theorem addPrefix_eq {V : Type} (l : List (Name × V)) (p : Name) (h : (l.map (·.1)).Nodup) :
    addPrefix l p = l.map fun x => (p ++ '.' :: x.1, x.2) := by
  have h1 : addPrefix l p = update [] (l.map fun x => (p ++ '.' :: x.1, x.2)) := by
    unfold addPrefix update
    rw [List.foldl_map]
  rw [h1, update_new]
  · rfl
  · rw [List.nil_append, List.map_map]
    have : ((fun x : Name × V => x.1) ∘ fun x : Name × V => (p ++ '.' :: x.1, x.2)) = (fun n => p ++ '.' :: n) ∘ (·.1) := rfl
    rw [this, ← List.map_map]
    exact List.Nodup.map (fun a b hab => by simpa using hab) h

theorem digits_inj {i j : Nat} (h : Nat.toDigits 10 i = Nat.toDigits 10 j) : i = j := by
  have h1 := Nat.ofDigitChars_toDigits (b := 10) (n := i) (by omega) (by omega)
  rw [h, Nat.ofDigitChars_toDigits (by omega) (by omega)] at h1
  exact h1.symm

theorem digits_dot (i : Nat) : '.' ∉ Nat.toDigits 10 i := by
  intro h
  have := Nat.isDigit_of_mem_toDigits (b := 10) (by omega) (by omega) h
  revert this
  decide

theorem prefix_dot (k : Kind) : '.' ∉ k.prefix := by
  cases k with
  | max => decide
  | min => decide
  | random i =>
    unfold Kind.prefix
    rw [List.mem_append, List.mem_append]
    rintro ((h | h) | h)
    · revert h; decide
    · exact digits_dot i h
    · revert h; decide
  | subnet i =>
    unfold Kind.prefix
    rw [List.mem_append]
    rintro (h | h)
    · revert h; decide
    · exact digits_dot i h

theorem prefix_take (k : Kind) : k.prefix.take 2 = match k with
    | .max => ['m', 'a'] | .min => ['m', 'i'] | .random _ => ['r', 'a'] | .subnet _ => ['s', 'u'] := by
  have h1 : "random".toList = ['r', 'a', 'n', 'd', 'o', 'm'] := by decide +kernel
  have h2 : "subnet_".toList = ['s', 'u', 'b', 'n', 'e', 't', '_'] := by decide +kernel
  cases k with
  | max => decide +kernel
  | min => decide +kernel
  | random i => unfold Kind.prefix; dsimp only; rw [h1]; rfl
  | subnet i => unfold Kind.prefix; dsimp only; rw [h2]; rfl

theorem prefix_inj (k l : Kind) (h : k.prefix = l.prefix) : k = l := by
  have h0 : k.prefix.take 2 = l.prefix.take 2 := by rw [h]
  rw [prefix_take, prefix_take] at h0
  cases k <;> cases l <;> first | rfl | (simp at h0; done) | skip
  · unfold Kind.prefix at h
    dsimp only at h
    rw [digits_inj (List.append_cancel_left (List.append_cancel_right h))]
  · unfold Kind.prefix at h
    dsimp only at h
    rw [digits_inj (List.append_cancel_left h)]

theorem key_inj (k l : Kind) (a b : Name) (h : k.prefix ++ '.' :: a = l.prefix ++ '.' :: b) : k = l ∧ a = b := by
  have hp : k.prefix = l.prefix := by
    have h1 : ∀ (p n : Name), '.' ∉ p → (p ++ '.' :: n).takeWhile (· != '.') = p := by
      intro p n hp
      rw [List.takeWhile_append_of_pos]
      · simp
      · intro c hc
        simp only [bne_iff_ne, ne_eq]
        rintro rfl
        exact hp hc
    rw [← h1 k.prefix a (prefix_dot k), h, h1 l.prefix b (prefix_dot l)]
  refine ⟨prefix_inj k l hp, ?_⟩
  rw [hp] at h
  simpa using h

theorem kinds_nodup (a : Algo) (n : Nat) : (kinds a n).Nodup := by
  have h : ∀ f : Nat → Kind, (∀ i j, f i = f j → i = j) → ((List.range n).map f).Nodup :=
    fun f hf => List.Nodup.map (fun i j => hf i j) List.nodup_range
  cases a with
  | slimmable => exact h _ (fun i j h => by simpa using h)
  | autoslim =>
    refine List.nodup_cons.2 ⟨by simp, List.nodup_cons.2 ⟨by simp, h _ (fun i j h => by simpa using h)⟩⟩
  | bignas =>
    refine List.nodup_cons.2 ⟨by simp, List.nodup_cons.2 ⟨by simp, h _ (fun i j h => by simpa using h)⟩⟩

/-- One pass. -/
def pass (t : Task N B W O) (s : St N B W O) (x : Kind × (Kind → N) × B) : Except Err (St N B W O) :=
  St.train t x.2.1 x.2.2 s x.1

theorem pass_form (t : Task N B W O) (s s' : St N B W O) (x : Kind × (Kind → N) × B) (h : pass t s x = .ok s') :
    St.update t { s with teacher := taught s.w s.teacher x, log := s.log ++ [(x.2.1 x.1, x.2.2, s.w)] }
      (taughtGrad t s.teacher s.w x) = .ok s' := by
  obtain ⟨k, pick, b⟩ := x
  unfold pass at h
  cases k with
  | max => exact h
  | subnet i => exact h
  | min =>
    cases ht : s.teacher with
    | none => simp [St.train, St.distillStep, ht] at h
    | some r => 
      simp only [St.train, St.distillStep, ht] at h
      rw [← h]
      cases ha : t.algo <;> simp [taught, taughtGrad, ha]
  | random i =>
    cases ht : s.teacher with
    | none => simp [St.train, St.distillStep, ht] at h
    | some r => 
      simp only [St.train, St.distillStep, ht] at h
      rw [← h]
      cases ha : t.algo <;> simp [taught, taughtGrad, ha]

theorem update_ready (t : Task N B W O) (s s' : St N B W O) (g : W) (h : s.update t g = .ok s') : s'.ready = s.ready := by
  unfold St.update at h
  cases hf : s.c.factor with
  | error e => rw [hf] at h; cases h
  | ok f =>
    rw [hf] at h
    dsimp only at h
    by_cases hu : Counter.shouldUpdate { s.c with inner := s.c.inner + 1 } = true
    · rw [if_pos hu] at h; cases h; rfl
    · rw [if_neg hu] at h; cases h; rfl

theorem passes_ready (t : Task N B W O) (l : List (Kind × (Kind → N) × B)) (s s' : St N B W O)
    (h : l.foldlM (pass t) s = .ok s') : s'.ready = s.ready := by
  induction l generalizing s with
  | nil => cases h; rfl
  | cons x l ih =>
    rw [List.foldlM_cons] at h
    cases h1 : pass t s x with
    | error e => rw [h1] at h; cases h
    | ok s1 =>
      rw [h1] at h
      rw [ih s1 h, update_ready t _ _ _ (pass_form t s s1 x h1)]

theorem step_passes (t : Task N B W O) (x : (Kind → N) × B) (ks : List Kind) (s : St N B W O) :
    ks.foldlM (St.train t x.1 x.2) s = (ks.map fun k => (k, x)).foldlM (pass t) s := by
  rw [List.foldlM_map]
  rfl

theorem run_passes (t : Task N B W O) (xs : List ((Kind → N) × B)) (it : Nat) (s s' : St N B W O) (hr : s.ready = true)
    (h : s.run t it xs = .ok s') : (passes t xs).foldlM (pass t) s = .ok s' := by
  induction xs generalizing s it with
  | nil => exact h
  | cons x xs ih =>
    obtain ⟨pick, b⟩ := x
    rw [St.run] at h
    cases h1 : s.step t it pick b with
    | error e => rw [h1] at h; cases h
    | ok s1 =>
      rw [h1] at h
      have hp : ((kinds t.algo t.num).map fun k => (k, (pick, b))).foldlM (pass t) s = .ok s1 := by
        rw [← step_passes, ← h1]
        unfold St.step St.reinit
        rw [if_pos hr]
      have e : passes t ((pick, b) :: xs) = ((kinds t.algo t.num).map fun k => (k, (pick, b))) ++ passes t xs := by
        simp [passes]
      rw [e, List.foldlM_append, hp]
      exact ih (it + 1) s1 (by rw [passes_ready t _ _ _ hp, hr]) h

theorem window (t : Task N B W O) (f : Nat) (l : List (Kind × (Kind → N) × B)) (s s' : St N B W O) (hne : l ≠ [])
    (hf : ∀ j < l.length, Counter.factor { s.c with inner := s.c.inner + j } = .ok f)
    (hq : ∀ j, j + 1 < l.length → Counter.shouldUpdate { s.c with inner := s.c.inner + (j + 1) } = false)
    (hu : Counter.shouldUpdate { s.c with inner := s.c.inner + l.length } = true)
    (h : l.foldlM (pass t) s = .ok s') :
    (s'.o, s'.w) = t.opt s.o s.w (s.g + (1 / (f : ℚ)) • windowSum t s.w s.teacher l) ∧ s'.g = 0 ∧
      s'.c = { s.c with inner := s.c.inner + l.length } ∧ s'.teacher = l.foldl (taught s.w) s.teacher := by
  induction l generalizing s with
  | nil => exact absurd rfl hne
  | cons x l ih =>
    rw [List.foldlM_cons] at h
    cases h1 : pass t s x with
    | error e => rw [h1] at h; cases h
    | ok s1 =>
      rw [h1] at h
      have hp := pass_form t s s1 x h1
      have hf0 := hf 0 (by simp)
      rw [Nat.add_zero] at hf0
      cases l with
      | nil =>
        cases h
        rw [update_last t { s with teacher := taught s.w s.teacher x, log := s.log ++ [(x.2.1 x.1, x.2.2, s.w)] } _ f hf0 hu] at hp
        cases hp
        exact ⟨by simp [windowSum], rfl, rfl, rfl⟩
      | cons y l =>
        rw [update_quiet t { s with teacher := taught s.w s.teacher x, log := s.log ++ [(x.2.1 x.1, x.2.2, s.w)] } _ f hf0 (hq 0 (by simp))] at hp
        cases hp
        obtain ⟨i1, i2, i3, i4⟩ := ih _ (by simp)
          (by
            intro j hj
            have := hf (j + 1) (by simpa using hj)
            dsimp only
            rw [Nat.add_assoc, Nat.add_comm 1]
            exact this)
          (by
            intro j hj
            have := hq (j + 1) (by simpa using hj)
            dsimp only
            rw [Nat.add_assoc, Nat.add_comm 1]
            exact this)
          (by
            dsimp only
            rw [Nat.add_assoc, Nat.add_comm 1]
            exact hu)
          h
        refine ⟨?_, i2, ?_, i4⟩
        · rw [i1]
          have e : windowSum t s.w s.teacher (x :: y :: l) =
              taughtGrad t s.teacher s.w x + windowSum t s.w (taught s.w s.teacher x) (y :: l) := rfl
          dsimp only
          rw [e, smul_add, add_assoc]
        · rw [i3]
          dsimp only
          rw [Nat.add_assoc, Nat.add_comm 1]
          rfl

theorem windows (t : Task N B W O) (cs : List (List (Kind × (Kind → N) × B))) (last : List (Kind × (Kind → N) × B))
    (a m p : Nat) (s s' : St N B W O) (ha : 0 < a)
    (hcs : ∀ c ∈ cs, c.length = a) (h0 : 0 < last.length) (h1 : last.length ≤ a)
    (hc : s.c = ⟨a, p * a, m⟩) (hm : m = (p + cs.length) * a + last.length) (hg : s.g = 0)
    (h : (cs.flatten ++ last).foldlM (pass t) s = .ok s') :
    (s'.o, s'.w) = ((cs ++ [last]).foldl (windowStep t) ((s.o, s.w), s.teacher)).1 := by
  have quiet : ∀ q j, 0 < j → j < a → q * a + j < m → Counter.shouldUpdate ⟨a, q * a + j, m⟩ = false := by
    intro q j h1 h2 h3
    unfold Counter.shouldUpdate
    have : (q * a + j) % a = j := by rw [Nat.mul_comm, Nat.mul_add_mod, Nat.mod_eq_of_lt h2]
    simp only [this, Bool.or_eq_false_iff, beq_eq_false_iff_ne]
    omega
  induction cs generalizing s p with
  | nil =>
    simp only [List.flatten_nil, List.nil_append] at h
    simp only [List.length_nil, Nat.add_zero] at hm
    have hfac : ∀ j < last.length, Counter.factor { s.c with inner := s.c.inner + j } = .ok last.length := by
      intro j hj
      rw [hc]
      dsimp only
      by_cases he : last.length = a
      · rw [he]
        apply factor_inside a _ m ha
        have : m % a = 0 := by rw [hm, he, Nat.mul_comm, Nat.mul_add_mod, Nat.mod_self]
        omega
      · have : m % a = last.length := by rw [hm, Nat.mul_comm, Nat.mul_add_mod, Nat.mod_eq_of_lt (by omega)]
        unfold Counter.factor
        dsimp only
        rw [if_neg (by omega), this, if_neg (by omega : ¬ p * a + j < m - last.length), if_pos h0]
    obtain ⟨i1, _, _, _⟩ := window t last.length last s s' (List.length_pos_iff.1 h0) hfac
      (by
        intro j hj
        rw [hc]
        exact quiet p (j + 1) (by omega) (by omega) (by omega))
      (by
        rw [hc]
        unfold Counter.shouldUpdate
        simp [hm])
      h
    rw [i1, hg, zero_add]
    rfl
  | cons c cs ih =>
    have hcl : c.length = a := hcs c (by simp)
    simp only [List.length_cons] at hm
    rw [List.flatten_cons, List.append_assoc, List.foldlM_append] at h
    cases hh : c.foldlM (pass t) s with
    | error e => rw [hh] at h; cases h
    | ok s1 =>
      rw [hh] at h
      have hbig : (p + 1) * a ≤ m - m % a := by
        have h2 : (p + 1) * a ≤ m := by
          have := Nat.mul_le_mul_right a (show p + 1 ≤ p + (cs.length + 1) by omega)
          omega
        have h3 : m - m % a = m / a * a := by
          have := Nat.div_add_mod m a
          rw [Nat.mul_comm] at this
          omega
        rw [h3]
        exact Nat.mul_le_mul_right _ ((Nat.le_div_iff_mul_le ha).2 h2)
      rw [Nat.add_mul, Nat.one_mul] at hbig
      obtain ⟨i1, i2, i3, i4⟩ := window t a c s s1 (by intro h; subst h; simp at hcl; omega)
        (by
          intro j hj
          rw [hc]
          exact factor_inside a _ m ha (by dsimp only; omega))
        (by
          intro j hj
          rw [hc]
          exact quiet p (j + 1) (by omega) (by omega) (by omega))
        (by
          rw [hc, hcl]
          unfold Counter.shouldUpdate
          simp)
        hh
      rw [hg, zero_add] at i1
      have := ih (p + 1) s1 (fun c hc => hcs c (by simp [hc])) (by rw [i3, hc, hcl]; dsimp only; congr 1; ring)
        (by rw [hm]; ring) i2 h
      rw [this, List.cons_append, List.foldl_cons]
      unfold windowStep
      rw [i1, i4, hcl]

/-- The losses of different kinds keep names of their own. -/
theorem total_eq {V : Type} (ks : List Kind) (hk : ks.Nodup) (losses : Kind → List (Name × V))
    (h : ∀ k, ((losses k).map (·.1)).Nodup) :
    total losses ks = ks.flatMap fun k => (losses k).map fun x => (k.prefix ++ '.' :: x.1, x.2) := by
  have key : ∀ (ks done : List Kind), (done ++ ks).Nodup →
      ks.foldl (fun d k => update d (addPrefix (losses k) k.prefix))
        (done.flatMap fun k => (losses k).map fun x => (k.prefix ++ '.' :: x.1, x.2)) =
      (done ++ ks).flatMap fun k => (losses k).map fun x => (k.prefix ++ '.' :: x.1, x.2) := by
    intro ks
    induction ks with
    | nil => intro done _; simp
    | cons k ks ih =>
      intro done hd
      rw [List.foldl_cons, addPrefix_eq _ _ (h k), update_new]
      · have := ih (done ++ [k]) (by simpa using hd)
        simpa using this
      · rw [List.map_append, List.nodup_append]
        have hdk : k ∉ done := by
          intro hk
          rw [List.nodup_append] at hd
          exact hd.2.2 k hk k (by simp) rfl
        have hdn : done.Nodup := (List.nodup_append.1 hd).1
        have one : ∀ k, (((losses k).map fun x => (k.prefix ++ '.' :: x.1, x.2)).map (·.1)).Nodup := by
          intro k
          rw [List.map_map]
          have : ((fun x : Name × V => x.1) ∘ fun x : Name × V => (k.prefix ++ '.' :: x.1, x.2)) = (fun n => k.prefix ++ '.' :: n) ∘ (·.1) := rfl
          rw [this, ← List.map_map]
          exact List.Nodup.map (fun a b hab => by simpa using hab) (h k)
        refine ⟨?_, one k, ?_⟩
        · clear ih hd hdk
          induction done with
          | nil => simp
          | cons l done ih =>
            obtain ⟨hl, hn⟩ := List.nodup_cons.1 hdn
            rw [List.flatMap_cons, List.map_append, List.nodup_append]
            refine ⟨one l, ih hn, ?_⟩
            rintro a ha _ hb rfl
            simp only [List.mem_map, List.mem_flatMap] at ha hb
            obtain ⟨_, ⟨x, hx, rfl⟩, rfl⟩ := ha
            obtain ⟨_, ⟨m, hm, y, hy, rfl⟩, e⟩ := hb
            exact hl ((key_inj _ _ _ _ e).1 ▸ hm)
        · rintro a ha _ hb rfl
          simp only [List.mem_map, List.mem_flatMap] at ha hb
          obtain ⟨_, ⟨m, hm, x, hx, rfl⟩, rfl⟩ := ha
          obtain ⟨_, ⟨y, hy, rfl⟩, e⟩ := hb
          exact hdk ((key_inj _ _ _ _ e).1 ▸ hm)
  have := key ks [] (by simpa using hk)
  simpa [total] using this

end Verif.Sandwich
