import Verif.Spec.InputRec

/-! Helper lemmas for `Verif/Props/InputRec.lean`. -/

namespace Verif.InputRec
open Verif

theorem lookup_none {V : Type} {kw : List (String × V)} {n : String} (h : ∀ v, (n, v) ∉ kw) : kw.lookup n = none := by
  induction kw with
  | nil => rfl
  | cons k kw ih =>
    obtain ⟨a, w⟩ := k
    have hne : n ≠ a := by rintro rfl; exact h w (by simp)
    rw [List.lookup_cons]
    have : (n == a) = false := by simpa using hne
    rw [this]
    exact ih fun v hv => h v (List.mem_cons_of_mem _ hv)

theorem cons_ok {V : Type} {n : String} {b : Except Err (Bound V)} {r : Except Err (List (String × Bound V))} {l}
    (h : cons n b r = .ok l) : ∃ x s, b = .ok x ∧ r = .ok s ∧ l = (n, x) :: s := by
  unfold cons at h
  cases b with
  | error e => cases h
  | ok x =>
    cases r with
    | error e => cases h
    | ok s => cases h; exact ⟨x, s, rfl, rfl, rfl⟩

theorem fill_values {V : Type} {p : Param V} {kw : List (String × V)} {x : Bound V} (h : fill p kw = .ok x) :
    x.values = (kw.lookup p.name).toList := by
  unfold fill at h
  cases hl : kw.lookup p.name with
  | some v => rw [hl] at h; cases h; rfl
  | none =>
    rw [hl] at h
    cases hd : p.dflt with
    | none => rw [hd] at h; cases h
    | some v => rw [hd] at h; cases h; rfl

theorem bindAll_cons {V : Type} (kw extra : List (String × V)) (p : Param V) (ps : List (Param V)) (args : List V) :
    bindAll kw extra (p :: ps) args =
      match p.kind with
      | .ordinary =>
        match args with
        | v :: args =>
          if (kw.lookup p.name).isSome then .error .type
          else cons p.name (.ok (.given v)) (bindAll kw extra ps args)
        | [] => cons p.name (fill p kw) (bindAll kw extra ps [])
      | .rest => cons p.name (.ok (.rest args)) (bindAll kw extra ps [])
      | .keyword => cons p.name (fill p kw) (bindAll kw extra ps args)
      | .more => cons p.name (.ok (.more extra)) (bindAll kw extra ps args) := by
  cases args <;> rfl

theorem no_args {V : Type} {kw extra : List (String × V)} : ∀ (ps : List (Param V)) (args : List V) b,
    (∀ p ∈ ps, 2 ≤ rank p.kind) → bindAll kw extra ps args = .ok b → args = [] := by
  intro ps
  induction ps with
  | nil =>
    intro args b _ h
    cases args with
    | nil => rfl
    | cons v args => rw [bindAll] at h; cases h
  | cons p ps ih =>
    intro args b hr h
    have hp := hr p (by simp)
    have hps : ∀ q ∈ ps, 2 ≤ rank q.kind := fun q hq => hr q (List.mem_cons_of_mem _ hq)
    rw [bindAll_cons] at h
    cases hk : p.kind with
    | ordinary => rw [hk] at hp; simp [rank] at hp
    | rest => rw [hk] at hp; simp [rank] at hp
    | keyword =>
      rw [hk] at h
      obtain ⟨x, s, _, hs, _⟩ := cons_ok h
      exact ih args s hps hs
    | more =>
      rw [hk] at h
      obtain ⟨x, s, _, hs, _⟩ := cons_ok h
      exact ih args s hps hs

theorem flatMap_cons {V : Type} (n : String) (x : Bound V) (s : List (String × Bound V)) :
    ((n, x) :: s).flatMap (fun e => e.2.values) = x.values ++ s.flatMap fun e => e.2.values := by simp

theorem filterMap_names {V : Type} (kw : List (String × V)) (p : Param V) (ps : List (Param V)) :
    ((p :: ps).map (·.name)).filterMap (fun n => kw.lookup n)
      = (kw.lookup p.name).toList ++ (ps.map (·.name)).filterMap fun n => kw.lookup n := by
  rw [List.map_cons, List.filterMap_cons]
  cases kw.lookup p.name <;> rfl

theorem bindAll_values {V : Type} {kw extra : List (String × V)} : ∀ (ps : List (Param V)) (args : List V) b,
    Valid ps → Plain ps kw → bindAll kw extra ps args = .ok b →
    b.flatMap (fun e => e.2.values) = args ++ (ps.map (·.name)).filterMap fun n => kw.lookup n := by
  intro ps
  induction ps with
  | nil =>
    intro args b _ _ h
    cases args with
    | nil => rw [bindAll] at h; cases h; rfl
    | cons v args => rw [bindAll] at h; cases h
  | cons p ps ih =>
    intro args b hv hpl h
    have hall := h
    have hv' : Valid ps := (List.pairwise_cons.1 hv).2
    have hpl' : Plain ps kw := fun q hq => hpl q (List.mem_cons_of_mem _ hq)
    have hle : ∀ q ∈ ps, rank p.kind ≤ rank q.kind := (List.pairwise_cons.1 hv).1
    rw [filterMap_names]
    rw [bindAll_cons] at h
    cases hk : p.kind with
    | ordinary =>
      rw [hk] at h
      cases args with
      | cons v args =>
        dsimp only at h
        by_cases hl : (kw.lookup p.name).isSome = true
        · rw [if_pos hl] at h; cases h
        · rw [if_neg hl] at h
          obtain ⟨x, s, hx, hs, rfl⟩ := cons_ok h
          cases hx
          have hn : kw.lookup p.name = none := by
            cases hq : kw.lookup p.name with
            | none => rfl
            | some w => rw [hq] at hl; exact absurd rfl hl
          rw [flatMap_cons, ih args s hv' hpl' hs, hn]
          rfl
      | nil =>
        obtain ⟨x, s, hx, hs, rfl⟩ := cons_ok h
        rw [flatMap_cons, ih [] s hv' hpl' hs, fill_values hx]
        rfl
    | rest =>
      rw [hk] at h
      obtain ⟨x, s, hx, hs, rfl⟩ := cons_ok h
      cases hx
      rw [flatMap_cons, ih [] s hv' hpl' hs, lookup_none (hpl p (by simp) (Or.inl hk))]
      rfl
    | keyword =>
      have ha : args = [] := no_args (p :: ps) args b (by
        intro q hq
        rcases List.mem_cons.1 hq with rfl | hq
        · rw [hk]; simp [rank]
        · have := hle q hq; rw [hk] at this; simpa [rank] using this) hall
      subst ha
      rw [hk] at h
      obtain ⟨x, s, hx, hs, rfl⟩ := cons_ok h
      rw [flatMap_cons, ih [] s hv' hpl' hs, fill_values hx]
      rfl
    | more =>
      rw [hk] at h
      obtain ⟨x, s, hx, hs, rfl⟩ := cons_ok h
      cases hx
      rw [flatMap_cons, ih args s hv' hpl' hs, lookup_none (hpl p (by simp) (Or.inr hk))]
      rfl

theorem bindAll_names {V : Type} {kw extra : List (String × V)} : ∀ (ps : List (Param V)) (args : List V) b,
    bindAll kw extra ps args = .ok b → b.map (·.1) = ps.map (·.name) := by
  intro ps
  induction ps with
  | nil =>
    intro args b h
    cases args with
    | nil => rw [bindAll] at h; cases h; rfl
    | cons v args => rw [bindAll] at h; cases h
  | cons p ps ih =>
    intro args b h
    rw [bindAll_cons] at h
    cases hk : p.kind with
    | ordinary =>
      rw [hk] at h
      cases args with
      | cons v args =>
        dsimp only at h
        by_cases hl : (kw.lookup p.name).isSome = true
        · rw [if_pos hl] at h; cases h
        · rw [if_neg hl] at h
          obtain ⟨x, s, hx, hs, rfl⟩ := cons_ok h
          rw [List.map_cons, List.map_cons, ih _ _ hs]
      | nil =>
        obtain ⟨x, s, hx, hs, rfl⟩ := cons_ok h
        rw [List.map_cons, List.map_cons, ih _ _ hs]
    | rest =>
      rw [hk] at h
      obtain ⟨x, s, hx, hs, rfl⟩ := cons_ok h
      rw [List.map_cons, List.map_cons, ih _ _ hs]
    | keyword =>
      rw [hk] at h
      obtain ⟨x, s, hx, hs, rfl⟩ := cons_ok h
      rw [List.map_cons, List.map_cons, ih _ _ hs]
    | more =>
      rw [hk] at h
      obtain ⟨x, s, hx, hs, rfl⟩ := cons_ok h
      rw [List.map_cons, List.map_cons, ih _ _ hs]

theorem bindCall_all {V : Type} {ps : List (Param V)} {args : List V} {kw : List (String × V)} {b}
    (h : bindCall ps args kw = .ok b) : ∃ extra, bindAll kw extra ps args = .ok b := by
  unfold bindCall at h
  dsimp only at h
  split at h
  · cases h
  · exact ⟨_, h⟩

theorem place {V : Type} : ∀ (b : List (String × Bound V)) (i : Nat) (n : String) (v : V),
    (∀ e ∈ b.take i, ∃ w, e.2 = .given w ∨ e.2 = .default w) → b[i]? = some (n, .given v) →
    (b.flatMap fun e => e.2.values)[(b.take i).countP fun e => e.2.isGiven]? = some v := by
  intro b
  induction b with
  | nil => intro i n v _ h; simp at h
  | cons e b ih =>
    intro i n v hb h
    cases i with
    | zero =>
      rw [List.getElem?_cons_zero] at h
      cases h
      simp [Bound.values]
    | succ i =>
      rw [List.getElem?_cons_succ] at h
      rw [List.take_succ_cons] at hb ⊢
      have := ih i n v (fun x hx => hb x (List.mem_cons_of_mem _ hx)) h
      obtain ⟨m, x⟩ := e
      rw [flatMap_cons]
      obtain ⟨w, hw | hw⟩ := hb (m, x) (by simp)
      · dsimp only at hw
        subst hw
        rw [List.countP_cons_of_pos (by rfl)]
        exact this
      · dsimp only at hw
        subst hw
        rw [List.countP_cons_of_neg (by simp [Bound.isGiven])]
        exact this

theorem firsts_mem {l : List (String × Nat)} {x : String × Nat} : x ∈ firsts l ↔
    ∃ a b, l = a ++ x :: b ∧ ∀ y ∈ a, y.2 ≠ x.2 := by
  induction l with
  | nil => simp [firsts]
  | cons z l ih =>
    rw [firsts, List.mem_cons, List.mem_filter, ih]
    constructor
    · rintro (rfl | ⟨⟨a, b, rfl, h⟩, hz⟩)
      · exact ⟨[], l, rfl, by simp⟩
      · refine ⟨z :: a, b, rfl, ?_⟩
        intro y hy
        rcases List.mem_cons.1 hy with rfl | hy
        · intro he; simp [he] at hz
        · exact h y hy
    · rintro ⟨a, b, he, h⟩
      cases a with
      | nil => simp at he; exact Or.inl he.1.symm
      | cons w a =>
        simp at he
        obtain ⟨rfl, rfl⟩ := he
        exact Or.inr ⟨⟨a, b, rfl, fun y hy => h y (List.mem_cons_of_mem _ hy)⟩, by
          have := h z (by simp)
          simp [Ne.symm this]⟩

end Verif.InputRec
