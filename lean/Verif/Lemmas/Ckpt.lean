import Verif.Spec.Ckpt

/-! Helper lemmas for `Verif/Props/Ckpt.lean`. -/

namespace Verif.Ckpt
open Verif

variable {V : Type}

theorem prefix_iff (pat s : Str) : pat.isPrefixOf s = true ↔ ∃ y, s = pat ++ y := by
  rw [List.isPrefixOf_iff_prefix]
  constructor
  · rintro ⟨y, h⟩
    exact ⟨y, h.symm⟩
  · rintro ⟨y, h⟩
    exact ⟨y, h.symm⟩

theorem has_iff (pat s : Str) : has pat s = true ↔ ∃ x y, s = x ++ pat ++ y := by
  induction s with
  | nil =>
    rw [has, List.isEmpty_iff]
    constructor
    · rintro rfl
      exact ⟨[], [], rfl⟩
    · rintro ⟨x, y, h⟩
      have := congrArg List.length h
      simp only [List.length_nil, List.length_append] at this
      exact List.length_eq_zero_iff.mp (by omega)
  | cons c s ih =>
    rw [has, Bool.or_eq_true, prefix_iff, ih]
    constructor
    · rintro (⟨y, h⟩ | ⟨x, y, h⟩)
      · exact ⟨[], y, h⟩
      · exact ⟨c :: x, y, by rw [h]; rfl⟩
    · rintro ⟨x, y, h⟩
      cases x with
      | nil => exact Or.inl ⟨y, h⟩
      | cons b x =>
        have h' : c :: s = b :: (x ++ pat ++ y) := h
        injection h' with h1 h2
        exact Or.inr ⟨x, y, h2⟩

theorem never_iff (pat s : Str) : Never pat s ↔ has pat s = false := by
  rw [← Bool.not_eq_true, has_iff]
  constructor
  · rintro h ⟨x, y, e⟩
    exact h x y e
  · intro h x y e
    exact h ⟨x, y, e⟩

theorem rep_skip (pat new p t : Str) : rep pat new p.length (p ++ t) = rep pat new 0 t := by
  induction p with
  | nil => rfl
  | cons c p ih => exact ih

theorem rep_none (pat new s : Str) (h : Never pat s) : rep pat new 0 s = s := by
  induction s with
  | nil => rfl
  | cons c s ih =>
    rw [rep, if_neg, ih]
    · intro x y e
      exact h (c :: x) y (by rw [e]; rfl)
    · rw [prefix_iff]
      rintro ⟨y, e⟩
      exact h [] y e

theorem rep_once (pat new a t : Str) (hp : pat ≠ []) (h : Once pat a t) :
    rep pat new 0 (a ++ pat ++ t) = a ++ new ++ t := by
  induction a with
  | nil =>
    obtain ⟨c, p, rfl⟩ := List.exists_cons_of_ne_nil hp
    show rep (c :: p) new 0 (c :: (p ++ t)) = new ++ t
    rw [rep, if_pos]
    · show new ++ rep (c :: p) new p.length (p ++ t) = new ++ t
      rw [rep_skip, rep_none]
      intro x y e
      have := h (c :: p ++ x) y (by rw [e]; simp [List.append_assoc])
      cases this
    · rw [prefix_iff]
      exact ⟨t, rfl⟩
  | cons c a ih =>
    show rep pat new 0 (c :: (a ++ pat ++ t)) = c :: (a ++ new ++ t)
    rw [rep, if_neg, ih]
    · intro x y e
      have := h (c :: x) y (by
        show c :: (a ++ pat ++ t) = c :: (x ++ pat ++ y)
        rw [e])
      injection this
    · rw [prefix_iff]
      rintro ⟨y, e⟩
      have := h [] y e
      cases this

theorem replace_once (pat new a t : Str) (hp : pat ≠ []) (h : Once pat a t) :
    replace (a ++ pat ++ t) pat new = a ++ new ++ t := rep_once pat new a t hp h

theorem replace_start (pat new t : Str) (hp : pat ≠ []) (h : Once pat [] t) :
    replace (pat ++ t) pat new = new ++ t := rep_once pat new [] t hp h

theorem once_append (pat n a t : Str) (h : Once pat a (n ++ t)) : Once (pat ++ n) a t := by
  intro x y e
  refine h x (n ++ y) ?_
  simpa [List.append_assoc] using e

/-- A longer pattern occurs behind a pattern occurring once if the rest begins with it. -/
theorem has_once (pat n a t : Str) (h : Once pat a t) :
    has (pat ++ n) (a ++ pat ++ t) = n.isPrefixOf t := by
  rw [Bool.eq_iff_iff, has_iff, prefix_iff]
  constructor
  · rintro ⟨x, y, e⟩
    have hx := h x (n ++ y) (by simpa [List.append_assoc] using e)
    subst hx
    refine ⟨y, ?_⟩
    simpa [List.append_assoc] using e
  · rintro ⟨y, rfl⟩
    exact ⟨a, y, by simp [List.append_assoc]⟩

theorem once_of (pat a t : Str)
    (h : (List.range ((a ++ pat ++ t).length + 1)).filter
      (fun i => pat.isPrefixOf ((a ++ pat ++ t).drop i)) = [a.length]) : Once pat a t := by
  intro x y e
  have hx : x.length ∈ (List.range ((a ++ pat ++ t).length + 1)).filter
      (fun i => pat.isPrefixOf ((a ++ pat ++ t).drop i)) := by
    rw [List.mem_filter, List.mem_range]
    refine ⟨?_, ?_⟩
    · rw [e]
      simp only [List.length_append]
      omega
    · rw [prefix_iff, e, List.append_assoc, List.drop_left]
      exact ⟨y, rfl⟩
  rw [h, List.mem_singleton] at hx
  rw [List.append_assoc, List.append_assoc] at e
  exact (List.append_inj e.symm hx).1

theorem put_new (d : Dict V) (k : Str) (v : V) (h : k ∉ d.map (·.1)) :
    put d k v = d ++ [(k, v)] := by
  unfold put
  rw [if_neg h]

theorem put_keys (d : Dict V) (k : Str) (v : V) :
    (put d k v).map (·.1) = if k ∈ d.map (·.1) then d.map (·.1) else d.map (·.1) ++ [k] := by
  unfold put
  by_cases h : k ∈ d.map (·.1)
  · rw [if_pos h, if_pos h, List.map_map]
    refine List.map_congr_left ?_
    intro e _
    show (if e.1 = k then (k, v) else e).1 = e.1
    by_cases he : e.1 = k
    · rw [if_pos he]
      exact he.symm
    · rw [if_neg he]
  · rw [if_neg h, if_neg h, List.map_append]
    rfl

theorem put_nodup (d : Dict V) (k : Str) (v : V) (h : (d.map (·.1)).Nodup) :
    ((put d k v).map (·.1)).Nodup := by
  rw [put_keys]
  by_cases hk : k ∈ d.map (·.1)
  · rw [if_pos hk]
    exact h
  · rw [if_neg hk]
    rw [List.nodup_append]
    refine ⟨h, List.nodup_singleton _, ?_⟩
    intro x hx y hy e
    rw [List.mem_singleton] at hy
    subst e
    subst hy
    exact hk hx

theorem put_mem (d : Dict V) (k : Str) (v : V) (k' : Str) (v' : V) :
    (k', v') ∈ put d k v ↔ (k' = k ∧ v' = v) ∨ (k' ≠ k ∧ (k', v') ∈ d) := by
  unfold put
  by_cases h : k ∈ d.map (·.1)
  · rw [if_pos h, List.mem_map]
    constructor
    · rintro ⟨e, he, hk⟩
      by_cases hek : e.1 = k
      · rw [if_pos hek] at hk
        injection hk with h1 h2
        exact Or.inl ⟨h1.symm, h2.symm⟩
      · rw [if_neg hek] at hk
        subst hk
        exact Or.inr ⟨hek, he⟩
    · rintro (⟨rfl, rfl⟩ | ⟨h1, h2⟩)
      · obtain ⟨e, he, hk⟩ := List.mem_map.mp h
        exact ⟨e, he, by rw [if_pos hk]⟩
      · exact ⟨_, h2, by rw [if_neg h1]⟩
  · rw [if_neg h, List.mem_append, List.mem_singleton]
    constructor
    · rintro (h1 | h1)
      · refine Or.inr ⟨?_, h1⟩
        rintro rfl
        exact h (List.mem_map.mpr ⟨_, h1, rfl⟩)
      · injection h1 with h1 h2
        exact Or.inl ⟨h1, h2⟩
    · rintro (⟨rfl, rfl⟩ | ⟨_, h2⟩)
      · exact Or.inr rfl
      · exact Or.inl h2

theorem convert_concat (f : Str → Option Str) (d : Dict V) (e : Str × V) :
    convert f (d ++ [e]) =
      match f e.1 with | some k => put (convert f d) k e.2 | none => convert f d := by
  unfold convert
  rw [List.foldl_append]
  rfl

theorem convert_nodup (f : Str → Option Str) (d : Dict V) :
    ((convert f d).map (·.1)).Nodup := by
  induction d using List.reverseRecOn with
  | nil => exact List.nodup_nil
  | append_singleton d e ih =>
    rw [convert_concat]
    cases f e.1 with
    | none => exact ih
    | some k => exact put_nodup _ _ _ ih

/-- The entry in force under a new key is the last one renamed to it. -/
theorem convert_mem (f : Str → Option Str) (d : Dict V) (k : Str) (v : V) :
    (k, v) ∈ convert f d ↔
      ∃ l key r, d = l ++ (key, v) :: r ∧ f key = some k ∧ ∀ e ∈ r, f e.1 ≠ some k := by
  induction d using List.reverseRecOn with
  | nil =>
    constructor
    · intro h
      cases h
    · rintro ⟨l, key, r, h, _⟩
      have := congrArg List.length h
      simp at this
  | append_singleton d e ih =>
    rw [convert_concat]
    obtain ⟨ek, ev⟩ := e
    by_cases hk : f ek = some k
    · have e1 : (match f ek with | some k => put (convert f d) k ev | none => convert f d) =
          put (convert f d) k ev := by rw [hk]
      dsimp only
      rw [e1, put_mem]
      constructor
      · rintro (⟨_, rfl⟩ | ⟨h, _⟩)
        · exact ⟨d, ek, [], rfl, hk, by intro e he; cases he⟩
        · exact absurd rfl h
      · rintro ⟨l, key, r, h, h1, h2⟩
        refine Or.inl ⟨rfl, ?_⟩
        rcases List.eq_nil_or_concat r with rfl | ⟨r', x, rfl⟩
        · have h' := (List.append_inj' h rfl).2
          injection h' with h'
          injection h' with _ h'
          exact h'.symm
        · have h' : d ++ [(ek, ev)] = (l ++ (key, v) :: r') ++ [x] := by
            rw [h]; simp [List.append_assoc]
          have h3 := (List.append_inj' h' rfl).2
          injection h3 with h3
          exact absurd (by rw [← h3]; exact hk) (h2 x (by simp))
    · have e1 : (k, v) ∈ (match f ek with
            | some k => put (convert f d) k ev | none => convert f d) ↔ (k, v) ∈ convert f d := by
        cases hf : f ek with
        | none => exact Iff.rfl
        | some k' =>
          dsimp only
          rw [put_mem]
          constructor
          · rintro (⟨rfl, _⟩ | ⟨_, h⟩)
            · exact absurd hf hk
            · exact h
          · intro h
            refine Or.inr ⟨?_, h⟩
            rintro rfl
            exact hk hf
      dsimp only
      rw [e1, ih]
      constructor
      · rintro ⟨l, key, r, h, h1, h2⟩
        refine ⟨l, key, r ++ [(ek, ev)], by rw [h]; simp, h1, ?_⟩
        intro e he
        rcases List.mem_append.mp he with he | he
        · exact h2 e he
        · rw [List.mem_singleton] at he
          subst he
          exact hk
      · rintro ⟨l, key, r, h, h1, h2⟩
        rcases List.eq_nil_or_concat r with rfl | ⟨r', x, rfl⟩
        · have h' := (List.append_inj' h rfl).2
          injection h' with h'
          injection h' with h' _
          subst h'
          exact absurd h1 hk
        · have h' : d ++ [(ek, ev)] = (l ++ (key, v) :: r') ++ [x] := by
            rw [h]; simp [List.append_assoc]
          refine ⟨l, key, r', (List.append_inj' h' rfl).1, h1, ?_⟩
          intro e he
          exact h2 e (by simp [he])

/-- Without collisions every renamed entry is kept. -/
theorem convert_mem_inj (f : Str → Option Str) (d : Dict V) (hn : (d.map (·.1)).Nodup)
    (hi : ∀ e ∈ d, ∀ e' ∈ d, ∀ k, f e.1 = some k → f e'.1 = some k → e.1 = e'.1)
    (k : Str) (v : V) :
    (k, v) ∈ convert f d ↔ ∃ key, (key, v) ∈ d ∧ f key = some k := by
  rw [convert_mem]
  constructor
  · rintro ⟨l, key, r, rfl, h1, _⟩
    exact ⟨key, by simp, h1⟩
  · rintro ⟨key, h, h1⟩
    obtain ⟨l, r, rfl⟩ := List.append_of_mem h
    refine ⟨l, key, r, rfl, h1, ?_⟩
    intro e he h2
    have e1 := hi _ h e (by simp [he]) k h1 h2
    rw [List.map_append, List.map_cons, List.nodup_append] at hn
    have h3 := (List.nodup_cons.mp hn.2.1).1
    exact h3 (List.mem_map.mpr ⟨e, he, e1.symm⟩)

theorem num_inj {m n : ℕ} (h : num m = num n) : m = n := by
  have h' := congrArg (fun s => Nat.ofDigitChars 10 s 0) h
  unfold num at h'
  rwa [Nat.ofDigitChars_toDigits (by decide) (by decide),
    Nat.ofDigitChars_toDigits (by decide) (by decide)] at h'

theorem num_digit {n : ℕ} {c : Char} (h : c ∈ num n) : c.isDigit :=
  Nat.isDigit_of_mem_toDigits (by decide) (by decide) h

theorem dot_num (n : ℕ) : '.' ∉ num n := fun h => absurd (num_digit h) (by decide)

theorem prefix_dot (a b t : Str) (h : '.' ∉ a) :
    a.isPrefixOf (b ++ '.' :: t) = a.isPrefixOf b := by
  induction a generalizing b with
  | nil => simp
  | cons c a ih =>
    have hc : c ≠ '.' := fun e => h (by rw [e]; exact List.mem_cons_self)
    cases b with
    | nil => simp [List.isPrefixOf, hc]
    | cons d b =>
      show (c == d && a.isPrefixOf (b ++ '.' :: t)) = (c == d && a.isPrefixOf b)
      rw [ih b (fun e => h (List.mem_cons_of_mem _ e))]

theorem takeWhile_dot (a t : Str) (h : '.' ∉ a) :
    (a ++ '.' :: t).takeWhile (· ≠ '.') = a := by
  induction a with
  | nil => rfl
  | cons c a ih =>
    have hc : c ≠ '.' := fun e => h (by rw [e]; exact List.mem_cons_self)
    rw [List.cons_append, List.takeWhile_cons, if_pos (by simpa using hc),
      ih (fun e => h (List.mem_cons_of_mem _ e))]

theorem dropWhile_dot (a t : Str) (h : '.' ∉ a) :
    (a ++ '.' :: t).dropWhile (· ≠ '.') = '.' :: t := by
  induction a with
  | nil => rfl
  | cons c a ih =>
    have hc : c ≠ '.' := fun e => h (by rw [e]; exact List.mem_cons_self)
    rw [List.cons_append, List.dropWhile_cons, if_pos (by simpa using hc),
      ih (fun e => h (List.mem_cons_of_mem _ e))]

theorem second_eq (a b t : Str) (ha : '.' ∉ a) (hb : '.' ∉ b) :
    second (a ++ '.' :: (b ++ '.' :: t)) = some b := by
  unfold second
  rw [dropWhile_dot _ _ ha]
  exact congrArg some (takeWhile_dot b t hb)

theorem tableStage_mem (stage k i pos n s p : ℕ) :
    (n, s, p) ∈ tableStage stage k i pos ↔
      s = stage ∧ ∃ m, m < k ∧ n = i + m ∧ p = pos + m := by
  induction k generalizing i pos with
  | zero =>
    rw [tableStage]
    constructor
    · intro h
      cases h
    · rintro ⟨_, m, h, _⟩
      omega
  | succ k ih =>
    rw [tableStage, List.mem_cons, ih]
    constructor
    · rintro (h | ⟨h, m, h1, h2, h3⟩)
      · injection h with h1 h2
        injection h2 with h2 h3
        exact ⟨h2, 0, by omega, by omega, by omega⟩
      · exact ⟨h, m + 1, by omega, by omega, by omega⟩
    · rintro ⟨rfl, m, h1, rfl, rfl⟩
      cases m with
      | zero => exact Or.inl rfl
      | succ m => exact Or.inr ⟨rfl, m, by omega, by omega, by omega⟩

theorem table_mem (depth : List ℕ) (i stage n s p : ℕ) :
    (n, s, p) ∈ table depth i stage ↔
      ∃ j, ∃ h : j < depth.length, p < depth[j] ∧ n = i + (depth.take j).sum + p ∧
        s = stage + j := by
  induction depth generalizing i stage with
  | nil =>
    rw [table]
    constructor
    · intro h
      cases h
    · rintro ⟨j, h, _⟩
      cases h
  | cons k l ih =>
    rw [table, List.mem_append, tableStage_mem, ih]
    constructor
    · rintro (⟨rfl, m, h1, rfl, rfl⟩ | ⟨j, h, h1, rfl, rfl⟩)
      · refine ⟨0, by simp, ?_, ?_, rfl⟩
        · show 0 + m < k
          omega
        · show i + m = i + 0 + (0 + m)
          omega
      · refine ⟨j + 1, by simpa using h, by simpa using h1, ?_, by omega⟩
        rw [List.take_succ_cons, List.sum_cons]
        omega
    · rintro ⟨j, h, h1, rfl, rfl⟩
      cases j with
      | zero =>
        refine Or.inl ⟨rfl, p, by simpa using h1, ?_, by omega⟩
        simp
      | succ j =>
        refine Or.inr ⟨j, by simpa using h, by simpa using h1, ?_, by omega⟩
        rw [List.take_succ_cons, List.sum_cons]
        omega

theorem take_sum_lt (l : List ℕ) (i j : ℕ) (hi : i < l.length) (hij : i < j) :
    (l.take i).sum + l[i] ≤ (l.take j).sum := by
  induction l generalizing i j with
  | nil => cases hi
  | cons a l ih =>
    obtain ⟨j, rfl⟩ : ∃ m, j = m + 1 := ⟨j - 1, by omega⟩
    cases i with
    | zero => simp
    | succ i =>
      rw [List.take_succ_cons, List.take_succ_cons, List.sum_cons, List.sum_cons]
      have := ih i j (by simpa using hi) (by omega)
      simp only [List.getElem_cons_succ]
      omega

theorem take_sum_le (l : List ℕ) (i : ℕ) (hi : i < l.length) :
    (l.take i).sum + l[i] ≤ l.sum := by
  have := take_sum_lt l i l.length hi hi
  rwa [List.take_length] at this

/-- A block number has one place. -/
theorem place_unique (l : List ℕ) (i j p q : ℕ) (hi : i < l.length) (hj : j < l.length)
    (hp : p < l[i]) (hq : q < l[j]) (h : (l.take i).sum + p = (l.take j).sum + q) :
    i = j ∧ p = q := by
  rcases Nat.lt_trichotomy i j with hl | rfl | hl
  · have := take_sum_lt l i j hi hl
    omega
  · exact ⟨rfl, by omega⟩
  · have := take_sum_lt l j i hj hl
    omega

theorem tableGet_hit (depth : List ℕ) (j p : ℕ) (hj : j < depth.length) (hp : p < depth[j]) :
    tableGet (table depth 0 1) (num ((depth.take j).sum + p)) =
      some ((depth.take j).sum + p, j + 1, p) := by
  unfold tableGet
  cases hf : List.find? (fun e => decide (num e.1 = num ((depth.take j).sum + p)))
      (table depth 0 1) with
  | none =>
    rw [List.find?_eq_none] at hf
    exact absurd (by simp) (hf ((depth.take j).sum + p, j + 1, p)
      ((table_mem _ _ _ _ _ _).mpr ⟨j, hj, hp, by omega, by omega⟩))
  | some e =>
    obtain ⟨n, s, q⟩ := e
    have h1 := List.mem_of_find?_eq_some hf
    have h2 := List.find?_some hf
    have h3 := num_inj (of_decide_eq_true h2)
    dsimp only at h3
    subst h3
    obtain ⟨i, hi, hq, h4, rfl⟩ := (table_mem _ _ _ _ _ _).mp h1
    obtain ⟨rfl, rfl⟩ := place_unique depth j i p q hj hi hp hq (by omega)
    rw [Nat.add_comm 1 j]

theorem tableGet_miss (depth : List ℕ) (n : ℕ) (h : depth.sum ≤ n) :
    tableGet (table depth 0 1) (num n) = none := by
  unfold tableGet
  rw [List.find?_eq_none]
  rintro ⟨m, s, p⟩ hm
  rw [decide_eq_true_eq]
  intro he
  have := num_inj he
  dsimp only at this
  subst this
  obtain ⟨j, hj, hp, h4, _⟩ := (table_mem _ _ _ _ _ _).mp hm
  have := take_sum_le depth j hj
  omega

theorem tableGet_word (t : List (ℕ × ℕ × ℕ)) (w : Str) (c : Char) (hc : c ∈ w)
    (hd : c.isDigit = false) : tableGet t w = none := by
  unfold tableGet
  rw [List.find?_eq_none]
  rintro ⟨m, s, p⟩ _
  rw [decide_eq_true_eq]
  intro he
  dsimp only at he
  rw [← he] at hc
  rw [num_digit hc] at hd
  cases hd

theorem find_has (rules : List (Str × Str)) (a t : Str) (h : Once blocks a t) :
    rules.find? (fun r => has (blocks ++ r.1) (a ++ blocks ++ t)) =
      rules.find? (fun r => r.1.isPrefixOf t) := by
  refine congrArg (fun f => List.find? f rules) ?_
  funext r
  exact has_once blocks r.1 a t h

theorem chain_hit (rules : List (Str × Str)) (a n new t : Str) (h : Once blocks a (n ++ t))
    (hf : rules.find? (fun r => r.1.isPrefixOf (n ++ t)) = some (n, new)) :
    chain rules (a ++ blocks ++ (n ++ t)) = a ++ new ++ t := by
  unfold chain
  rw [find_has _ _ _ h, hf]
  dsimp only
  have := replace_once (blocks ++ n) new a t (by simp [blocks]) (once_append _ _ _ _ h)
  rw [← this]
  simp [List.append_assoc]

theorem chain_none (rules : List (Str × Str)) (key : Str) (h : Never blocks key) :
    chain rules key = key := by
  unfold chain
  have : rules.find? (fun r => has (blocks ++ r.1) key) = none := by
    rw [List.find?_eq_none]
    intro r _ hr
    obtain ⟨x, y, e⟩ := (has_iff _ _).mp hr
    exact h x (r.1 ++ y) (by rw [e]; simp [List.append_assoc])
  rw [this]

theorem find_dot (rules : List (Str × Str)) (hr : ∀ r ∈ rules, '.' ∉ r.1) (n t : Str) :
    rules.find? (fun r => r.1.isPrefixOf (n ++ '.' :: t)) =
      rules.find? (fun r => r.1.isPrefixOf n) := by
  induction rules with
  | nil => rfl
  | cons r rules ih =>
    rw [List.find?_cons, List.find?_cons, prefix_dot _ _ _ (hr r List.mem_cons_self),
      ih (fun r h => hr r (List.mem_cons_of_mem _ h))]

theorem attentive_find : ∀ e ∈ table attentiveDepth 0 1,
    attentiveRules.find? (fun r => r.1.isPrefixOf (num e.1)) =
      some (num e.1, layerName e.2.1 e.2.2) := by decide +kernel

theorem attentive_dot : ∀ r ∈ attentiveRules, '.' ∉ r.1 := by decide +kernel

theorem bignas_find (d : ℕ) (hd : d < 7) (t : Str) :
    bignasRules.find? (fun r => r.1.isPrefixOf (num d ++ t)) =
      some (num d, layer ++ num (d + 1)) := by
  rcases (show d = 0 ∨ d = 1 ∨ d = 2 ∨ d = 3 ∨ d = 4 ∨ d = 5 ∨ d = 6 by omega) with
    rfl | rfl | rfl | rfl | rfl | rfl | rfl <;> simp [bignasRules, num, Nat.toDigits, Nat.toDigitsCore, Nat.digitChar, List.isPrefixOf]

theorem student_key (r : Str) (h : Once arch [] r) : studentKey (arch ++ r) = some r := by
  unfold studentKey
  rw [if_pos ((prefix_iff _ _).mpr ⟨r, rfl⟩), replace_start arch [] r (by simp [arch]) h]
  rfl

theorem student_some {key k : Str} (h : studentKey key = some k) : ∃ r, key = arch ++ r := by
  unfold studentKey at h
  by_cases hp : arch.isPrefixOf key = true
  · exact (prefix_iff _ _).mp hp
  · rw [if_neg hp] at h
    cases h

theorem has_blocks_word (t : Str) : has ['b', 'l', 'o', 'c', 'k', 's'] (blocks ++ t) = true :=
  (has_iff _ _).mpr ⟨[], '.' :: t, rfl⟩

theorem second_blocks (n : ℕ) (t : Str) :
    second (blocks ++ (num n ++ '.' :: t)) = some (num n) :=
  second_eq ['b', 'l', 'o', 'c', 'k', 's'] (num n) t (by decide) (dot_num n)

theorem keyArch_eq : keyArch = arch := by decide +kernel

theorem keyArchitecture_eq : keyArchitecture = arch.dropLast := by decide +kernel

theorem keyModel_eq : keyModel = archModel := by decide +kernel

theorem keyDist_eq : keyDist = distTeacher := by decide +kernel

theorem keyTeacher_eq : keyTeacher = arch ++ ['t', 'e', 'a', 'c', 'h', 'e', 'r'] := by decide +kernel

theorem keyPredict_eq : keyPredict = qpredict := by decide +kernel

theorem keyWfq_eq : keyWfq = wfq := by decide +kernel

theorem keyVal_eq : keyVal = val := by decide +kernel

theorem keyBlocks_eq : keyBlocks = blocks := by decide +kernel

theorem keyLayer_eq : keyLayer = layer := by decide +kernel

theorem keyBg_eq : keyBg = model := by decide +kernel

theorem keyModule_eq : keyModule = mod := by decide +kernel

theorem keyBackbone_eq : keyBackbone = arch ++ backbone := by decide +kernel

end Verif.Ckpt
