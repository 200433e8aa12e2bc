import Verif.Spec.CmdTools
import Mathlib.Tactic.Ring

/-! Helper lemmas for `Verif/Props/CmdTools.lean`. -/

namespace Verif.CmdTools

theorem setOne_ok {V : Type} {accept : String → V → Bool} {u : Units V} {n : String} {v : V}
    (h : n ∈ u.map Prod.fst) (ha : accept n v = true) :
    setOne accept u n v = .ok (u.map fun p => if p.1 = n then (p.1, v) else p) := by
  unfold setOne
  have : u.any (fun p => p.1 == n) = true := by
    rw [List.any_eq_true]
    obtain ⟨p, hp, rfl⟩ := List.mem_map.1 h
    exact ⟨p, hp, by simp⟩
  rw [if_pos this, if_pos ha]

theorem setOne_error {V : Type} {accept : String → V → Bool} {u : Units V} {n : String} {v : V}
    (h : ¬ (n ∈ u.map Prod.fst ∧ accept n v = true)) : ∃ e, setOne accept u n v = .error e := by
  unfold setOne
  by_cases h1 : u.any (fun p => p.1 == n) = true
  · rw [if_pos h1]
    by_cases h2 : accept n v = true
    · exfalso
      apply h
      refine ⟨?_, h2⟩
      rw [List.any_eq_true] at h1
      obtain ⟨p, hp, he⟩ := h1
      exact List.mem_map.2 ⟨p, hp, by simpa using he⟩
    · rw [if_neg h2]; exact ⟨_, rfl⟩
  · rw [if_neg h1]; exact ⟨_, rfl⟩

theorem set_names {V : Type} (u : Units V) (n : String) (v : V) :
    (u.map fun p => if p.1 = n then (p.1, v) else p).map Prod.fst = u.map Prod.fst := by
  rw [List.map_map]
  apply List.map_congr_left
  intro p _
  simp only [Function.comp]
  by_cases h : p.1 = n
  · rw [if_pos h]
  · rw [if_neg h]

theorem assign_nil {V : Type} (u : Units V) : assign u [] = u := by
  unfold assign
  simp

theorem lookup_concat {V : Type} (l : List (String × V)) (n m : String) (v : V) :
    (l ++ [(n, v)]).lookup m = (l.lookup m).or (if m = n then some v else none) := by
  induction l with
  | nil =>
    by_cases h : m = n
    · simp [List.lookup, h]
    · have : (m == n) = false := by simpa using h
      simp [List.lookup, h, this]
  | cons p l ih =>
    rw [List.cons_append, List.lookup_cons, List.lookup_cons]
    cases (m == p.1)
    · simpa using ih
    · simp

theorem assign_cons {V : Type} (u : Units V) (n : String) (v : V) (cs : List (String × V)) :
    assign (u.map fun p => if p.1 = n then (p.1, v) else p) cs = assign u ((n, v) :: cs) := by
  unfold assign
  rw [List.map_map]
  apply List.map_congr_left
  intro p _
  simp only [Function.comp, List.reverse_cons, lookup_concat]
  by_cases h : p.1 = n
  · rw [if_pos h, if_pos h]
    cases List.lookup p.1 cs.reverse <;> simp
  · rw [if_neg h, if_neg h]
    cases List.lookup p.1 cs.reverse <;> simp

theorem setChoices_append {V : Type} {accept : String → V → Bool} {good : List (String × V)} :
    ∀ {u : Units V}, Settable accept u good → ∀ cs,
      setChoices accept u (good ++ cs) = setChoices accept (assign u good) cs := by
  induction good with
  | nil => intro u _ cs; rw [assign_nil]; rfl
  | cons c good ih =>
    intro u h cs
    obtain ⟨n, v⟩ := c
    have h0 := h (n, v) (by simp)
    have he := setOne_ok (v := v) h0.1 h0.2
    have hs : Settable accept (u.map fun p => if p.1 = n then (p.1, v) else p) good := by
      intro c hc
      rw [set_names]
      exact h c (by simp [hc])
    rw [List.cons_append, setChoices, he]
    dsimp only
    rw [ih hs cs, assign_cons]

theorem assign_names {V : Type} (u : Units V) (cs : List (String × V)) :
    (assign u cs).map Prod.fst = u.map Prod.fst := by
  unfold assign
  rw [List.map_map]
  rfl

theorem takeWhile_append_stop {α : Type} {p : α → Bool} {s t : List α} {c : α}
    (hs : ∀ x ∈ s, p x = true) (hc : p c = false) : (s ++ c :: t).takeWhile p = s := by
  induction s with
  | nil => simp [hc]
  | cons a s ih =>
    rw [List.cons_append, List.takeWhile_cons, if_pos (hs a (by simp)),
      ih fun x hx => hs x (by simp [hx])]

theorem dropWhile_append_stop {α : Type} {p : α → Bool} {s t : List α} {c : α}
    (hs : ∀ x ∈ s, p x = true) (hc : p c = false) : (s ++ c :: t).dropWhile p = c :: t := by
  induction s with
  | nil => simp [hc]
  | cons a s ih =>
    rw [List.cons_append, List.dropWhile_cons, if_pos (hs a (by simp)),
      ih fun x hx => hs x (by simp [hx])]

theorem basename_slash {d n : List Char} (h : '/' ∉ n) : basename (d ++ '/' :: n) = n := by
  unfold basename
  have e : (d ++ '/' :: n).reverse = n.reverse ++ '/' :: d.reverse := by simp
  rw [e, takeWhile_append_stop (c := '/') (s := n.reverse) (t := d.reverse), List.reverse_reverse]
  · intro x hx
    have : x ≠ '/' := by
      rintro rfl
      exact h (by simpa using hx)
    simpa using this
  · decide

theorem stem_dot {s e : List Char} {c : Char} (hc : c ≠ '.') (he : '.' ∉ e) :
    stem (c :: s ++ '.' :: e) = c :: s := by
  unfold stem
  have h1 : ((c :: s ++ '.' :: e).dropWhile (· == '.')) = c :: s ++ '.' :: e := by
    have : (c == '.') = false := by simpa using hc
    simp [List.dropWhile_cons, this]
  rw [h1, if_pos (by simp)]
  have e1 : (c :: s ++ '.' :: e).reverse = e.reverse ++ '.' :: (c :: s).reverse := by simp
  rw [e1, dropWhile_append_stop (c := '.') (s := e.reverse)]
  · simp
  · intro x hx
    have : x ≠ '.' := by
      rintro rfl
      exact he (by simpa using hx)
    simpa using this
  · decide

theorem firstPart_dot {s e : List Char} (hs : '.' ∉ s) : firstPart (s ++ '.' :: e) = s := by
  unfold firstPart
  apply takeWhile_append_stop
  · intro x hx
    have : x ≠ '.' := by
      rintro rfl
      exact hs hx
    simpa using this
  · decide

theorem ceil_ceil {b g n : Nat} (hb : 0 < b) (hg : 0 < g) :
    realIters b g n = (n + b * g - 1) / (b * g) := by
  unfold realIters
  have h1 : (n + g - 1) / g + b - 1 = (n + g - 1) / g + (b - 1) := by
    generalize (n + g - 1) / g = q
    omega
  rw [h1]
  have h2 : (n + g - 1) / g + (b - 1) = (n + g - 1 + g * (b - 1)) / g := by
    rw [Nat.add_mul_div_left _ _ hg]
  rw [h2, Nat.div_div_eq_div_mul, Nat.mul_comm g b]
  congr 1
  have h3 : g * (b - 1) + g = b * g := by
    obtain ⟨k, rfl⟩ : ∃ k, b = k + 1 := ⟨b - 1, by omega⟩
    simp; ring
  omega

theorem foldl_last {α : Type} (l : List α) (o : Option α) :
    l.foldl (fun _ d => some d) o = l.getLast?.or o := by
  induction l generalizing o with
  | nil => simp
  | cons a l ih =>
    rw [List.foldl_cons, ih]
    cases l with
    | nil => simp
    | cons b l => simp [List.getLast?_cons]

theorem pick_none {word : List Char} {r : List (List Char)} (o : Option (List Char))
    (h : ∀ n ∈ r, occurs word n = false) :
    r.foldl (fun acc n => if occurs word n then some n else acc) o = o := by
  induction r generalizing o with
  | nil => rfl
  | cons a r ih =>
    rw [List.foldl_cons, if_neg (by rw [h a (by simp)]; decide), ih _ fun n hn => h n (by simp [hn])]

end Verif.CmdTools
