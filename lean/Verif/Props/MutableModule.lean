import Verif.Lemmas.MutableModule

/-! C08, C09, C53: operation mutables. -/

namespace Verif.MutableModule
open Verif

variable {X Y : Type}

/-! ### One-shot operation -/

section oneShot
variable [AddCommMonoid Y]

/-- C08: fixing an unfixed one-shot operation to one of its candidates succeeds,
leaves exactly that candidate, and whatever is called afterwards the forward pass
is that candidate's. -/
theorem C08_oneshot_fix (m : OneShot X Y) (c : String) (f : X → Y) (hn : (keys m.cands).Nodup)
    (hu : m.fixed = false) (hc : (c, f) ∈ m.cands) :
    (m.fix c).2 = none ∧ keys (m.fix c).1.cands = [c] ∧
    ∀ (later : List OneShotCall) (x : X),
      keys ((m.fix c).1.run later).cands = [c] ∧ ((m.fix c).1.run later).forward x = .ok (f x) := by
  have e1 : m.fix c = ({ m with cands := m.cands.filter (fun p => p.1 == c), chosen := some c, fixed := true }, none) := by
    simp [OneShot.fix, hu, popLoop_eq]
  have hk : keys (m.cands.filter (fun p => p.1 == c)) = [c] := by
    have h1 : c ∈ keys (m.cands.filter (fun p => p.1 == c)) :=
      List.mem_map.mpr ⟨(c, f), List.mem_filter.mpr ⟨hc, by simp⟩, rfl⟩
    have h2 : ∀ k ∈ keys (m.cands.filter (fun p => p.1 == c)), k = c := by
      intro k hk
      obtain ⟨p, hp, rfl⟩ := List.mem_map.mp hk
      simpa using (List.mem_filter.mp hp).2
    have h3 := keys_filter_nodup m.cands (fun p => p.1 == c) hn
    match hl : keys (m.cands.filter (fun p => p.1 == c)) with
    | [] => rw [hl] at h1; cases h1
    | [a] => rw [hl] at h2; rw [h2 a (by simp)]
    | a :: b :: r =>
      rw [hl] at h2 h3
      have ha := h2 a (by simp)
      have hb := h2 b (by simp)
      subst ha; subst hb
      simp at h3
  rw [e1]
  refine ⟨rfl, hk, ?_⟩
  intro later x
  have hr := oneShot_fixed_run later
    ({ m with cands := m.cands.filter (fun p => p.1 == c), chosen := some c, fixed := true } : OneShot X Y) rfl
  refine ⟨by rw [hr.1]; exact hk, ?_⟩
  unfold OneShot.forward
  rw [hr.2.2, hr.2.1, hr.1]
  simp only [if_true]
  exact call_of_mem _ c f x (keys_filter_nodup _ _ hn) (List.mem_filter.mpr ⟨hc, by simp⟩)

example : ∃ m : OneShot Int Int, (keys m.cands).Nodup ∧ m.fixed = false ∧ m.cands.length = 3 ∧
    (((m.fix "b").1.run [.assign (some "a"), .fix "c", .assign none]).forward 5).toOption = some 10 :=
  ⟨⟨[("a", (· + 1)), ("b", (2 * ·)), ("c", fun _ => 0)], none, none, false⟩, by decide, rfl, rfl, by decide⟩

/-- C08: before fixing, the forward pass is the selected candidate's, all
candidates added up when nothing is selected, and an error for a selection that is
not a candidate. -/
theorem C08_oneshot_unfixed_forward (m : OneShot X Y) (hn : (keys m.cands).Nodup)
    (hu : m.fixed = false) (x : X) :
    (∀ c f, m.current = some c → (c, f) ∈ m.cands → m.forward x = .ok (f x)) ∧
    (∀ c, m.current = some c → c ∉ keys m.cands → m.forward x = .error .assertion) ∧
    (m.current = none → m.forward x = .ok ((m.cands.map (fun p => p.2 x)).sum)) := by
  refine ⟨?_, ?_, ?_⟩
  · intro c f hc hm
    have : c ∈ keys m.cands := List.mem_map.mpr ⟨_, hm, rfl⟩
    simp [OneShot.forward, hu, hc, this, call_of_mem _ c f x hn hm]
  · intro c hc hm
    simp [OneShot.forward, hu, hc, hm]
  · intro hc
    simp [OneShot.forward, hu, hc]

/-- C08: fixing twice raises and changes nothing. -/
theorem C08_oneshot_fix_twice (m : OneShot X Y) (c : String) (h : m.fixed = true) :
    m.fix c = (m, some .attribute) := by
  simp [OneShot.fix, h]

/-- C08 is violated: fixing to a name that is not a candidate is accepted, deletes
every candidate, and every later forward pass raises. -/
theorem C08_oneshot_unknown_violated (m : OneShot X Y) (c : String) (hu : m.fixed = false)
    (hc : c ∉ keys m.cands) :
    (m.fix c).2 = none ∧ (m.fix c).1.cands = [] ∧
    ∀ x, (m.fix c).1.forward x = .error .key := by
  have e : m.cands.filter (fun p => p.1 == c) = [] := by
    rw [List.filter_eq_nil_iff]
    rintro ⟨a, f⟩ hp
    simp only [beq_iff_eq]
    rintro rfl
    exact hc (List.mem_map.mpr ⟨(a, f), hp, rfl⟩)
  refine ⟨by simp [OneShot.fix, hu], by simp [OneShot.fix, hu, popLoop_eq, e], ?_⟩
  intro x
  simp [OneShot.fix, hu, popLoop_eq, e, OneShot.forward, call]

end oneShot

example : ∃ m : OneShot Int Int, m.fixed = false ∧ "z" ∉ keys m.cands ∧ m.cands.length = 2 :=
  ⟨⟨[("a", id), ("b", id)], none, none, false⟩, rfl, by decide, rfl⟩

/-! ### Differentiable operation -/

section diff
variable [AddCommMonoid Y] [Module ℚ Y]

/-- C08: fixing a differentiable operation to a list of its candidates keeps
exactly these, in their original order; whatever is called afterwards the forward
pass is the sum of the chosen candidates. `ops` names the candidates' functions. -/
theorem C08_diff_fix (m : Diff X Y) (chosen : List String) (ops : String → X → Y)
    (hn : (keys m.cands).Nodup) (hu : m.fixed = false)
    (hops : ∀ c ∈ keys m.cands, (c, ops c) ∈ m.cands) (hc : ∀ c ∈ chosen, c ∈ keys m.cands) :
    (m.fix chosen).2 = none ∧
    keys (m.fix chosen).1.cands = (keys m.cands).filter (fun c => decide (c ∈ chosen)) ∧
    ∀ (later : List (List String)) (x : X) (probs : Option (List ℚ)),
      ((m.fix chosen).1.run later).forward x probs = .ok ((chosen.map (fun c => ops c x)).sum) := by
  have e : m.fix chosen = ({ m with cands := m.cands.filter (fun p => decide (p.1 ∈ chosen)), chosen := some chosen, fixed := true }, none) := by
    simp [Diff.fix, hu, popLoop_eq]
  rw [e]
  refine ⟨rfl, ?_, ?_⟩
  · simp [keys, List.filter_map, Function.comp_def]
  · intro later x probs
    rw [diff_fixed_run later _ rfl]
    simp only [Diff.forward, if_true]
    have hmem : ∀ c ∈ keys (m.cands.filter (fun p => decide (p.1 ∈ chosen))),
        (c, ops c) ∈ m.cands.filter (fun p => decide (p.1 ∈ chosen)) := by
      intro c hc'
      obtain ⟨p, hp, rfl⟩ := List.mem_map.mp hc'
      have hp' := List.mem_filter.mp hp
      exact List.mem_filter.mpr ⟨hops _ (List.mem_map.mpr ⟨p, hp'.1, rfl⟩), by simpa using hp'.2⟩
    apply forwardFixed_ok _ (keys_filter_nodup _ _ hn) x ops hmem
    intro c hcc
    exact List.mem_map.mpr ⟨(c, ops c), List.mem_filter.mpr ⟨hops c (hc c hcc), by simpa using hcc⟩, rfl⟩

example : ∃ m : Diff ℚ ℚ, (keys m.cands).Nodup ∧ m.fixed = false ∧ m.cands.length = 3 ∧
    (((m.fix ["c", "b"]).1.run [["a"]]).forward 5 none).toOption = some 17 :=
  ⟨⟨[("a", (· + 1)), ("b", (2 * ·)), ("c", (· + 2))], 1, none, false⟩, by decide, rfl, rfl, by decide +kernel⟩

/-- C08: fixing twice raises and changes nothing. -/
theorem C08_diff_fix_twice (m : Diff X Y) (chosen : List String) (h : m.fixed = true) :
    m.fix chosen = (m, some .attribute) := by
  simp [Diff.fix, h]

/-- C08 is violated: a list with an unknown name is accepted, and then every
forward pass raises (shown for a list that starts with the unknown name). -/
theorem C08_diff_unknown_violated (m : Diff X Y) (c : String) (rest : List String)
    (hu : m.fixed = false) (hc : c ∉ keys m.cands) :
    (m.fix (c :: rest)).2 = none ∧
    ∀ x probs, (m.fix (c :: rest)).1.forward x probs = .error .key := by
  refine ⟨by simp [Diff.fix, hu], ?_⟩
  intro x probs
  have : call (m.cands.filter (fun p => decide (p.1 ∈ c :: rest))) c x = .error .key := by
    apply call_of_not_mem
    intro h
    obtain ⟨p, hp, rfl⟩ := List.mem_map.mp h
    exact hc (List.mem_map.mpr ⟨p, (List.mem_filter.mp hp).1, rfl⟩)
  simp only [Diff.fix, hu, Diff.forward, popLoop_eq, forwardFixed, this, Bool.false_eq_true, if_false, if_true,
    bind, Except.bind]

/-- C53: before fixing, the forward pass with non-negative weights is the weighted
sum of all candidates (skipping the zero weights changes nothing). -/
theorem C53_diff_weighted (m : Diff X Y) (probs : List ℚ) (x : X) (hu : m.fixed = false)
    (hp : ∀ p ∈ probs, 0 ≤ p) :
    m.forward x (some probs) = .ok (((probs.zip m.cands).map (fun p => p.1 • p.2.2 x)).sum) := by
  have key : ∀ l : List (ℚ × String × (X → Y)), (∀ p ∈ l, 0 ≤ p.1) →
      ((l.filter (fun p => decide (p.1 > 0))).map (fun p => p.1 • p.2.2 x)).sum
        = (l.map (fun p => p.1 • p.2.2 x)).sum := by
    intro l
    induction l with
    | nil => intro _; rfl
    | cons a l ih =>
      intro h
      have ih' := ih (fun p hp => h p (by simp [hp]))
      by_cases ha : a.1 > 0
      · simp [ha, ih']
      · have h0 : a.1 = 0 := le_antisymm (not_lt.mp ha) (h a (by simp))
        simp [ih', h0]
  simp only [Diff.forward, hu, weighted, Bool.false_eq_true, if_false]
  rw [key]
  intro p hpm
  exact hp _ (List.of_mem_zip hpm).1

end diff

/-- C53: the choice a differentiable operation reports for a vector of
architecture parameters (one per candidate) is a candidate whose parameter is the
largest. -/
theorem C53_diff_sample (m : Diff X Y) (arch : List ℚ) (hl : arch.length = m.cands.length)
    (hne : m.cands ≠ []) :
    ∃ (i : Nat) (v : ℚ) (c : String), arch[i]? = some v ∧ (keys m.cands)[i]? = some c ∧ (∀ w ∈ arch, w ≤ v) ∧
      m.sampleChoice arch = .ok c := by
  have ha : arch ≠ [] := by
    intro h; rw [h] at hl; exact hne (List.length_eq_zero_iff.mp hl.symm)
  obtain ⟨v, hv, hle⟩ := argmax_spec arch ha
  have hi : argmax arch < (keys m.cands).length := by
    have := (List.getElem?_eq_some_iff.mp hv).1
    simpa [keys, hl] using this
  refine ⟨argmax arch, v, (keys m.cands)[argmax arch], hv, List.getElem?_eq_getElem hi, hle, ?_⟩
  simp [Diff.sampleChoice, List.getElem?_eq_getElem hi]

example : (Diff.sampleChoice (⟨[("a", id), ("b", id), ("c", id)], 1, none, false⟩ : Diff ℚ ℚ) [1, 3, 2]).toOption
    = some "b" := by decide +kernel

/-! ### One-hot operation -/

/-- C09, the decision part: with at least two candidates and one weight per
candidate, an unfixed one-hot operation becomes fixed exactly when the largest
weight exceeds the second largest by at least the threshold. -/
theorem C09_fixed_iff (m : Diff X Y) (probs : List ℚ) (hu : m.fixed = false)
    (hl : probs.length = m.cands.length) (h2 : 2 ≤ m.cands.length) :
    ∃ a b rest, (a :: b :: rest).Perm probs ∧ b ≤ a ∧ (∀ c ∈ rest, c ≤ b) ∧
      (oneHotFix m probs).2 = none ∧ ((oneHotFix m probs).1.fixed = true ↔ a - b ≥ m.threshold) := by
  have hs : (sortBy (fun a b : ℚ => decide (a ≥ b)) probs).length = probs.length := length_sortBy _
  have hex : ∃ a b, top2 probs = .ok (a, b) := by
    unfold top2
    match hm : sortBy (fun a b : ℚ => decide (a ≥ b)) probs with
    | [] => rw [hm] at hs; simp at hs; omega
    | [a] => rw [hm] at hs; simp at hs; omega
    | a :: b :: r => exact ⟨a, b, rfl⟩
  obtain ⟨a, b, hab⟩ := hex
  obtain ⟨rest, hp, hba, hr⟩ := top2_spec probs a b hab
  have hk : (keys m.cands)[1]? = some ((keys m.cands)[1]'(by simp [keys]; omega)) :=
    List.getElem?_eq_getElem _
  refine ⟨a, b, rest, hp, hba, hr, ?_⟩
  by_cases hg : a - b ≥ m.threshold
  · simp [oneHotFix, hu, hab, hg, hk, Diff.fix]
  · simp [oneHotFix, hu, hab, hg]

/-- C09, which candidate: whenever it becomes fixed it is fixed to the *second
declared* candidate, whatever the weights. -/
theorem C09_fixes_second_violated (m : Diff X Y) (probs : List ℚ) (hu : m.fixed = false)
    (hf : (oneHotFix m probs).1.fixed = true) :
    ∃ c, (keys m.cands)[1]? = some c ∧ (oneHotFix m probs).1.chosen = some [c] := by
  unfold oneHotFix at hf ⊢
  rw [hu] at hf ⊢
  simp only [Bool.false_eq_true, if_false] at hf ⊢
  split at hf
  · rw [hu] at hf; cases hf
  · rename_i a b heq
    split at hf
    · rename_i hg
      split at hf
      · rename_i c hc
        exact ⟨c, hc, by simp [hg, Diff.fix, hu]⟩
      · rw [hu] at hf; cases hf
    · rw [hu] at hf; cases hf

/-- C09 is violated: the first candidate has weight 9/10, the second 1/10, the
threshold is 1/2, and the layer is fixed to the second. -/
theorem C09_fixes_largest_violated :
    let m : Diff ℚ ℚ := ⟨[("a", id), ("b", id)], 1/2, none, false⟩
    (oneHotFix m [9/10, 1/10]).1.chosen = some ["b"] ∧ keys (oneHotFix m [9/10, 1/10]).1.cands = ["b"] := by
  decide +kernel

/-- C09: no candidates and a threshold outside `[0, 1]` are refused; otherwise the
operation starts unfixed with all its candidates. -/
theorem C09_init (cs : Cands X Y) (t : ℚ) :
    (cs = [] → Diff.init cs t = .error .assertion) ∧
    (cs ≠ [] → (t < 0 ∨ 1 < t) → Diff.init cs t = .error .value) ∧
    (cs ≠ [] → 0 ≤ t → t ≤ 1 → Diff.init cs t = .ok ⟨cs, t, none, false⟩) := by
  refine ⟨?_, ?_, ?_⟩
  · rintro rfl; rfl
  · intro h1 h2
    have : ¬ ¬ cs.length ≥ 1 := by
      have := List.length_pos_iff.mpr h1
      omega
    rw [Diff.init, if_neg this, if_pos h2]
  · intro h1 h2 h3
    have : ¬ ¬ cs.length ≥ 1 := by
      have := List.length_pos_iff.mpr h1
      omega
    rw [Diff.init, if_neg this, if_neg (by simp [not_lt.mpr h2, not_lt.mpr h3])]

/-- C09 where it holds: if the second declared candidate carries the largest
weight, becoming fixed means being fixed to a candidate of largest weight, and
this forward pass is that candidate's. Missing: any other candidate with the largest weight, see `C09_fixes_largest_violated`. -/
theorem C09_fixes_largest_partial [AddCommMonoid Y] [Module ℚ Y] (m : Diff X Y)
    (probs sampled : List ℚ) (c : String) (f : X → Y) (x : X)
    (hn : (keys m.cands).Nodup) (hu : m.fixed = false) (v : ℚ) (h1 : (keys m.cands)[1]? = some c)
    (hv : probs[1]? = some v) (hmax : ∀ w ∈ probs, w ≤ v)
    (hm : (c, f) ∈ m.cands) (hsl : sampled ≠ [])
    (hf : (oneHotFix m probs).1.fixed = true) :
    (∃ (i : Nat) (w : ℚ), (keys m.cands)[i]? = some c ∧ probs[i]? = some w ∧ ∀ w' ∈ probs, w' ≤ w) ∧
    (oneHotFix m probs).1.chosen = some [c] ∧ (oneHotForward m probs sampled x).2 = .ok (f x) := by
  refine ⟨⟨1, v, h1, hv, hmax⟩, ?_⟩
  have hfix : oneHotFix m probs = m.fix [c] := by
    unfold oneHotFix at hf ⊢
    rw [hu] at hf ⊢
    simp only [Bool.false_eq_true, if_false, h1] at hf ⊢
    split at hf
    · rw [hu] at hf; cases hf
    · rename_i a b heq
      split at hf
      · rename_i hg
        simp [hg]
      · rw [hu] at hf; cases hf
  have e : m.fix [c] = ({ m with cands := m.cands.filter (fun p => p.1 == c), chosen := some [c], fixed := true }, none) := by
    simp only [Diff.fix, hu, popLoop_eq, Bool.false_eq_true, if_false, List.mem_singleton]
    congr 2
  have hk : m.cands.filter (fun p => p.1 == c) = [(c, f)] := by
    have : ∀ (cs : Cands X Y), (keys cs).Nodup → (c, f) ∈ cs → cs.filter (fun p => p.1 == c) = [(c, f)] := by
      intro cs
      induction cs with
      | nil => intro _ h; cases h
      | cons q cs ih =>
        intro hn h
        have hn' : q.1 ∉ keys cs ∧ (keys cs).Nodup := by simpa [keys] using hn
        rcases List.mem_cons.mp h with h | h
        · subst h
          have : cs.filter (fun p => p.1 == c) = [] := by
            rw [List.filter_eq_nil_iff]
            intro p hp
            simp only [beq_iff_eq]
            intro hpc
            exact hn'.1 (List.mem_map.mpr ⟨p, hp, hpc⟩)
          simp [this]
        · have hq : q.1 ≠ c := by
            rintro rfl
            exact hn'.1 (List.mem_map.mpr ⟨_, h, rfl⟩)
          rw [List.filter_cons_of_neg (by simpa using hq)]
          exact ih hn'.2 h
    exact this _ hn hm
  refine ⟨by rw [hfix, e], ?_⟩
  unfold oneHotForward
  rw [hfix, e, hk]
  match sampled, hsl with
  | s :: ss, _ => simp [keys, weighted]

example : (oneHotFix (⟨[("a", id), ("b", id), ("c", id)], 1/2, none, false⟩ : Diff ℚ ℚ) [1/10, 8/10, 1/10]).1.chosen
    = some ["b"] := by decide +kernel

/-- C09: below the threshold nothing is fixed and the forward pass uses the
sampled weights. -/
theorem C09_below_threshold [AddCommMonoid Y] [Module ℚ Y] (m : Diff X Y)
    (probs sampled : List ℚ) (a b : ℚ) (x : X) (hu : m.fixed = false) (h2 : top2 probs = .ok (a, b))
    (hg : a - b < m.threshold) :
    oneHotForward m probs sampled x = (m, .ok (weighted sampled m.cands x)) := by
  have : ¬ (a - b ≥ m.threshold) := not_le.mpr hg
  simp [oneHotForward, oneHotFix, hu, h2, this]

/-- C09: a one-hot operation with a single candidate cannot run at all: asking for
the two largest of one weight raises. -/
theorem C09_single_candidate_fails [AddCommMonoid Y] [Module ℚ Y] (m : Diff X Y) (p : ℚ)
    (sampled : List ℚ) (x : X) (hu : m.fixed = false) :
    (oneHotForward m [p] sampled x).2 = .error .runtime := by
  simp [oneHotForward, oneHotFix, hu, top2, sortBy, insertBy]

/-! ### Choice route -/

section route
variable [AddCommMonoid Y]

/-- C08: after a route is fixed once, its forward pass on one input per original
edge is the sum of the chosen edges, each on its own input. -/
theorem C08_route_fix (m : Route X Y) (chosen : List String) (inputs : List X)
    (hn : (keys m.cands).Nodup) (hu : m.fixed = false) (hl : m.cands.length = inputs.length) :
    (m.fix chosen).2 = none ∧
    keys (m.fix chosen).1.cands = (keys m.cands).filter (fun c => decide (c ∈ chosen)) ∧
    (m.fix chosen).1.forward inputs
      = .ok ((((m.cands.zip inputs).filter (fun p => decide (p.1.1 ∈ chosen))).map (fun p => p.1.2 p.2)).sum) := by
  refine ⟨by simp [Route.fix, hu], ?_, ?_⟩
  · simp [Route.fix, hu, popLoop_eq, keys, List.filter_map, Function.comp_def]
  · simp only [Route.fix, hu, Bool.false_eq_true, if_false, Route.forward, if_true, popLoop_eq]
    apply routeFixed_ok _ _ (keys_filter_nodup _ _ hn) _ _ _ (le_of_eq hl)
    intro p hp hc
    exact List.mem_filter.mpr ⟨hp, by simpa using hc⟩

example : ∃ m : Route Int Int, (keys m.cands).Nodup ∧ m.fixed = false ∧ m.cands.length = 3 ∧
    (((m.fix ["c", "a"]).1).forward [1, 10, 100]).toOption = some 102 :=
  ⟨⟨[("a", (· + 1)), ("b", (2 * ·)), ("c", id)], [], [], 2, false⟩, by decide, rfl, rfl, by decide⟩

/-- C08: fixing a route twice raises. -/
theorem C08_route_fix_twice_raises (m : Route X Y) (chosen : List String) (h : m.fixed = true) :
    (m.fix chosen).2 = some .attribute := by
  simp [Route.fix, h]

end route

/-- C08 is violated: the second, rejected fix changes what the route computes. Of
three edges the last is chosen; with inputs 1, 10, 100 the fixed route returns 100,
and after a rejected second call it returns 1. -/
theorem C08_route_rejected_fix_violated :
    let m : Route Int Int := ⟨[("a", id), ("b", id), ("c", id)], [], [], 1, false⟩
    let f := (m.fix ["c"]).1
    (f.forward [1, 10, 100]).toOption = some 100 ∧ (f.fix ["c"]).2 = some .attribute ∧
    ((f.fix ["c"]).1.forward [1, 10, 100]).toOption = some 1 := by
  decide

/-- C08: general form of the previous effect: after any rejected fix the remaining
edges are fed the first inputs, in order, instead of their own. -/
theorem C08_route_rejected_fix_pairs_violated [AddCommMonoid Y] (m : Route X Y) (chosen again : List String)
    (inputs : List X) (hn : (keys m.cands).Nodup) (hu : m.fixed = false)
    (hl : m.cands.length = inputs.length) :
    (((m.fix chosen).1.fix again).1).forward inputs
      = .ok ((((m.cands.filter (fun p => decide (p.1 ∈ chosen))).zip inputs).map (fun p => p.1.2 p.2)).sum) := by
  simp only [Route.fix, hu, Bool.false_eq_true, if_false, if_true, Route.forward, popLoop_eq]
  rw [routeFixed_ok _ _ (keys_filter_nodup _ _ hn) _ _ (fun p hp _ => hp)
    (le_trans (List.length_filter_le _ _) (le_of_eq hl))]
  congr 3
  rw [List.filter_eq_self]
  intro p hp
  have := (List.mem_filter.mp (List.of_mem_zip hp).1).2
  simpa using this

/-- C53: a route reports `num_chosen` candidates with the largest parameters: the
reported names are those of a list of different positions, and every position left
out has a parameter that is at most every reported one. -/
theorem C53_route_sample (m : Route X Y) (arch : List ℚ) (hl : arch.length = m.cands.length) :
    ∃ idx : List Nat, idx.Nodup ∧ idx.length = min m.numChosen m.cands.length ∧
      (∀ i ∈ idx, i < m.cands.length) ∧
      m.sampleChoice arch = idx.filterMap (fun i => (keys m.cands)[i]?) ∧
      ∀ i ∈ idx, ∀ j < m.cands.length, j ∉ idx → arch[j]?.getD 0 ≤ arch[i]?.getD 0 := by
  set le : Nat → Nat → Bool := fun i j => decide (arch[i]?.getD 0 ≥ arch[j]?.getD 0) with hle
  set s := sortBy le (List.range arch.length) with hs
  have hperm : s.Perm (List.range arch.length) := sortBy_perm _
  have hsorted := sortBy_sorted (le := le)
    (by intro a b c; simpa [hle] using fun h1 h2 => le_trans h2 h1)
    (by intro a b; simpa [hle] using le_total _ _) (List.range arch.length)
  have hnd : s.Nodup := hperm.nodup_iff.mpr List.nodup_range
  refine ⟨s.take m.numChosen, hnd.sublist (List.take_sublist _ _), ?_, ?_, rfl, ?_⟩
  · rw [List.length_take, hperm.length_eq, List.length_range, hl]
  · intro i hi
    have := hperm.mem_iff.mp (List.mem_of_mem_take hi)
    rw [← hl]; simpa using this
  · intro i hi j hj hji
    have hj' : j ∈ s := hperm.mem_iff.mpr (by simpa [hl] using hj)
    rw [← List.take_append_drop m.numChosen s] at hj'
    have hjd : j ∈ s.drop m.numChosen := by
      rcases List.mem_append.mp hj' with h | h
      · exact absurd h hji
      · exact h
    change s.Pairwise _ at hsorted
    rw [← List.take_append_drop m.numChosen s, List.pairwise_append] at hsorted
    simpa [hle] using hsorted.2.2 i hi j hjd

example : (Route.sampleChoice (⟨[("a", id), ("b", id), ("c", id)], [], [], 2, false⟩ : Route ℚ ℚ) [1, 3, 2])
    = ["b", "c"] := by decide +kernel

/-- C08: an operation or a route without candidates is refused; any other starts unfixed and
without a choice: it sums what its candidates give, and can be fixed. -/
theorem C08_init [AddCommMonoid Y] (cs : Cands X Y) (k : Nat) :
    OneShot.init ([] : Cands X Y) = .error .assertion ∧ Route.init ([] : Cands X Y) k = .error .assertion ∧
    (cs ≠ [] → ∃ m, OneShot.init cs = .ok m ∧ (∀ x, m.forward x = .ok ((cs.map fun p => p.2 x).sum)) ∧
      m.exportChosen = .error .assertion ∧ ∀ c, (m.fix c).2 = none) ∧
    (cs ≠ [] → ∃ m, Route.init cs k = .ok m ∧
      (∀ xs : List X, xs.length = cs.length → m.forward xs = .ok (((cs.zip xs).map fun p => p.1.2 p.2).sum)) ∧
      ∀ chosen, (m.fix chosen).2 = none) := by
  refine ⟨rfl, rfl, ?_, ?_⟩
  · intro h
    have hl : cs.length ≥ 1 := List.length_pos_iff.2 h
    exact ⟨⟨cs, none, none, false⟩, by simp [OneShot.init, hl], fun x => rfl, rfl, fun c => rfl⟩
  · intro h
    have hl : cs.length ≥ 1 := List.length_pos_iff.2 h
    exact ⟨⟨cs, [], [], k, false⟩, by simp [Route.init, hl], fun xs hx => by simp [Route.forward, hx], fun c => rfl⟩

example : (match OneShot.init [("a", fun x : Int => x + 1), ("b", fun x => 2 * x)] with
    | .ok m => m.forward 5 | .error e => .error e) = .ok 16 := by decide

/-- An operation that was fixed to no choice at all raises `IndexError` when it runs. -/
theorem C09_fixed_empty [AddCommMonoid Y] [SMul ℚ Y] (m : Diff X Y) (hf : m.fixed = true) (hc : m.chosen = none ∨ m.chosen = some [])
    (probs sampled : List ℚ) (x : X) : oneHotForward m probs sampled x = (m, .error .index) := by
  have h1 : oneHotFix m probs = (m, none) := by unfold oneHotFix; rw [if_pos hf]
  unfold oneHotForward
  rw [h1]
  dsimp only
  rw [if_pos hf]
  rcases hc with hc | hc <;> rw [hc]

/-- `sample_choice` fails only for architecture parameters whose largest entry has no candidate, with an `IndexError`. -/
theorem C09_sample_refused {X Y : Type} (m : Diff X Y) (arch : List ℚ) (e : Err) :
    m.sampleChoice arch = .error e ↔ m.cands.length ≤ argmax arch ∧ e = .index := by
  unfold Diff.sampleChoice
  by_cases h : argmax arch < m.cands.length
  · have : argmax arch < (keys m.cands).length := by simpa [keys] using h
    rw [List.getElem?_eq_getElem this]
    simp
    omega
  · have : (keys m.cands).length ≤ argmax arch := by simpa [keys] using h
    rw [List.getElem?_eq_none this]
    simp [not_lt.1 h, eq_comm (a := e)]

example : (⟨[("a", id)], 1, none, false⟩ : Diff ℚ ℚ).sampleChoice [0, 1] = .error .index :=
  (C09_sample_refused _ _ _).2 ⟨by decide +kernel, rfl⟩

end Verif.MutableModule
