import Verif.Lemmas.Container

/-! C03: the channel ranges of one layer. -/

namespace Verif.Container
open Verif

variable {α : Type}

/-! ### Properties -/

/-- C03 (exact acceptance): a registration is accepted exactly when the range is
non-empty and every existing range that it overlaps is one it swallows from the
left (starts before it and reaches its end). -/
theorem C03_register_accepted_iff (d : Dict α) (hd : ∀ x ∈ d, x.1.1 < x.1.2) (k : Key) (v : Chan α) :
    (∃ d', setItem d k v = .ok d') ↔
      k.1 < k.2 ∧ ∀ x ∈ d, Overlap x.1 k → Swallows k x.1 := by
  have hc : k.1 < k.2 → (contains d k = false ↔ ∀ x ∈ d, Overlap x.1 k → Swallows k x.1) := by
    intro hk
    simp only [contains, Bool.or_eq_false_iff, List.any_eq_false, hits]
    constructor
    · rintro ⟨h1, h2⟩ x hx ⟨i, a, b, c, e⟩
      have := h2 x hx
      simp only [Bool.or_eq_true, Bool.and_eq_true, decide_eq_true_eq] at this
      unfold Swallows
      omega
    · intro h
      refine ⟨fun x hx hxk => ?_, fun x hx hh => ?_⟩
      · have hxk : x.1 = k := by simpa using hxk
        have := h x hx ⟨k.1, by rw [hxk], by rw [hxk]; exact hk, le_refl _, hk⟩
        unfold Swallows at this
        rw [hxk] at this
        omega
      · have hpx := hd x hx
        simp only [Bool.or_eq_true, Bool.and_eq_true, decide_eq_true_eq] at hh
        have hs : Swallows k x.1 := by
          apply h x hx
          refine ⟨max x.1.1 k.1, ?_, ?_, ?_, ?_⟩ <;> omega
        unfold Swallows at hs
        omega
  constructor
  · rintro ⟨d', h⟩
    obtain ⟨h1, h2, _⟩ := setItem_ok h
    exact ⟨h1, (hc h1).1 h2⟩
  · rintro ⟨h1, h2⟩
    refine ⟨sortItems (d ++ [(k, v)]), ?_⟩
    simp [setItem, h1, (hc h1).2 h2]

example : (setItem [((2, 4), Chan.reg 0)] (4, 9) (Chan.reg 1)).isOk = true ∧
    (setItem [((2, 4), Chan.reg 0)] (3, 9) (Chan.reg 1)).isOk = false := by decide

/-- C03 (the part of "overlapping registrations are rejected" that holds). Missing: overlaps the registration does not notice,
see `C03_overlap_accepted_violated`. -/
theorem C03_overlap_rejected_partial (d : Dict α) (k : Key) (v : Chan α)
    (h : ∃ x ∈ d, x.1.1 < x.1.2 ∧ Overlap x.1 k ∧ ¬ Swallows k x.1) :
    setItem d k v = .error .assertion := by
  obtain ⟨x, hx, hp, ⟨i, a, b, c, e⟩, hs⟩ := h
  unfold setItem
  rw [if_pos (by omega), if_pos]
  simp only [contains, Bool.or_eq_true, List.any_eq_true, hits, Bool.and_eq_true,
    decide_eq_true_eq]
  unfold Swallows at hs
  right
  exact ⟨x, hx, by omega⟩

/-- C03 violated: the range `[0, 8)` is accepted although `[2, 4)` is registered,
so two registered ranges overlap. -/
theorem C03_overlap_accepted_violated :
    run 8 [Op.register 0 2 4, Op.register 1 0 8] =
      [((0, 8), Chan.reg 1), ((2, 4), Chan.reg 0)] ∧ Overlap (0, 8) (2, 4) := by
  refine ⟨by decide, ⟨2, ?_⟩⟩
  decide

/-- C03: whenever the mask of a layer can be read, after any history of calls, the
ranges left in the container contain every registered one, and every channel of
the layer lies in exactly one of them. -/
theorem C03_read_tiles (n : Int) (ops : List (Op α)) (env : α → List Bool) (mask : List Bool)
    (hne : run n ops ≠ [])
    (h : (currentMask env n (run n ops)).2 = .ok mask) :
    (∀ x ∈ run n ops, x ∈ (currentMask env n (run n ops)).1) ∧
    ∀ i : Int, 0 ≤ i → i < n →
      ∃ k ∈ (currentMask env n (run n ops)).1.map (·.1), k.1 ≤ i ∧ i < k.2 ∧
        ∀ k' ∈ (currentMask env n (run n ops)).1.map (·.1), k'.1 ≤ i → i < k'.2 → k' = k := by
  have hinv := currentMask_inv env n _ (run_inv n ops)
  refine ⟨hinv.2, ?_⟩
  revert h hinv
  unfold currentMask
  rw [if_neg (by simpa using hne)]
  split
  · intro h; cases h
  · split
    · rename_i d' _ hv
      intro _ hinv i h1 h2
      exact (validFrom_unique n _ 0 hv (by
        intro k hk; obtain ⟨x, hx, rfl⟩ := List.mem_map.1 hk; exact hinv.1.1 x hx)).2.2 i h1 h2
    · intro h; cases h

/-- C03: the mask read is the concatenation of the stored masks at their
positions: it has one entry per channel and entry `start + j` is entry `j` of
the mutable registered at `start`, provided every stored mask is as long as its
range (the code does not check that when registering). Missing: masks of other lengths, see `C03_mask_length_violated`. -/
theorem C03_read_mask_partial (n : Int) (ops : List (Op α)) (env : α → List Bool)
    (mask : List Bool) (hn : 0 ≤ n)
    (h : (currentMask env n (run n ops)).2 = .ok mask)
    (hlen : ∀ x ∈ (currentMask env n (run n ops)).1,
      ((maskOf env x.2).length : Int) = x.1.2 - x.1.1) :
    (mask.length : Int) = n ∧
    ∀ x ∈ (currentMask env n (run n ops)).1, ∀ j : Nat, (j : Int) < x.1.2 - x.1.1 →
      mask[x.1.1.toNat + j]? = (maskOf env x.2)[j]? := by
  have hinv := currentMask_inv env n _ (run_inv n ops)
  revert h hinv hlen
  unfold currentMask
  split
  · rename_i he
    intro h _ _
    injection h with h
    subst h
    refine ⟨by simp [hn], ?_⟩
    intro x hx
    have : run n ops = [] := by simpa using he
    rw [this] at hx
    simp at hx
  · split
    · intro h; cases h
    · split
      · rename_i d' _ hv
        intro h hl hinv
        injection h with h
        subst h
        have := flatMap_position env n d' 0 hv hinv.1.1 hl
        simpa using this
      · intro h; cases h

/-- The missing check: a mutable with three entries can be registered for a range
of two channels, and the layer mask then has the wrong length. -/
theorem C03_mask_length_violated :
    (currentMask (fun _ : Nat => [true, false, true]) 2
      (run 2 [Op.register 0 0 2])).2 = .ok [true, false, true] := by decide

example : (currentMask (fun a : Nat => if a = 0 then [true, false] else [false, true, true]) 7
      (run 7 [Op.register 1 2 5, Op.register 0 0 2])).2 =
    .ok [true, false, false, true, true, true, true] := by decide

/-- C03 (filling): when the registered ranges follow each other from 0, reading
succeeds and the rest of the layer is filled with one range of ones. -/
theorem C03_trailing_gap_filled (n e : Int) (a : α) (env : α → List Bool) (h0 : 0 < e) (hn : e < n) :
    (currentMask env n (run n [Op.register a 0 e])).2 =
      .ok (env a ++ List.replicate (n - e).toNat true) := by
  have hs : sortItems [((0, e), Chan.reg a)] = [((0, e), Chan.reg a)] := by
    simp [sortItems, sortBy, insertBy]
  have hr : run n [Op.register a 0 e] = [((0, e), Chan.reg a)] := by
    simp [run, step, setItem, contains, h0, hs]
  have hk : keyLe (0, e) (e, n) = true := by simp [keyLe, h0]
  have hc : contains [((0, e), Chan.reg a)] (e, n) = false := by
    simp [contains, hits]; omega
  have hs2 : sortItems [((0, e), Chan.reg a), ((e, n), Chan.simple (n - e).toNat)] =
      [((0, e), Chan.reg a), ((e, n), Chan.simple (n - e).toNat)] := by
    unfold sortItems
    exact sortBy_of_sorted _ (by simp [hk])
  have hcp : copyDict [((0, e), Chan.reg a)] = .ok [((0, e), Chan.reg a)] := by
    simp [copyDict, setItem, contains, h0, hs, bind, Except.bind, pure, Except.pure]
  have hf : fill n [((0, e), Chan.reg a)] =
      .ok [((0, e), Chan.reg a), ((e, n), Chan.simple (n - e).toNat)] := by
    have hm : (mkSimple (n - e) : Except Err (Chan α)) = .ok (.simple (n - e).toNat) := by
      unfold mkSimple; rw [if_neg (by omega)]
    simp [fill, hcp, fillLoop, hn, hm, setItem, hc, hs2]
  rw [hr]
  simp [currentMask, hf, validFrom, maskOf]

example : (currentMask (fun _ : Nat => [true, false]) 4 (run 4 [Op.register 0 0 2])).2 =
    .ok [true, false, true, true] := by decide

/-- C03 violated: a layer whose first registered range does not start at 0 (or
which has a hole in the middle) is never filled: reading its mask raises. -/
theorem C03_leading_gap_fails (n s e : Int) (a : α) (env : α → List Bool) (h0 : 0 < s) (hse : s < e) :
    (currentMask env n (run n [Op.register a s e])).2 = .error .runtime := by
  have hs : sortItems [((s, e), Chan.reg a)] = [((s, e), Chan.reg a)] := by simp [sortItems, sortBy, insertBy]
  have hr : run n [Op.register a s e] = [((s, e), Chan.reg a)] := by
    simp [run, step, setItem, contains, hse, hs]
  have hcp : copyDict [((s, e), Chan.reg a)] = .ok [((s, e), Chan.reg a)] := by
    simp [copyDict, setItem, contains, hse, hs, bind, Except.bind, pure, Except.pure]
  rw [hr]
  simp [currentMask, fill, hcp, fillLoop, h0, mkSimple]

/-- C03 violated: a gap between two registered ranges makes reading raise. -/
theorem C03_middle_gap_fails :
    (currentMask (fun _ : Nat => [true, true]) 6
      (run 6 [Op.register 0 0 2, Op.register 1 4 6])).2 = .error .runtime := by decide

/-- C03 violated: reading the mask is not neutral. The same two registrations
succeed or fail depending on whether the mask is read in between. -/
theorem C03_read_blocks_registration_violated :
    (run 4 [Op.register 0 0 2, Op.register 1 2 4]).map (·.1) = [(0, 2), (2, 4)] ∧
    (setItem (run 4 [Op.register 0 0 2, Op.read (fun _ => [true, true])]) (2, 4) (.reg 1)) =
      .error .assertion := by decide

/-- C03: a container without registrations keeps every channel. -/
theorem C03_empty_mask {α : Type} (env : α → List Bool) (n : Nat) :
    (currentMask env n []).2 = .ok (List.replicate n true) ∧ (currentMask env n []).1 = [] := ⟨rfl, rfl⟩

end Verif.Container
