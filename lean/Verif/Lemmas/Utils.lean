import Verif.Spec.Utils

/-! Helper lemmas for `Verif/Props/Utils.lean`. -/

namespace Verif.Utils
open Verif

theorem round_le (n d k : Nat) (hd : 0 < d) (h : n ≤ k * d) : roundHalfEven n d ≤ k := by
  unfold roundHalfEven
  dsimp only
  have h1 := Nat.div_add_mod n d
  have h2 := Nat.mod_lt n hd
  generalize n / d = q at *
  generalize n % d = r at *
  have hq : q ≤ k := by
    by_contra hc
    have : (k + 1) * d ≤ q * d := Nat.mul_le_mul_right d (by omega)
    rw [Nat.add_mul] at this
    rw [Nat.mul_comm d q] at h1
    omega
  by_cases e : q = k
  · subst e
    have : r = 0 := by
      rw [Nat.mul_comm d q] at h1
      omega
    subst this
    rw [if_pos (by omega)]
  · by_cases h3 : 2 * r < d
    · rw [if_pos h3]; exact hq
    · rw [if_neg h3]
      by_cases h4 : d < 2 * r
      · rw [if_pos h4]; omega
      · rw [if_neg h4]
        by_cases h5 : q % 2 = 0
        · rw [if_pos h5]; exact hq
        · rw [if_neg h5]; omega

theorem round_near (n d : Nat) (hd : 0 < d) :
    2 * (roundHalfEven n d * d) ≤ 2 * n + d ∧ 2 * n ≤ 2 * (roundHalfEven n d * d) + d := by
  unfold roundHalfEven
  dsimp only
  have h1 := Nat.div_add_mod n d
  have h2 := Nat.mod_lt n hd
  generalize n / d = q at *
  generalize n % d = r at *
  rw [Nat.mul_comm d q] at h1
  have h6 : (q + 1) * d = q * d + d := by rw [Nat.add_mul, Nat.one_mul]
  by_cases h3 : 2 * r < d
  · rw [if_pos h3]; omega
  · rw [if_neg h3]
    by_cases h4 : d < 2 * r
    · rw [if_pos h4]; omega
    · rw [if_neg h4]
      by_cases h5 : q % 2 = 0
      · rw [if_pos h5]; omega
      · rw [if_neg h5]; omega

theorem round_zero (n d : Nat) (hd : 0 < d) (h : 2 * n ≤ d) : roundHalfEven n d = 0 := by
  unfold roundHalfEven
  dsimp only
  have h1 : n / d = 0 := Nat.div_eq_of_lt (by omega)
  have h2 : n % d = n := Nat.mod_eq_of_lt (by omega)
  rw [h1, h2]
  by_cases h3 : 2 * n < d
  · rw [if_pos h3]
  · rw [if_neg h3, if_neg (by omega), if_pos rfl]

theorem sum_range_list (n : Nat) (g : Nat → ℚ) : ((List.range n).map g).sum = ∑ i ∈ Finset.range n, g i := by
  induction n with
  | zero => rfl
  | succ n ih => rw [List.range_succ, List.map_append, List.sum_append, ih, Finset.sum_range_succ]; simp

theorem total_eq (h w : Nat) (p : Plane) : total h w p = strength h w p := by
  unfold total strength
  rw [sum_range_list]
  exact Finset.sum_congr rfl fun i _ => sum_range_list w _

theorem topk_largest (f : Feat) (k : Nat) (hk : k ≤ f.chans.length) :
    Largest f k ((topk f k).map fun i => (i, f.chans.getD i fun _ _ => 0)) := by
  let t : Nat → ℚ := fun i => total f.h f.w (f.chans.getD i fun _ _ => 0)
  let le : Nat → Nat → Bool := fun a b => decide (t b ≤ t a)
  have hperm : (sortBy le (List.range f.chans.length)).Perm (List.range f.chans.length) := sortBy_perm _
  have hsorted : (sortBy le (List.range f.chans.length)).Pairwise (fun a b => le a b = true) :=
    sortBy_sorted (fun a b c h1 h2 => by
      simp only [le, decide_eq_true_eq] at *
      exact le_trans h2 h1) (fun a b => by
      simp only [le, decide_eq_true_eq]
      exact le_total _ _) _
  have hdef : topk f k = (sortBy le (List.range f.chans.length)).take k := rfl
  generalize sortBy le (List.range f.chans.length) = l at *
  have hnd : l.Nodup := hperm.nodup_iff.2 List.nodup_range
  have hmem : ∀ i ∈ l, i < f.chans.length := fun i hi => List.mem_range.1 (hperm.mem_iff.1 hi)
  have hget : ∀ i < f.chans.length, f.chans[i]? = some (f.chans.getD i fun _ _ => 0) := fun i hi => by
    rw [List.getD_eq_getElem _ _ hi, List.getElem?_eq_getElem hi]
  have hids : ((l.take k).map fun i => (i, f.chans.getD i fun _ _ => 0)).map (·.1) = l.take k := by
    rw [List.map_map]
    exact List.map_id _
  rw [hdef]
  refine ⟨?_, ?_, ?_, ?_, ?_⟩
  · rw [List.length_map, List.length_take, hperm.length_eq, List.length_range]
    omega
  · intro p hp
    obtain ⟨i, hi, rfl⟩ := List.mem_map.1 hp
    exact hget i (hmem i (List.mem_of_mem_take hi))
  · rw [hids]
    exact hnd.sublist (List.take_sublist _ _)
  · rw [List.pairwise_map]
    refine (hsorted.sublist (List.take_sublist k l)).imp fun {a b} h => ?_
    simpa only [le, t, decide_eq_true_eq, total_eq] using h
  · intro p hp i q hq hi
    rw [hids] at hi
    obtain ⟨a, ha, rfl⟩ := List.mem_map.1 hp
    have hil : i < f.chans.length := (List.getElem?_eq_some_iff.1 hq).1
    have hid : i ∈ l.drop k := by
      have : i ∈ l := hperm.mem_iff.2 (List.mem_range.2 hil)
      rw [← List.take_append_drop k l, List.mem_append] at this
      exact this.resolve_left hi
    have hs := hsorted
    rw [← List.take_append_drop k l, List.pairwise_append] at hs
    have h := hs.2.2 a ha i hid
    rw [hget i hil, Option.some.injEq] at hq
    subst hq
    simpa only [le, t, decide_eq_true_eq, total_eq] using h

theorem scale_ok {interp : Nat × Nat → Nat × Nat → Plane → Plane} {f g : Feat} {size : Nat × Nat} (h : scale interp f size = .ok g) :
    g = ⟨size.1, size.2, f.chans.map (interp (f.h, f.w) size)⟩ := by
  unfold scale at h
  by_cases hc : f.h = 0 ∨ f.w = 0 ∨ size.1 = 0 ∨ size.2 = 0 ∨ f.chans = []
  · rw [if_pos hc] at h; cases h
  · rw [if_neg hc] at h; cases h; rfl

theorem fit_chans {interp : Nat × Nat → Nat × Nat → Plane → Plane} {f g : Feat} {overlay resize : Option (Nat × Nat)}
    (h : fit interp f overlay resize = .ok g) : g.chans.length = f.chans.length := by
  unfold fit at h
  cases resize with
  | some size => rw [scale_ok h]; simp
  | none =>
    cases overlay with
    | none => cases h; rfl
    | some o =>
      obtain ⟨oh, ow⟩ := o
      dsimp only at h
      by_cases hc : oh = f.h ∧ ow = f.w
      · rw [if_pos hc] at h; cases h; rfl
      · rw [if_neg hc] at h
        generalize cropSize f.h f.w oh ow = q at h
        cases q with
        | error e => simp at h
        | ok c => rw [scale_ok h]; simp

theorem foldl_max (a : ℚ) (l : List ℚ) : a ≤ l.foldl max a ∧ (∀ x ∈ l, x ≤ l.foldl max a) ∧ (l.foldl max a = a ∨ l.foldl max a ∈ l) := by
  induction l generalizing a with
  | nil => simp
  | cons x xs ih =>
    obtain ⟨h1, h2, h3⟩ := ih (max a x)
    rw [List.foldl_cons]
    refine ⟨le_trans (le_max_left _ _) h1, ?_, ?_⟩
    · intro y hy
      rcases List.mem_cons.1 hy with h4 | h4
      · subst h4
        exact le_trans (le_max_right _ _) h1
      · exact h2 y h4
    · rcases h3 with h4 | h4
      · rw [h4]
        rcases max_choice a x with h5 | h5
        · left; exact h5
        · right; rw [h5]; simp
      · right; exact List.mem_cons_of_mem _ h4

theorem modify_ok {interp : Nat × Nat → Nat × Nat → Plane → Plane} {f : Feat} {overlay resize : Option (Nat × Nat)} {red : Option String}
    {k row col : Int} {d : Drawn} (h : modify interp true f overlay red k row col resize = .ok (some d)) :
    ∃ g, fit interp f overlay resize = .ok g ∧ d.size = (g.h, g.w) := by
  unfold modify at h
  rw [if_neg (by simp)] at h
  generalize hf : fit interp f overlay resize = q at h
  cases q with
  | error e => simp at h
  | ok g =>
    refine ⟨g, rfl, ?_⟩
    dsimp only at h
    cases red with
    | some mode =>
      dsimp only at h
      generalize hr : reduce g mode = r at h
      cases r with
      | error e => simp at h
      | ok e =>
        simp only [Except.ok.injEq, Option.some.injEq] at h
        subst h
        unfold reduce at hr
        by_cases h1 : mode = "select_max"
        · rw [if_pos h1] at hr
          generalize topk g 1 = t at hr
          cases t with
          | nil => simp at hr
          | cons i is => cases hr; rfl
        · rw [if_neg h1] at hr
          by_cases h2 : mode = "squeeze_mean"
          · rw [if_pos h2] at hr; cases hr; rfl
          · rw [if_neg h2] at hr
            by_cases h3 : mode = "pixel_wise_max"
            · rw [if_pos h3] at hr
              generalize g.chans = t at hr
              cases t with
              | nil => simp at hr
              | cons i is => cases hr; rfl
            · rw [if_neg h3] at hr; cases hr
    | none =>
      dsimp only at h
      by_cases h1 : k ≤ 0
      · rw [if_pos h1] at h
        by_cases h2 : g.chans.length = 1 ∨ g.chans.length = 3
        · rw [if_pos h2] at h; cases h; rfl
        · rw [if_neg h2] at h; cases h
      · rw [if_neg h1] at h
        by_cases h2 : row * col < k
        · rw [if_pos h2] at h; cases h
        · rw [if_neg h2] at h; cases h; rfl

theorem setThreads_ok {cfg : MpCfg} {name : String} {e e' : Env} (h : setThreads cfg name e = .ok e') :
    e'.cv = e.cv ∧ (∀ n, n ≠ name → e'.vars.lookup n = e.vars.lookup n) ∧
    e'.vars.lookup name = (e.vars.lookup name).or (if (∃ n, cfg.workers = some n ∧ 1 < n) then some "1" else none) := by
  unfold setThreads at h
  by_cases h1 : (e.vars.lookup name).isSome = true
  · rw [if_pos h1] at h
    cases h
    refine ⟨rfl, fun _ _ => rfl, ?_⟩
    obtain ⟨v, hv⟩ := Option.isSome_iff_exists.1 h1
    rw [hv]
    rfl
  · rw [if_neg h1] at h
    rw [Option.not_isSome_iff_eq_none] at h1
    rw [h1]
    generalize hw : cfg.workers = w at h
    cases w with
    | none => simp at h
    | some n =>
      dsimp only at h
      by_cases h2 : 1 < n
      · rw [if_pos h2] at h
        cases h
        refine ⟨rfl, fun m hm => ?_, ?_⟩
        · rw [List.lookup_cons, beq_eq_false_iff_ne.2 hm]
        · rw [if_pos ⟨n, rfl, h2⟩, List.lookup_cons, beq_self_eq_true]
          rfl
      · rw [if_neg h2] at h
        cases h
        refine ⟨rfl, fun _ _ => rfl, ?_⟩
        rw [h1, if_neg]
        · rfl
        · rintro ⟨m, hm, h3⟩
          cases hm
          exact h2 h3

end Verif.Utils
