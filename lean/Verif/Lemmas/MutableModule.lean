import Verif.Model.MutableModule
import Mathlib.Algebra.Module.Basic
import Mathlib.Algebra.Module.Rat
import Mathlib.Tactic.Linarith

/-! Helper lemmas for `Verif/Props/MutableModule.lean`. -/

namespace Verif.MutableModule
open Verif

variable {X Y : Type}

/-! ### Helpers -/

theorem popLoop_aux (chosen : String → Bool) :
    ∀ (ks : List String) (cs : Cands X Y),
      ks.foldl (fun acc c => if chosen c then acc else pop acc c) cs
        = cs.filter (fun p => chosen p.1 || !(decide (p.1 ∈ ks)))
  | [], cs => by simp
  | k :: ks, cs => by
    rw [List.foldl_cons, popLoop_aux chosen ks]
    by_cases hk : chosen k
    · simp only [hk, if_true]
      apply List.filter_congr
      intro p _
      by_cases hp : p.1 = k
      · simp [hp, hk]
      · simp [hp]
    · simp only [hk, Bool.false_eq_true, if_false, pop, List.filter_filter]
      apply List.filter_congr
      intro p _
      by_cases hp : p.1 = k
      · simp [hp, hk]
      · simp [hp]

/-- The loop keeps exactly the candidates whose name is chosen. -/
theorem popLoop_eq (chosen : String → Bool) (cs : Cands X Y) :
    popLoop chosen cs = cs.filter (fun p => chosen p.1) := by
  unfold popLoop
  rw [popLoop_aux]
  apply List.filter_congr
  intro p hp
  have : p.1 ∈ keys cs := List.mem_map.mpr ⟨p, hp, rfl⟩
  simp [this]

theorem find_of_mem : ∀ (cs : Cands X Y) (c : String) (f : X → Y), (keys cs).Nodup →
    (c, f) ∈ cs → cs.find? (fun p => p.1 == c) = some (c, f)
  | [], _, _, _, h => by cases h
  | q :: cs, c, f, hn, h => by
    have hn' : q.1 ∉ keys cs ∧ (keys cs).Nodup := by simpa [keys] using hn
    rcases List.mem_cons.mp h with h | h
    · subst h; simp
    · have hq : q.1 ≠ c := by
        rintro rfl
        exact hn'.1 (List.mem_map.mpr ⟨_, h, rfl⟩)
      rw [List.find?_cons_of_neg (by simpa using hq)]
      exact find_of_mem cs c f hn'.2 h

theorem call_of_mem (cs : Cands X Y) (c : String) (f : X → Y) (x : X) (hn : (keys cs).Nodup)
    (h : (c, f) ∈ cs) : call cs c x = .ok (f x) := by
  simp [call, find_of_mem cs c f hn h]

theorem call_of_not_mem (cs : Cands X Y) (c : String) (x : X) (h : c ∉ keys cs) :
    call cs c x = .error .key := by
  have : cs.find? (fun p => p.1 == c) = none := by
    rw [List.find?_eq_none]
    rintro ⟨a, f⟩ hp
    simp only [beq_iff_eq]
    rintro rfl
    exact h (List.mem_map.mpr ⟨(a, f), hp, rfl⟩)
  simp [call, this]

theorem keys_filter_nodup (cs : Cands X Y) (p : String × (X → Y) → Bool) (hn : (keys cs).Nodup) :
    (keys (cs.filter p)).Nodup :=
  List.Nodup.sublist (List.Sublist.map _ (List.filter_sublist)) hn

theorem oneShot_fixed_step (m : OneShot X Y) (o : OneShotCall) (h : m.fixed = true) :
    (m.step o).cands = m.cands ∧ (m.step o).chosen = m.chosen ∧ (m.step o).fixed = true := by
  cases o <;> simp [OneShot.step, OneShot.fix, OneShot.assign, h]

theorem oneShot_fixed_run : ∀ (ops : List OneShotCall) (m : OneShot X Y), m.fixed = true →
    (m.run ops).cands = m.cands ∧ (m.run ops).chosen = m.chosen ∧ (m.run ops).fixed = true
  | [], m, h => ⟨rfl, rfl, h⟩
  | o :: ops, m, h => by
    have h1 := oneShot_fixed_step m o h
    have h2 := oneShot_fixed_run ops (m.step o) h1.2.2
    exact ⟨h2.1.trans h1.1, h2.2.1.trans h1.2.1, h2.2.2⟩

theorem diff_fixed_run : ∀ (fs : List (List String)) (m : Diff X Y), m.fixed = true → m.run fs = m
  | [], _, _ => rfl
  | f :: fs, m, h => by
    have : (m.fix f).1 = m := by simp [Diff.fix, h]
    show (((f :: fs).foldl (fun m c => (m.fix c).1) m)) = m
    rw [List.foldl_cons, this]
    exact diff_fixed_run fs m h

section oneShot
variable [AddCommMonoid Y]

end oneShot

theorem forwardFixed_ok [AddCommMonoid Y] (cs : Cands X Y) (hn : (keys cs).Nodup) (x : X)
    (ops : String → X → Y) (hops : ∀ c ∈ keys cs, (c, ops c) ∈ cs) :
    ∀ chosen : List String, (∀ c ∈ chosen, c ∈ keys cs) →
      forwardFixed cs x chosen = .ok ((chosen.map (fun c => ops c x)).sum)
  | [], _ => rfl
  | c :: rest, h => by
    have h1 := call_of_mem cs c (ops c) x hn (hops c (h c (by simp)))
    have h2 := forwardFixed_ok cs hn x ops hops rest (fun d hd => h d (by simp [hd]))
    simp [forwardFixed, h1, h2, bind, Except.bind, pure, Except.pure]

section diff
variable [AddCommMonoid Y] [Module ℚ Y]

end diff

theorem argmax_spec : ∀ l : List ℚ, l ≠ [] →
    ∃ v, l[argmax l]? = some v ∧ ∀ w ∈ l, w ≤ v
  | [], h => absurd rfl h
  | [a], _ => ⟨a, by simp [argmax], by simp⟩
  | a :: b :: rest, _ => by
    obtain ⟨v, hv, hle⟩ := argmax_spec (b :: rest) (by simp)
    by_cases h : a ≥ v
    · refine ⟨a, ?_, ?_⟩
      · simp [argmax, hv, h]
      · intro w hw
        rcases List.mem_cons.mp hw with rfl | hw
        · exact le_refl _
        · exact le_trans (hle w hw) h
    · refine ⟨v, ?_, ?_⟩
      · have : argmax (a :: b :: rest) = argmax (b :: rest) + 1 := by
          simp [argmax, hv, h]
        rw [this, List.getElem?_cons_succ]; exact hv
      · intro w hw
        rcases List.mem_cons.mp hw with rfl | hw
        · exact le_of_lt (not_le.mp h)
        · exact hle w hw

theorem top2_spec (ps : List ℚ) (a b : ℚ) (h : top2 ps = .ok (a, b)) :
    ∃ rest, (a :: b :: rest).Perm ps ∧ b ≤ a ∧ ∀ c ∈ rest, c ≤ b := by
  unfold top2 at h
  split at h
  · rename_i a' b' rest heq
    injection h with h
    injection h with h1 h2
    subst h1; subst h2
    have hs := sortBy_sorted (le := fun a b : ℚ => decide (a ≥ b))
      (by intro a b c; simpa using fun h1 h2 => le_trans h2 h1)
      (by intro a b; simpa using le_total b a) ps
    rw [heq] at hs
    simp only [decide_eq_true_eq, List.pairwise_cons] at hs
    exact ⟨rest, heq ▸ sortBy_perm ps, hs.1 b' (by simp), fun c hc => hs.2.1 c hc⟩
  · cases h

section route
variable [AddCommMonoid Y]

theorem routeFixed_ok (cs : Cands X Y) (chosen : List String) (hn : (keys cs).Nodup) :
    ∀ (l : Cands X Y) (inputs : List X), (∀ p ∈ l, p.1 ∈ chosen → p ∈ cs) → l.length ≤ inputs.length →
      routeFixed cs chosen ((keys l).zip inputs)
        = .ok ((((l.zip inputs).filter (fun p => decide (p.1.1 ∈ chosen))).map (fun p => p.1.2 p.2)).sum)
  | [], _, _, _ => by simp [keys, routeFixed]
  | _ :: _, [], _, h => by simp at h
  | q :: l, x :: xs, h, hl => by
    have ih := routeFixed_ok cs chosen hn l xs (fun p hp => h p (by simp [hp])) (by simpa using hl)
    by_cases hq : q.1 ∈ chosen
    · have hc := call_of_mem cs q.1 q.2 x hn (h q (by simp) hq)
      simp only [keys, List.map_cons, List.zip_cons_cons, routeFixed, hq, if_true] at ih ⊢
      rw [hc, ih]
      simp [hq, bind, Except.bind, pure, Except.pure]
    · simp only [keys, List.map_cons, List.zip_cons_cons, routeFixed, hq, if_false] at ih ⊢
      rw [ih]
      simp [hq]

end route

end Verif.MutableModule
