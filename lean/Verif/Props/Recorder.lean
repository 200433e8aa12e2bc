import Verif.Lemmas.Recorder

namespace Verif.Recorder
open Verif

variable {V : Type}

/-- Inside the context each recorder holds exactly the values its source produced, in
order: for every list of recorders in which no method is shared (functions and modules
may be), and every sequence of calls, including calls that raise. Missing: methods shared by recorders, see
`C32_method_violated`. -/
theorem C32_inside_partial (w : World V) (ids : List Nat) (evs : List (Event V)) (hr : Ready w ids)
    (hm : ∀ i ∈ ids, (w.rcd i).kind = .method → ∀ j ∈ ids, (w.rcd j).kind ≠ .module → (w.rcd j).src = (w.rcd i).src → j = i)
    (i : Nat) (hi : i ∈ ids) :
    (((w.enterAll ids).run evs).rcd i).data = produced (w.rcd i).kind (w.rcd i).src evs := by
  obtain ⟨a1, a2, a3, a4, a5, a6⟩ := enterAll_rec ids w hr.nodup i
  obtain ⟨_, _, b1⟩ := run_rec evs (w.enterAll ids) i
  rw [b1]
  simp only [a4, hi, if_true, List.nil_append]
  apply flatMap_replicate_produced
  have heff := enterAll_effects ids w hr.nodup (fun i hi hk => ⟨by rw [hr.method i hi hk, hr.clean], hm i hi hk⟩)
  intro e _
  rcases e with ⟨s, _ | v⟩ | ⟨m, _ | v⟩
  · rfl
  · simp only [heard]
    rw [heff s, hr.clean s]
    simp only [Fn.effects, List.nil_append, a3, hi, if_true]
    have hc : ((patchers w ids s).map fun i => (i, (w.rcd i).gen + 1)).count (i, (w.rcd i).gen + 1) =
        if (w.rcd i).kind ≠ .module ∧ s = (w.rcd i).src then 1 else 0 := by
      have hnd : (patchers w ids s).Nodup := hr.nodup.filter _
      have hinj : ((patchers w ids s).map fun i => (i, (w.rcd i).gen + 1)).Nodup :=
        hnd.map (fun a b h => by simpa using congrArg Prod.fst h)
      by_cases hc : (w.rcd i).kind ≠ .module ∧ s = (w.rcd i).src
      · rw [if_pos hc]
        apply List.count_eq_one_of_mem hinj
        simp only [List.mem_map]
        exact ⟨i, by simp [patchers, hi, hc.1, hc.2], rfl⟩
      · rw [if_neg hc]
        apply List.count_eq_zero_of_not_mem
        simp only [List.mem_map, not_exists, not_and]
        intro x hx hx'
        have : x = i := congrArg Prod.fst hx'
        subst this
        simp only [patchers, List.mem_filter, decide_eq_true_eq] at hx
        exact hc ⟨hx.2.1, hx.2.2.symm⟩
    rw [hc]
    split <;> simp
  · rfl
  · simp only [heard]
    rw [a5, a6]
    by_cases hk : (w.rcd i).kind = .module
    · simp only [hi, hk, true_and, and_self, if_true]
      rw [hr.hooked i hi hk m]
      split <;> simp
    · simp [hk, hr.idle i hi]

/-- With no function or method recorded twice: after the context every name is bound to
its original, the recorders hold exactly what was produced inside, and nothing that
happens later changes it. Missing: functions and methods recorded twice, see `C32_function_violated` and `C32_method_violated`. -/
theorem C32_restore_partial (w : World V) (ids : List Nat) (evs later : List (Event V)) (hr : Ready w ids)
    (hu : ∀ i ∈ ids, ∀ j ∈ ids, (w.rcd i).kind ≠ .module → (w.rcd j).kind ≠ .module → (w.rcd i).src = (w.rcd j).src → i = j) :
    (∀ s, (((w.enterAll ids).run evs).exitAll ids).slot s = .orig s) ∧
    ∀ i ∈ ids, (((((w.enterAll ids).run evs).exitAll ids).run later).rcd i).data = produced (w.rcd i).kind (w.rcd i).src evs := by
  have hA := fun j => enterAll_rec ids w hr.nodup j
  obtain ⟨s1, s2, s3, s4⟩ := enterAll_saved ids w hr.nodup hu
  have hR := fun j => run_rec evs (w.enterAll ids) j
  have hk : ∀ j, (((w.enterAll ids).run evs).rcd j).kind = (w.rcd j).kind ∧
      (((w.enterAll ids).run evs).rcd j).src = (w.rcd j).src ∧
      (((w.enterAll ids).run evs).rcd j).saved = ((w.enterAll ids).rcd j).saved ∧
      (((w.enterAll ids).run evs).rcd j).recording = ((w.enterAll ids).rcd j).recording := by
    intro j
    obtain ⟨_, _, h⟩ := hR j
    rw [h]
    exact ⟨(hA j).1, (hA j).2.1, rfl, rfl⟩
  obtain ⟨e1, e2, e3⟩ := exitAll_spec ids ((w.enterAll ids).run evs) hr.nodup (by
    intro a ha b hb
    rw [(hk a).1, (hk b).1, (hk a).2.1, (hk b).2.1]
    exact hu a ha b hb)
  have hslot : ∀ s, (((w.enterAll ids).run evs).exitAll ids).slot s = .orig s := by
    intro s
    by_cases hs : ∀ i ∈ ids, (w.rcd i).kind ≠ .module → (w.rcd i).src ≠ s
    · rw [e2 s (by
        intro i hi hki
        rw [(hk i).1] at hki
        rw [(hk i).2.1]
        exact hs i hi hki), (hR 0).1, s4 s hs, hr.clean]
    · push Not at hs
      obtain ⟨i, hi, hki, rfl⟩ := hs
      have := e1 i hi (by rw [(hk i).1]; exact hki) (.orig (w.rcd i).src) (by
        rw [(hk i).2.2.1]
        cases hkk : (w.rcd i).kind with
        | function => rw [s2 i hi hkk, hr.clean]
        | method => rw [s3 i hi hkk, hr.method i hi hkk]
        | module => exact absurd hkk hki)
      rwa [(hk i).2.1] at this
  refine ⟨hslot, ?_⟩
  intro i hi
  obtain ⟨_, _, h1⟩ := run_rec later (((w.enterAll ids).run evs).exitAll ids) i
  rw [h1]
  have hd : later.flatMap (heard (((w.enterAll ids).run evs).exitAll ids).slot (((w.enterAll ids).run evs).exitAll ids).hooks i
      ((((w.enterAll ids).run evs).exitAll ids).rcd i).gen ((((w.enterAll ids).run evs).exitAll ids).rcd i).recording) = [] := by
    rw [List.flatMap_eq_nil_iff]
    intro e _
    rcases e with ⟨s, _ | v⟩ | ⟨m, _ | v⟩
    · rfl
    · simp [heard, hslot, Fn.effects]
    · rfl
    · simp only [heard]
      rw [(e3 i).2.2.2, (hk i).1, (hk i).2.2.2, (hA i).2.2.2.2.1]
      by_cases hm : (w.rcd i).kind = .module
      · simp [hi, hm]
      · simp [hm, hr.idle i hi]
  rw [hd]
  simp only [List.append_nil]
  rw [(e3 i).1]
  exact C32_inside_partial w ids evs hr (fun a ha hka b hb hkb hs => (hu b hb a ha hkb (by simp [hka]) hs)) i hi

/-- Two recorders on one function: afterwards the function is still wrapped, and the
first recorder goes on recording. -/
theorem C32_function_violated :
    (((twoFunctions.enterAll [0, 1]).run [.call 7 (some 5)]).exitAll [0, 1]).slot 7 ≠ .orig 7 ∧
    (((((twoFunctions.enterAll [0, 1]).run [.call 7 (some 5)]).exitAll [0, 1]).run [.call 7 (some 6)]).rcd 0).data = [5, 6] := by
  constructor <;> decide

/-- Two recorders on one method: the first records nothing. -/
theorem C32_method_violated :
    (((twoMethods.enterAll [0, 1]).run [.call 7 (some 5)]).rcd 0).data = [] ∧
    (((twoMethods.enterAll [0, 1]).run [.call 7 (some 5)]).rcd 1).data = [5] := by
  constructor <;> decide

/-- A module recorder initialised twice records every output twice. -/
theorem C32_initialise_violated :
    (((twiceInitialised.enterAll [0]).run [.forward 7 (some 5)]).rcd 0).data = [5, 5] := by decide

example : Ready three [0, 1, 2] ∧
    ((three.enterAll [0, 1, 2]).run [.call 7 (some 1), .call 8 none, .forward 7 (some 2), .call 7 (some 3), .call 8 (some 4)]).rcd 0
      = ⟨.function, 7, some (.orig 7), 1, [1, 3], false⟩ := by
  refine ⟨⟨by decide, fun s => rfl, by decide, ?_, by decide⟩, by decide⟩
  intro i hi hk m
  have : i = 2 := by
    simp at hi
    rcases hi with rfl | rfl | rfl
    · exact absurd hk (by decide)
    · exact absurd hk (by decide)
    · rfl
  subst this
  by_cases h : m = 7
  · subst h; decide
  · have e : (three.rcd 2).src = 7 := by decide
    rw [e, if_neg h]
    simp [three, World.initialize, World.makeModule, World.makeMethod, World.makeFunction, World.setRec, h]

/-- C32: what happens before a recorder is entered is not recorded: a new recorder has no
data, whatever runs while every name is bound to its original. -/
theorem C32_before (w : World V) (i src : Nat) (evs : List (Event V)) (hs : ∀ s, w.slot s = .orig s) :
    (((w.makeFunction i src).run evs).rcd i).data = [] ∧ (((w.makeMethod i src).run evs).rcd i).data = [] ∧
    ((((w.makeModule i src).initialize i).run evs).rcd i).data = [] := by
  have key : ∀ w' : World V, (∀ s, w'.slot s = .orig s) → (w'.rcd i).recording = false → (w'.rcd i).data = [] →
      ((w'.run evs).rcd i).data = [] := by
    intro w' h1 h2 h3
    rw [(run_rec evs w' i).2.2]
    dsimp only
    rw [h3, List.nil_append, List.flatMap_eq_nil_iff]
    rintro (⟨s, _ | v⟩ | ⟨m, _ | v⟩) _ <;> simp [heard, h1, h2, Fn.effects]
  refine ⟨key _ hs ?_ ?_, key _ hs ?_ ?_, key _ ?_ ?_ ?_⟩ <;>
    simp [World.makeFunction, World.makeMethod, World.makeModule, World.initialize, World.setRec, hs]

example : ((((⟨.orig, fun _ => ⟨.function, 0, none, 0, [], false⟩, fun _ => []⟩ : World Nat).makeModule 0 7).initialize 0).run
    [.forward 7 (some 3)]).rcd 0 = ⟨.module, 7, none, 0, [], false⟩ := by decide

end Verif.Recorder
