import Verif.Spec.Recorder

/-! Helper lemmas for `Verif/Props/Recorder.lean`. -/

namespace Verif.Recorder
open Verif

variable {V : Type}

theorem enter_rec (w : World V) (i j : Nat) :
    ((w.enter i).rcd j).kind = (w.rcd j).kind ∧ ((w.enter i).rcd j).src = (w.rcd j).src ∧
    ((w.enter i).rcd j).gen = (if j = i then (w.rcd j).gen + 1 else (w.rcd j).gen) ∧
    ((w.enter i).rcd j).data = (if j = i then [] else (w.rcd j).data) ∧
    ((w.enter i).rcd j).recording = (if j = i ∧ (w.rcd i).kind = .module then true else (w.rcd j).recording) ∧
    ((w.enter i).rcd j).saved = (if j = i ∧ (w.rcd i).kind = .function then some (w.slot (w.rcd i).src) else (w.rcd j).saved) ∧
    (w.enter i).hooks = w.hooks := by
  unfold World.enter
  by_cases h : j = i
  · subst h
    cases hk : (w.rcd j).kind <;> simp [World.setRec, World.bindName, hk]
  · cases hk : (w.rcd i).kind <;> simp [World.setRec, World.bindName, h, hk]

theorem enter_slot (w : World V) (i s : Nat) :
    (w.enter i).slot s = if (w.rcd i).kind ≠ .module ∧ s = (w.rcd i).src then
      .wrap i ((w.rcd i).gen + 1) (if (w.rcd i).kind = .method then (w.rcd i).saved.getD (w.slot s) else w.slot s) else w.slot s := by
  unfold World.enter
  cases hk : (w.rcd i).kind
  · by_cases h : s = (w.rcd i).src
    · simp [World.setRec, World.bindName, h, hk]
    · simp [World.setRec, World.bindName, h, hk]
  · by_cases h : s = (w.rcd i).src
    · simp [World.setRec, World.bindName, h, hk]
    · simp [World.setRec, World.bindName, h, hk]
  · simp [World.setRec, hk]

/-- What entering a manager does to each recorder. -/
theorem enterAll_rec (ids : List Nat) (w : World V) (hn : ids.Nodup) (j : Nat) :
    ((w.enterAll ids).rcd j).kind = (w.rcd j).kind ∧ ((w.enterAll ids).rcd j).src = (w.rcd j).src ∧
    ((w.enterAll ids).rcd j).gen = (if j ∈ ids then (w.rcd j).gen + 1 else (w.rcd j).gen) ∧
    ((w.enterAll ids).rcd j).data = (if j ∈ ids then [] else (w.rcd j).data) ∧
    ((w.enterAll ids).rcd j).recording = (if j ∈ ids ∧ (w.rcd j).kind = .module then true else (w.rcd j).recording) ∧
    (w.enterAll ids).hooks = w.hooks := by
  induction ids generalizing w with
  | nil => simp [World.enterAll]
  | cons i ids ih =>
    have he : w.enterAll (i :: ids) = (w.enter i).enterAll ids := rfl
    obtain ⟨hi, hn⟩ := List.nodup_cons.1 hn
    obtain ⟨a1, a2, a3, a4, a5, a6⟩ := ih (w.enter i) hn
    obtain ⟨b1, b2, b3, b4, b5, _, b6⟩ := enter_rec w i j
    rw [he, a1, a2, a3, a4, a5, a6, b1, b2, b3, b4, b5, b6]
    refine ⟨rfl, rfl, ?_, ?_, ?_, rfl⟩
    · by_cases h : j = i
      · subst h; simp [hi]
      · simp [h]
    · by_cases h : j = i
      · subst h; simp
      · simp [h]
    · by_cases h : j = i
      · subst h; simp [hi]
      · simp [h]

/-- Under the condition that no two recorders share a method, the calls of a name append
to the buffers of all its recorders. -/
theorem enterAll_effects (ids : List Nat) (w : World V) (hn : ids.Nodup)
    (hm : ∀ i ∈ ids, (w.rcd i).kind = .method → (w.rcd i).saved = some (w.slot (w.rcd i).src) ∧
      ∀ j ∈ ids, (w.rcd j).kind ≠ .module → (w.rcd j).src = (w.rcd i).src → j = i) (s : Nat) :
    ((w.enterAll ids).slot s).effects = (w.slot s).effects ++ (patchers w ids s).map fun i => (i, (w.rcd i).gen + 1) := by
  induction ids generalizing w with
  | nil => simp [World.enterAll, patchers]
  | cons i ids ih =>
    have he : w.enterAll (i :: ids) = (w.enter i).enterAll ids := rfl
    obtain ⟨hi, hn⟩ := List.nodup_cons.1 hn
    have hrec : ∀ j ∈ ids, ((w.enter i).rcd j).kind = (w.rcd j).kind ∧ ((w.enter i).rcd j).src = (w.rcd j).src ∧
        ((w.enter i).rcd j).gen = (w.rcd j).gen ∧ ((w.enter i).rcd j).saved = (w.rcd j).saved := by
      intro j hj
      have hne : j ≠ i := fun e => hi (e ▸ hj)
      obtain ⟨b1, b2, b3, _, _, b6, _⟩ := enter_rec w i j
      exact ⟨b1, b2, by rw [b3, if_neg hne], by rw [b6, if_neg (by simp [hne])]⟩
    rw [he, ih (w.enter i) hn ?_]
    · have hp : patchers (w.enter i) ids s = patchers w ids s := by
        unfold patchers
        apply List.filter_congr
        intro j hj
        rw [(hrec j hj).1, (hrec j hj).2.1]
      have hg : (patchers w ids s).map (fun j => (j, ((w.enter i).rcd j).gen + 1)) =
          (patchers w ids s).map (fun j => (j, (w.rcd j).gen + 1)) := by
        apply List.map_congr_left
        intro j hj
        rw [(hrec j (List.mem_of_mem_filter hj)).2.2.1]
      rw [hp, hg, enter_slot]
      by_cases hc : (w.rcd i).kind ≠ .module ∧ s = (w.rcd i).src
      · rw [if_pos hc]
        have hpc : patchers w (i :: ids) s = i :: patchers w ids s := by
          unfold patchers
          rw [List.filter_cons_of_pos (by simp [hc.1, hc.2])]
        rw [hpc]
        split
        · rename_i hk
          obtain ⟨h1, _⟩ := hm i (by simp) hk
          rw [h1]
          simp [Fn.effects, hc.2]
        · simp [Fn.effects]
      · rw [if_neg hc]
        have hpc : patchers w (i :: ids) s = patchers w ids s := by
          unfold patchers
          rw [List.filter_cons_of_neg (by simp only [decide_eq_true_eq]; rintro ⟨h1, h2⟩; exact hc ⟨h1, h2.symm⟩)]
        rw [hpc]
    · intro j hj hk
      have hr := hrec j hj
      rw [hr.1] at hk
      obtain ⟨h1, h2⟩ := hm j (by simp [hj]) hk
      refine ⟨?_, ?_⟩
      · rw [hr.2.2.2, hr.2.1, h1, enter_slot, if_neg]
        rintro ⟨h3, h4⟩
        exact hi (h2 i (by simp) h3 h4.symm ▸ hj)
      · intro j' hj' hk' hs'
        rw [(hrec j' hj').1] at hk'
        rw [(hrec j' hj').2.1, hr.2.1] at hs'
        exact h2 j' (by simp [hj']) hk' hs'

theorem record_rec (w : World V) (v : V) (e : Nat × Nat) (j : Nat) :
    ((w.record v e).rcd j) = { w.rcd j with data := (w.rcd j).data ++ (if e = (j, (w.rcd j).gen) then [v] else []) } ∧
    (w.record v e).slot = w.slot ∧ (w.record v e).hooks = w.hooks := by
  obtain ⟨i, g⟩ := e
  unfold World.record
  by_cases h : (w.rcd i).gen = g
  · rw [if_pos h]
    refine ⟨?_, rfl, rfl⟩
    by_cases hj : j = i
    · subst hj; simp [World.setRec, h]
    · simp [World.setRec, hj, show ¬ (i = j ∧ g = (w.rcd j).gen) from fun h => hj h.1.symm]
  · rw [if_neg h]
    refine ⟨?_, rfl, rfl⟩
    rw [if_neg (by simp only [Prod.mk.injEq]; rintro ⟨rfl, h2⟩; exact h h2.symm)]
    simp

theorem records_rec (es : List (Nat × Nat)) (w : World V) (v : V) (j : Nat) :
    ((es.foldl (fun w e => w.record v e) w).rcd j) =
      { w.rcd j with data := (w.rcd j).data ++ List.replicate (es.count (j, (w.rcd j).gen)) v } ∧
    (es.foldl (fun w e => w.record v e) w).slot = w.slot ∧ (es.foldl (fun w e => w.record v e) w).hooks = w.hooks := by
  induction es generalizing w with
  | nil => simp
  | cons e es ih =>
    obtain ⟨a1, a2, a3⟩ := ih (w.record v e)
    obtain ⟨b1, b2, b3⟩ := record_rec w v e j
    rw [List.foldl_cons, a1, a2, a3, b1, b2, b3]
    refine ⟨?_, rfl, rfl⟩
    congr 1
    simp only [List.count_cons, List.append_assoc]
    congr 1
    by_cases h : e = (j, (w.rcd j).gen)
    · simp [h, List.replicate_succ]
    · simp [h]

theorem hook_rec (w : World V) (v : V) (i j : Nat) :
    ((w.hook v i).rcd j) = { w.rcd j with data := (w.rcd j).data ++ (if i = j ∧ (w.rcd j).recording = true then [v] else []) } ∧
    (w.hook v i).slot = w.slot ∧ (w.hook v i).hooks = w.hooks := by
  unfold World.hook
  by_cases h : (w.rcd i).recording = true
  · rw [if_pos h]
    refine ⟨?_, rfl, rfl⟩
    by_cases hj : j = i
    · subst hj; simp [World.setRec, h]
    · simp [World.setRec, hj, show ¬ i = j from fun h => hj h.symm]
  · rw [if_neg h]
    refine ⟨?_, rfl, rfl⟩
    rw [if_neg (by rintro ⟨rfl, h2⟩; exact h h2)]
    simp

theorem hooks_rec (is : List Nat) (w : World V) (v : V) (j : Nat) :
    ((is.foldl (fun w i => w.hook v i) w).rcd j) =
      { w.rcd j with data := (w.rcd j).data ++ (if (w.rcd j).recording then List.replicate (is.count j) v else []) } ∧
    (is.foldl (fun w i => w.hook v i) w).slot = w.slot ∧ (is.foldl (fun w i => w.hook v i) w).hooks = w.hooks := by
  induction is generalizing w with
  | nil => simp
  | cons i is ih =>
    obtain ⟨a1, a2, a3⟩ := ih (w.hook v i)
    obtain ⟨b1, b2, b3⟩ := hook_rec w v i j
    rw [List.foldl_cons, a1, a2, a3, b1, b2, b3]
    refine ⟨?_, rfl, rfl⟩
    congr 1
    simp only [List.count_cons, List.append_assoc]
    congr 1
    by_cases hr : (w.rcd j).recording = true
    · by_cases h : i = j
      · simp [h, hr, List.replicate_succ]
      · simp [h, hr]
    · simp [hr]

theorem step_rec (e : Event V) (w : World V) (j : Nat) :
    (w.step e).slot = w.slot ∧ (w.step e).hooks = w.hooks ∧
    (w.step e).rcd j = { w.rcd j with data := (w.rcd j).data ++ heard w.slot w.hooks j (w.rcd j).gen (w.rcd j).recording e } := by
  rcases e with ⟨s, _ | v⟩ | ⟨m, _ | v⟩
  · simp [World.step, heard]
  · obtain ⟨b1, b2, b3⟩ := records_rec (w.slot s).effects w v j
    exact ⟨b2, b3, b1⟩
  · simp [World.step, heard]
  · obtain ⟨b1, b2, b3⟩ := hooks_rec (w.hooks m) w v j
    exact ⟨b2, b3, b1⟩

/-- What a sequence of events does to a recorder. -/
theorem run_rec (evs : List (Event V)) (w : World V) (j : Nat) :
    (w.run evs).slot = w.slot ∧ (w.run evs).hooks = w.hooks ∧
    (w.run evs).rcd j = { w.rcd j with
      data := (w.rcd j).data ++ evs.flatMap (heard w.slot w.hooks j (w.rcd j).gen (w.rcd j).recording) } := by
  induction evs generalizing w with
  | nil => simp [World.run]
  | cons e evs ih =>
    have hr : w.run (e :: evs) = (w.step e).run evs := rfl
    obtain ⟨a1, a2, a3⟩ := ih (w.step e)
    obtain ⟨b1, b2, b3⟩ := step_rec e w j
    rw [hr, a1, a2, a3, b1, b2, b3]
    simp

theorem flatMap_replicate_produced (evs : List (Event V)) (k : Kind) (src : Nat) (f : Event V → List V)
    (h : ∀ e ∈ evs, f e = match e with
      | .call s (some v) => if k ≠ .module ∧ s = src then [v] else []
      | .forward m (some v) => if k = .module ∧ m = src then [v] else []
      | _ => []) : evs.flatMap f = produced k src evs := by
  induction evs with
  | nil => simp [produced]
  | cons e evs ih =>
    have ih' := ih (fun x hx => h x (by simp [hx]))
    have he := h e (by simp)
    unfold produced at ih' ⊢
    rw [List.flatMap_cons, ih', he, List.filterMap_cons]
    rcases e with ⟨s, _ | v⟩ | ⟨m, _ | v⟩
    · simp
    · by_cases hc : k ≠ .module ∧ s = src <;> simp [hc]
    · simp
    · by_cases hc : k = .module ∧ m = src <;> simp [hc]

theorem exit_rec (w : World V) (i j : Nat) :
    ((w.exit i).rcd j).kind = (w.rcd j).kind ∧ ((w.exit i).rcd j).src = (w.rcd j).src ∧
    ((w.exit i).rcd j).gen = (w.rcd j).gen ∧ ((w.exit i).rcd j).data = (w.rcd j).data ∧
    ((w.exit i).rcd j).recording = (if j = i ∧ (w.rcd i).kind = .module then false else (w.rcd j).recording) ∧
    (j ≠ i → ((w.exit i).rcd j).saved = (w.rcd j).saved) ∧ (w.exit i).hooks = w.hooks := by
  unfold World.exit
  by_cases h : j = i
  · subst h
    cases hk : (w.rcd j).kind <;> simp [World.setRec, World.bindName, hk]
  · cases hk : (w.rcd i).kind <;> simp [World.setRec, World.bindName, h, hk]

theorem exit_slot (w : World V) (i s : Nat) :
    (w.exit i).slot s = if (w.rcd i).kind ≠ .module ∧ s = (w.rcd i).src then (w.rcd i).saved.getD (w.slot s) else w.slot s := by
  unfold World.exit
  cases hk : (w.rcd i).kind
  · by_cases h : s = (w.rcd i).src <;> simp [World.setRec, World.bindName, h, hk]
  · by_cases h : s = (w.rcd i).src <;> simp [World.bindName, h, hk]
  · simp [World.setRec, hk]

theorem exitAll_spec (ids : List Nat) (w : World V) (hn : ids.Nodup)
    (hu : ∀ i ∈ ids, ∀ j ∈ ids, (w.rcd i).kind ≠ .module → (w.rcd j).kind ≠ .module → (w.rcd i).src = (w.rcd j).src → i = j) :
    (∀ i ∈ ids, (w.rcd i).kind ≠ .module → ∀ f, (w.rcd i).saved = some f → (w.exitAll ids).slot (w.rcd i).src = f) ∧
    (∀ s, (∀ i ∈ ids, (w.rcd i).kind ≠ .module → (w.rcd i).src ≠ s) → (w.exitAll ids).slot s = w.slot s) ∧
    (∀ j, ((w.exitAll ids).rcd j).data = (w.rcd j).data ∧ ((w.exitAll ids).rcd j).gen = (w.rcd j).gen ∧
      ((w.exitAll ids).rcd j).kind = (w.rcd j).kind ∧
      ((w.exitAll ids).rcd j).recording = (if j ∈ ids ∧ (w.rcd j).kind = .module then false else (w.rcd j).recording)) := by
  induction ids generalizing w with
  | nil => simp [World.exitAll]
  | cons i ids ih =>
    have he : w.exitAll (i :: ids) = (w.exit i).exitAll ids := rfl
    obtain ⟨hi, hn⟩ := List.nodup_cons.1 hn
    have hx := fun j => exit_rec w i j
    obtain ⟨a1, a2, a3⟩ := ih (w.exit i) hn (by
      intro a ha b hb
      rw [(hx a).1, (hx b).1, (hx a).2.1, (hx b).2.1]
      exact hu a (by simp [ha]) b (by simp [hb]))
    rw [he]
    refine ⟨?_, ?_, ?_⟩
    · intro j hj hk f hf
      rcases List.mem_cons.1 hj with rfl | hj
      · rw [a2 _ (by
          intro b hb hkb
          rw [(hx b).1] at hkb
          rw [(hx b).2.1]
          intro e
          exact hi (hu b (by simp [hb]) j (by simp) hkb hk e ▸ hb))]
        rw [exit_slot, if_pos ⟨hk, rfl⟩, hf]
        rfl
      · have hne : j ≠ i := fun e => hi (e ▸ hj)
        have := a1 j hj (by rw [(hx j).1]; exact hk) f (by rw [(hx j).2.2.2.2.2.1 hne]; exact hf)
        rwa [(hx j).2.1] at this
    · intro s hs
      rw [a2 s (by
        intro b hb hkb
        rw [(hx b).1] at hkb
        rw [(hx b).2.1]
        exact hs b (by simp [hb]) hkb)]
      rw [exit_slot, if_neg]
      rintro ⟨h1, h2⟩
      exact hs i (by simp) h1 h2.symm
    · intro j
      obtain ⟨c1, c2, c3, c4⟩ := a3 j
      obtain ⟨d1, _, d3, d4, d5, _, _⟩ := hx j
      rw [c1, c2, c3, c4, d1, d3, d4, d5]
      refine ⟨rfl, rfl, rfl, ?_⟩
      by_cases h : j = i
      · subst h
        by_cases hk : (w.rcd j).kind = .module <;> simp [hk]
      · simp [h]

theorem enterAll_saved (ids : List Nat) (w : World V) (hn : ids.Nodup)
    (hu : ∀ i ∈ ids, ∀ j ∈ ids, (w.rcd i).kind ≠ .module → (w.rcd j).kind ≠ .module → (w.rcd i).src = (w.rcd j).src → i = j) :
    (∀ i, i ∉ ids → ((w.enterAll ids).rcd i).saved = (w.rcd i).saved) ∧
    (∀ i ∈ ids, (w.rcd i).kind = .function → ((w.enterAll ids).rcd i).saved = some (w.slot (w.rcd i).src)) ∧
    (∀ i ∈ ids, (w.rcd i).kind = .method → ((w.enterAll ids).rcd i).saved = (w.rcd i).saved) ∧
    (∀ s, (∀ i ∈ ids, (w.rcd i).kind ≠ .module → (w.rcd i).src ≠ s) → (w.enterAll ids).slot s = w.slot s) := by
  induction ids generalizing w with
  | nil => simp [World.enterAll]
  | cons i ids ih =>
    have he : w.enterAll (i :: ids) = (w.enter i).enterAll ids := rfl
    obtain ⟨hi, hn⟩ := List.nodup_cons.1 hn
    have hx := fun j => enter_rec w i j
    obtain ⟨a1, a2, a3, a4⟩ := ih (w.enter i) hn (by
      intro a ha b hb
      rw [(hx a).1, (hx b).1, (hx a).2.1, (hx b).2.1]
      exact hu a (by simp [ha]) b (by simp [hb]))
    have hsv : ∀ j, j ≠ i → ((w.enter i).rcd j).saved = (w.rcd j).saved := by
      intro j hj
      rw [(hx j).2.2.2.2.2.1, if_neg (by simp [hj])]
    rw [he]
    refine ⟨?_, ?_, ?_, ?_⟩
    · intro j hj
      simp only [List.mem_cons, not_or] at hj
      rw [a1 j hj.2, hsv j hj.1]
    · intro j hj hk
      rcases List.mem_cons.1 hj with rfl | hj
      · rw [a1 j hi, (hx j).2.2.2.2.2.1, if_pos ⟨rfl, hk⟩]
      · rw [a2 j hj (by rw [(hx j).1]; exact hk), (hx j).2.1, enter_slot, if_neg]
        rintro ⟨h1, h2⟩
        exact hi (hu j (by simp [hj]) i (by simp) (by simp [hk]) h1 h2 ▸ hj)
    · intro j hj hk
      rcases List.mem_cons.1 hj with rfl | hj
      · rw [a1 j hi, (hx j).2.2.2.2.2.1, if_neg (by simp [hk])]
      · rw [a3 j hj (by rw [(hx j).1]; exact hk), hsv j (fun e => hi (e ▸ hj))]
    · intro s hs
      rw [a4 s (by
        intro b hb hkb
        rw [(hx b).1] at hkb
        rw [(hx b).2.1]
        exact hs b (by simp [hb]) hkb)]
      rw [enter_slot, if_neg]
      rintro ⟨h1, h2⟩
      exact hs i (by simp) h1 h2.symm

end Verif.Recorder
