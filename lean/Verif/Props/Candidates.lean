import Verif.Lemmas.Candidates

/-! C12: the candidate pool. -/

namespace Verif.Candidates
open Verif

variable {S : Type}

/-! ### Theorems -/

/-- C12: no operation loses or duplicates an entry: after any history the pool
holds, up to order, what it held before plus what the history added. -/
theorem C12_entries_kept : ∀ (ops : List (Op S)) (st : State S),
    (run st ops).pool.Perm (st.pool ++ added st ops)
  | [], st => by simp [run, added]
  | o :: os, st => by
    have h1 : (step st o).1.pool.Perm (st.pool ++ addedBy st o) := by
      cases o with
      | addNew ss => exact List.Perm.refl _
      | add rs => exact List.Perm.refl _
      | insert i r => exact pyInsert_perm _ _ _
      | setResource i k v =>
        simp only [step, addedBy, List.append_nil]
        split <;> exact List.Perm.refl _
      | updateResources res start =>
        simp only [step, addedBy, List.append_nil]
        split <;> exact List.Perm.refl _
      | sortBy k reverse =>
        simp only [step, addedBy, List.append_nil]
        exact sortBy_perm _
    have h2 := C12_entries_kept os (step st o).1
    have : run st (o :: os) = run (step st o).1 os := rfl
    rw [this, added, ← List.append_assoc]
    exact h2.trans (h1.append_right _)

/-- C12: no operation changes which subnet an existing candidate stands for. -/
theorem C12_subnets_kept : ∀ (ops : List (Op S)) (st : State S) (r : Nat) (e : Entry S),
    st.heap[r]? = some e → ∃ e', (run st ops).heap[r]? = some e' ∧ e'.subnet = e.subnet
  | [], st, r, e, h => ⟨e, h, rfl⟩
  | o :: os, st, r, e, h => by
    have h1 : ∃ e', (step st o).1.heap[r]? = some e' ∧ e'.subnet = e.subnet := by
      cases o with
      | addNew ss =>
        refine ⟨e, ?_, rfl⟩
        simp only [step]
        rw [List.getElem?_append_left (List.getElem?_eq_some_iff.mp h).1]
        exact h
      | add rs => exact ⟨e, h, rfl⟩
      | insert i r => exact ⟨e, h, rfl⟩
      | setResource i k v =>
        simp only [step]
        split
        · simp only [List.getElem?_modify]
          split
          · rename_i hr; subst hr
            exact ⟨e.set k v, by simp [h], rfl⟩
          · exact ⟨e, by simp [h], rfl⟩
        · exact ⟨e, h, rfl⟩
      | updateResources res start =>
        simp only [step]
        split
        · have := updates_subnet (((st.pool.drop start).take res.length).zip res) st.heap r
          rw [h] at this
          simp only [Option.map_some, Option.map_eq_some_iff] at this
          obtain ⟨e', he', hs⟩ := this
          exact ⟨e', he', hs⟩
        · exact ⟨e, h, rfl⟩
      | sortBy k reverse => exact ⟨e, h, rfl⟩
    obtain ⟨e1, he1, hs1⟩ := h1
    obtain ⟨e2, he2, hs2⟩ := C12_subnets_kept os (step st o).1 r e1 he1
    exact ⟨e2, he2, hs2.trans hs1⟩

/-- C12: a newly added subnet enters with every indicator at -1. -/
theorem C12_addNew (st : State S) (ss : List S) (j : Nat) (s : S) (hs : ss[j]? = some s) :
    (step st (.addNew ss)).1.pool[st.pool.length + j]? = some (st.heap.length + j) ∧
    ∃ e, (step st (.addNew ss)).1.heap[st.heap.length + j]? = some e ∧ e.subnet = s ∧
      ∀ k, e.value k = -1 := by
  have hj := (List.getElem?_eq_some_iff.mp hs).1
  refine ⟨?_, ⟨s, fun _ => -1⟩, ?_, rfl, fun _ => rfl⟩
  · simp only [step]
    rw [List.getElem?_append_right (by omega)]
    simp [List.getElem?_range', hj]
  · simp only [step]
    rw [List.getElem?_append_right (by omega)]
    simp [hs]

/-- C12: setting an indicator changes that indicator of the addressed candidate
object and nothing else; a position outside the pool raises and changes nothing. -/
theorem C12_setResource (st : State S) (i : Nat) (k : Ind) (v : ℚ) :
    (∀ r e, st.pool[i]? = some r → st.heap[r]? = some e →
      (step st (.setResource i k v)).2 = none ∧
      (step st (.setResource i k v)).1.pool = st.pool ∧
      (∃ e', (step st (.setResource i k v)).1.heap[r]? = some e' ∧ e'.subnet = e.subnet ∧
        e'.value k = v ∧ ∀ k', k' ≠ k → e'.value k' = e.value k') ∧
      ∀ r', r' ≠ r → (step st (.setResource i k v)).1.heap[r']? = st.heap[r']?) ∧
    (st.pool[i]? = none → step st (.setResource i k v) = (st, some .index)) := by
  refine ⟨?_, ?_⟩
  · intro r e hr he
    simp only [step, hr]
    refine ⟨trivial, trivial, ⟨e.set k v, by simp [he], rfl, by simp [Entry.set],
      fun k' hk' => by simp [Entry.set, hk']⟩, ?_⟩
    intro r' hr'
    simp [Ne.symm hr']
  · intro h; simp [step, h]

/-- C12: when all positions hold different objects, setting an indicator through
position `i` leaves the candidate at every other position as it was. Missing: positions that share an object, see
`C12_shared_entry_violated`. -/
theorem C12_setResource_others_partial (st : State S) (i j : Nat) (k : Ind) (v : ℚ)
    (hn : st.pool.Nodup) (hij : j ≠ i) (r : Nat) (hr : st.pool[j]? = some r) :
    (step st (.setResource i k v)).1.heap[r]? = st.heap[r]? := by
  simp only [step]
  split
  · rename_i r' hr'
    have : r' ≠ r := by
      rintro rfl
      obtain ⟨h1, h2⟩ := List.getElem?_eq_some_iff.mp hr'
      obtain ⟨h3, h4⟩ := List.getElem?_eq_some_iff.mp hr
      exact hij ((List.getElem_inj hn).mp (h4.trans h2.symm))
    simp [this]
  · rfl

/-- C12: a pool built from plain subnets only always holds different objects, so the
guard of the previous theorem is met after any such history. -/
theorem C12_fresh_pool_nodup (ops : List (Op S)) (st : State S)
    (hops : ∀ o ∈ ops, (∀ rs, o ≠ .add rs) ∧ ∀ i r, o ≠ .insert i r)
    (hlt : ∀ r ∈ st.pool, r < st.heap.length) (hn : st.pool.Nodup) :
    (run st ops).pool.Nodup := by
  have key : ∀ (ops : List (Op S)) (st : State S),
      (∀ o ∈ ops, (∀ rs, o ≠ .add rs) ∧ ∀ i r, o ≠ .insert i r) →
      (∀ r ∈ st.pool, r < st.heap.length) → st.pool.Nodup → (run st ops).pool.Nodup := by
    intro ops
    induction ops with
    | nil => intro st _ _ h; exact h
    | cons o os ih =>
      intro st ho hl hn
      have hoo := ho o (by simp)
      refine ih (step st o).1 (fun o' h => ho o' (by simp [h])) ?_ ?_
      · cases o with
        | addNew ss =>
          intro r hr
          simp only [step, List.mem_append, List.mem_range'_1] at hr
          simp only [step, List.length_append, List.length_map]
          rcases hr with hr | hr
          · have := hl r hr; omega
          · omega
        | add rs => exact absurd rfl (hoo.1 rs)
        | insert i r => exact absurd rfl (hoo.2 i r)
        | setResource i k v =>
          simp only [step]; split
          · simpa using hl
          · exact hl
        | updateResources res start =>
          simp only [step]; split
          · have : ∀ (ps : List (Nat × List (Ind × ℚ))) (h : List (Entry S)),
                (ps.foldl (fun h p => updateOne h p.1 p.2) h).length = h.length := by
              intro ps
              induction ps with
              | nil => intro h; rfl
              | cons p ps ih => intro h; rw [List.foldl_cons, ih]; simp [updateOne]
            simpa [this] using hl
          · exact hl
        | sortBy k reverse =>
          intro r hr
          exact hl r (mem_sortBy.mp hr)
      · cases o with
        | addNew ss =>
          simp only [step]
          rw [List.nodup_append]
          refine ⟨hn, List.nodup_range', ?_⟩
          intro a ha b hb hab
          subst hab
          have h1 := hl a ha
          rw [List.mem_range'_1] at hb
          omega
        | add rs => exact absurd rfl (hoo.1 rs)
        | insert i r => exact absurd rfl (hoo.2 i r)
        | setResource i k v => simp only [step]; split <;> exact hn
        | updateResources res start => simp only [step]; split <;> exact hn
        | sortBy k reverse => exact (sortBy_perm _).nodup_iff.mpr hn
  exact key ops st hops hlt hn

example : ((run (⟨[], []⟩ : State Nat)
    [.addNew [7, 8], .setResource 1 .score 5, .sortBy .score true, .addNew [9]]).pool) = [1, 0, 2] := by
  decide +kernel

/-- C12 is violated for shared objects: after extending a pool with its own entry,
setting the score at position 0 changes the candidate at position 1. -/
theorem C12_shared_entry_violated :
    let st : State Nat := run ⟨[], []⟩ [.addNew [7], .add [0]]
    let st' := (step st (.setResource 0 .score 5)).1
    (st.pool = [0, 0] ∧ st.pool[1]?.map (indOf st.heap .score) = some (-1)) ∧
    st'.pool[1]?.map (indOf st'.heap .score) = some 5 := by
  decide +kernel

/-- C12: `update_resources` raises without effect when it would run past the end
and otherwise changes only objects in the addressed range. -/
theorem C12_updateResources (st : State S) (res : List (List (Ind × ℚ))) (start : Nat) :
    (st.pool.length < start + res.length →
      step st (.updateResources res start) = (st, some .assertion)) ∧
    (start + res.length ≤ st.pool.length →
      (step st (.updateResources res start)).2 = none ∧
      ∀ r, r ∉ (st.pool.drop start).take res.length →
        (step st (.updateResources res start)).1.heap[r]? = st.heap[r]?) := by
  refine ⟨fun h => by simp [step, Nat.not_le.mpr h], ?_⟩
  intro h
  simp only [step, ge_iff_le, h, if_true, true_and]
  intro r hr
  apply updates_other
  intro hm
  apply hr
  obtain ⟨p, hp, rfl⟩ := List.mem_map.mp hm
  exact (List.of_mem_zip hp).1

/-- C12: `update_resources` writes the `j`-th resources to the candidate at position
`start + j`: the indicators that are named (once each) get the new values, the
others keep theirs, provided the positions hold different objects. -/
theorem C12_updateResources_values (st : State S) (res : List (List (Ind × ℚ))) (start : Nat)
    (hn : st.pool.Nodup) (hlen : start + res.length ≤ st.pool.length)
    (j : Nat) (kvs : List (Ind × ℚ)) (hj : res[j]? = some kvs) (hk : (kvs.map (·.1)).Nodup)
    (r : Nat) (hr : st.pool[start + j]? = some r) (e : Entry S) (he : st.heap[r]? = some e) :
    ∃ e', (step st (.updateResources res start)).1.heap[r]? = some e' ∧ e'.subnet = e.subnet ∧
      (∀ k v, (k, v) ∈ kvs → e'.value k = v) ∧
      (∀ k, k ∉ kvs.map (·.1) → e'.value k = e.value k) := by
  have hjl : j < res.length := (List.getElem?_eq_some_iff.mp hj).1
  refine ⟨kvs.foldl (fun e kv => e.set kv.1 kv.2) e, ?_, foldl_set_subnet kvs e,
    fun k v hm => foldl_set_value kvs e k v hk hm, fun k hm => foldl_set_other kvs e k hm⟩
  simp only [step, ge_iff_le, hlen, if_true]
  apply updates_at
  · have : (((st.pool.drop start).take res.length).zip res).map (·.1)
        = (st.pool.drop start).take res.length := by
      rw [List.map_fst_zip]
      simp
    rw [this]
    exact (hn.sublist (List.drop_sublist _ _)).sublist (List.take_sublist _ _)
  · rw [List.mem_iff_getElem?]
    refine ⟨j, ?_⟩
    rw [List.getElem?_zip_eq_some]
    refine ⟨?_, hj⟩
    rw [List.getElem?_take_of_lt hjl, List.getElem?_drop, hr]
  · exact he

example : ([0, 1] : List Nat).Nodup ∧ 1 + [[(Ind.flops, (3 : ℚ)), (Ind.score, 2)]].length ≤ [0, 1].length ∧
    [(Ind.flops, (3 : ℚ)), (Ind.score, 2)].map (·.1) = [.flops, .score] := by decide

/-- C12: sorting rearranges the pool, orders it by the indicator (largest first by
default), keeps candidates of equal indicator in their previous relative order,
and leaves all objects alone. -/
theorem C12_sort (st : State S) (k : Ind) (reverse : Bool) :
    (step st (.sortBy k reverse)).1.pool.Perm st.pool ∧
    (step st (.sortBy k reverse)).1.pool.Pairwise (fun a b =>
      if reverse then indOf st.heap k a ≥ indOf st.heap k b
      else indOf st.heap k a ≤ indOf st.heap k b) ∧
    (∀ x : ℚ, (step st (.sortBy k reverse)).1.pool.filter (fun r => decide (indOf st.heap k r = x))
      = st.pool.filter (fun r => decide (indOf st.heap k r = x))) ∧
    (step st (.sortBy k reverse)).1.heap = st.heap := by
  refine ⟨sortBy_perm _, ?_, ?_, rfl⟩
  · simp only [step]
    cases reverse with
    | true =>
      have := sortBy_sorted (le := fun a b : Nat => decide (indOf st.heap k a ≥ indOf st.heap k b))
        (by intro a b c; simpa using fun h1 h2 => le_trans h2 h1)
        (by intro a b; simpa using le_total _ _) st.pool
      simpa using this
    | false =>
      have := sortBy_sorted (le := fun a b : Nat => decide (indOf st.heap k a ≤ indOf st.heap k b))
        (by intro a b c; simpa using fun h1 h2 => le_trans h1 h2)
        (by intro a b; simpa using le_total _ _) st.pool
      simpa using this
  · intro x
    simp only [step]
    apply sortBy_filter
    intro a b ha hb
    simp only [decide_eq_true_eq] at ha hb
    cases reverse <;> simp [ha, hb]

example : (step (⟨[⟨0, fun _ => 1⟩, ⟨1, fun _ => 3⟩, ⟨2, fun _ => 1⟩], [0, 1, 2]⟩ : State Nat)
    (.sortBy .score true)).1.pool = [1, 0, 2] := by decide +kernel

end Verif.Candidates
