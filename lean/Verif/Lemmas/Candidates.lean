import Verif.Spec.Candidates

/-! Helper lemmas for `Verif/Props/Candidates.lean`. -/

namespace Verif.Candidates
open Verif

variable {S : Type}

/-! ### Helpers -/

theorem pyInsert_perm {α : Type} (l : List α) (i : Nat) (x : α) : (pyInsert l i x).Perm (l ++ [x]) := by
  unfold pyInsert
  refine List.perm_middle.trans ?_
  rw [List.take_append_drop]
  exact (List.perm_append_singleton x l).symm

theorem foldl_set_subnet (kvs : List (Ind × ℚ)) : ∀ e : Entry S,
    (kvs.foldl (fun e kv => e.set kv.1 kv.2) e).subnet = e.subnet := by
  induction kvs with
  | nil => intro e; rfl
  | cons kv kvs ih => intro e; rw [List.foldl_cons, ih]; rfl

theorem updates_subnet (ps : List (Nat × List (Ind × ℚ))) : ∀ (h : List (Entry S)) (r : Nat),
    ((ps.foldl (fun h p => updateOne h p.1 p.2) h)[r]?).map (·.subnet) = (h[r]?).map (·.subnet) := by
  induction ps with
  | nil => intro h r; rfl
  | cons p ps ih =>
    intro h r
    rw [List.foldl_cons, ih]
    unfold updateOne
    rw [List.getElem?_modify]
    split
    · rename_i hp; subst hp
      cases h[p.1]? with
      | none => rfl
      | some e => simp [foldl_set_subnet]
    · simp

theorem updates_other (ps : List (Nat × List (Ind × ℚ))) : ∀ (h : List (Entry S)) (r : Nat),
    r ∉ ps.map (·.1) → (ps.foldl (fun h p => updateOne h p.1 p.2) h)[r]? = h[r]? := by
  induction ps with
  | nil => intro h r _; rfl
  | cons p ps ih =>
    intro h r hr
    simp only [List.map_cons, List.mem_cons, not_or] at hr
    rw [List.foldl_cons, ih _ _ hr.2]
    unfold updateOne
    rw [List.getElem?_modify]
    simp [Ne.symm hr.1]

theorem foldl_set_other (kvs : List (Ind × ℚ)) : ∀ (e : Entry S) (k : Ind),
    k ∉ kvs.map (·.1) → (kvs.foldl (fun e kv => e.set kv.1 kv.2) e).value k = e.value k := by
  induction kvs with
  | nil => intro e k _; rfl
  | cons kv kvs ih =>
    intro e k hk
    simp only [List.map_cons, List.mem_cons, not_or] at hk
    rw [List.foldl_cons, ih _ _ hk.2]
    simp [Entry.set, hk.1]

theorem foldl_set_value (kvs : List (Ind × ℚ)) : ∀ (e : Entry S) (k : Ind) (v : ℚ),
    (kvs.map (·.1)).Nodup → (k, v) ∈ kvs →
    (kvs.foldl (fun e kv => e.set kv.1 kv.2) e).value k = v := by
  induction kvs with
  | nil => intro e k v _ h; simp at h
  | cons kv kvs ih =>
    intro e k v hn hm
    rw [List.map_cons, List.nodup_cons] at hn
    rw [List.foldl_cons]
    rcases List.mem_cons.mp hm with e1 | e1
    · subst e1
      rw [foldl_set_other _ _ _ hn.1]
      simp [Entry.set]
    · exact ih _ _ _ hn.2 e1

theorem updates_at (ps : List (Nat × List (Ind × ℚ))) : ∀ (h : List (Entry S)) (r : Nat)
    (kvs : List (Ind × ℚ)) (e : Entry S), (ps.map (·.1)).Nodup → (r, kvs) ∈ ps → h[r]? = some e →
    (ps.foldl (fun h p => updateOne h p.1 p.2) h)[r]? =
      some (kvs.foldl (fun e kv => e.set kv.1 kv.2) e) := by
  induction ps with
  | nil => intro h r kvs e _ hm; simp at hm
  | cons p ps ih =>
    intro h r kvs e hn hm he
    rw [List.map_cons, List.nodup_cons] at hn
    rw [List.foldl_cons]
    rcases List.mem_cons.mp hm with e1 | e1
    · subst e1
      rw [updates_other _ _ _ hn.1]
      simp [updateOne, he]
    · apply ih _ _ _ _ hn.2 e1
      have : p.1 ≠ r := by
        rintro rfl
        exact hn.1 (List.mem_map.mpr ⟨_, e1, rfl⟩)
      simp [updateOne, List.getElem?_modify, this, he]

end Verif.Candidates
