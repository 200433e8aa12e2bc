import Verif.Spec.SubModel

/-! Helper lemmas for `Verif/Props/SubModel.lean`. -/

namespace Verif.SubModel
open Verif

theorem divisibleWidth_smallest (d n : Nat) (hd : 0 < d) : SmallestMultiple d n (divisibleWidth d n) := by
  unfold divisibleWidth
  by_cases h : n % d = 0
  · rw [if_pos h]
    exact ⟨Nat.dvd_of_mod_eq_zero h, le_refl _, fun k _ hk => hk⟩
  · rw [if_neg h]
    have h1 := Nat.div_add_mod n d
    have h2 := Nat.mod_lt n hd
    have h3 : (n / d + 1) * d = d * (n / d) + d := by ring
    have h4 : n ≤ (n / d + 1) * d := by omega
    rw [Nat.max_eq_left h4]
    refine ⟨Nat.dvd_mul_left _ _, h4, ?_⟩
    rintro k ⟨c, rfl⟩ hk
    have : n / d < c := by
      by_contra hc
      have : d * c ≤ d * (n / d) := Nat.mul_le_mul_left d (by omega)
      omega
    rw [Nat.mul_comm d c]
    exact Nat.mul_le_mul_right d this

theorem setChoices_names (us vs : List Chan) (s : Structure) (h : setChoices us s = .ok vs) : vs.map (·.name) = us.map (·.name) := by
  induction s generalizing us with
  | nil => cases h; rfl
  | cons c cs ih =>
    obtain ⟨name, n⟩ := c
    rw [setChoices] at h
    by_cases hc : (us.any fun u => u.name = name) = true
    · rw [if_pos hc] at h
      rw [ih _ h, List.map_map]
      refine List.map_congr_left fun u _ => ?_
      dsimp only [Function.comp]
      by_cases e : u.name = name
      · rw [if_pos e]; rfl
      · rw [if_neg e]
    · rw [if_neg hc] at h; cases h

/-- Setting the widths of a list of units, those of the list `done` being set already. -/
theorem setChoices_template : ∀ (us done : List Chan), ((done ++ us).map (·.layer)).Nodup →
    (∀ u ∈ us, u.kept ≤ u.num ∧ (u.prunable = false → u.kept = u.num)) →
    setChoices (done ++ unpruned us) (template us) = .ok (done ++ us)
  | [], done, _, _ => by simp [unpruned, template, setChoices]
  | u :: us, done, hn, hk => by
    obtain ⟨hle, hfix⟩ := hk u (by simp)
    have hassoc : done ++ u :: us = (done ++ [u]) ++ us := by simp
    have ih := setChoices_template us (done ++ [u]) (by rw [← hassoc]; exact hn) (fun v hv => hk v (List.mem_cons_of_mem _ hv))
    have hun : unpruned (u :: us) = { u with kept := u.num } :: unpruned us := rfl
    by_cases hp : u.prunable = true
    · have ht : template (u :: us) = (u.name, u.kept) :: template us := by
        unfold template
        rw [List.filter_cons_of_pos (by simpa using hp), List.map_cons]
      rw [ht, setChoices, hun, if_pos (by
        rw [List.any_eq_true]
        exact ⟨{ u with kept := u.num }, by simp, by simp [Chan.name]⟩)]
      have hmap : (done ++ { u with kept := u.num } :: unpruned us).map (fun v => if v.name = u.name then v.set u.kept else v) =
          (done ++ [u]) ++ unpruned us := by
        rw [List.map_append, List.map_cons, List.append_assoc, List.singleton_append]
        have hlay : ∀ v : Chan, v.layer ≠ u.layer → (if v.name = u.name then v.set u.kept else v) = v := fun v hv => by
          rw [if_neg fun e => hv (congrArg Prod.fst e)]
        rw [List.map_append, List.map_cons, List.nodup_append] at hn
        obtain ⟨_, h2, h3⟩ := hn
        congr 1
        · conv_rhs => rw [← List.map_id done]
          refine List.map_congr_left fun v hv => ?_
          exact hlay v (h3 _ (List.mem_map.2 ⟨v, hv, rfl⟩) _ (by simp))
        · congr 1
          · rw [if_pos (show ({ u with kept := u.num } : Chan).name = u.name from rfl)]
            unfold Chan.set
            rw [Nat.min_eq_left hle]
          · conv_rhs => rw [← List.map_id (unpruned us)]
            refine List.map_congr_left fun v hv => ?_
            refine hlay v fun e => ?_
            obtain ⟨w, hw, rfl⟩ := List.mem_map.1 hv
            exact (List.nodup_cons.1 h2).1 (e ▸ List.mem_map.2 ⟨w, hw, rfl⟩)
      rw [hmap, ih, ← hassoc]
    · have ht : template (u :: us) = template us := by
        unfold template
        rw [List.filter_cons_of_neg (by simpa using hp)]
      have hu : ({ u with kept := u.num } : Chan) = u := by
        have := hfix (by simpa using hp)
        obtain ⟨a, b, c, e⟩ := u
        simp only at this
        rw [this]
      rw [ht, hun, hu, hassoc]
      have : done ++ u :: unpruned us = (done ++ [u]) ++ unpruned us := by simp
      rw [this]
      exact ih

/-- A name that no unit has ends `set_choices`. -/
theorem setChoices_missing (us : List Chan) (s : Structure) (c : Name × Nat) (hc : c ∈ s) (h : c.1 ∉ us.map (·.name)) :
    setChoices us s = .error .key := by
  induction s generalizing us with
  | nil => simp at hc
  | cons d ds ih =>
    obtain ⟨name, n⟩ := d
    rw [setChoices]
    by_cases hd : (us.any fun u => u.name = name) = true
    · rw [if_pos hd]
      have hne : c ≠ (name, n) := by
        rintro rfl
        rw [List.any_eq_true] at hd
        obtain ⟨u, hu, he⟩ := hd
        exact h (List.mem_map.2 ⟨u, hu, by simpa using he⟩)
      refine ih _ ((List.mem_cons.1 hc).resolve_left hne) ?_
      have e : (us.map fun u => if u.name = name then u.set n else u).map (·.name) = us.map (·.name) := by
        rw [List.map_map]
        refine List.map_congr_left fun u _ => ?_
        dsimp only [Function.comp]
        by_cases e : u.name = name
        · rw [if_pos e]; rfl
        · rw [if_neg e]
      rw [e]
      exact h
    · rw [if_neg hd]

end Verif.SubModel
