import Verif.Spec.Build

/-! Helper lemmas for `Verif/Props/Build.lean`. -/

namespace Verif.Build
open Verif

mutual
theorem inPlace_setFalse : ∀ m : Mod, m.setFalse.inPlace = m.hidden
  | .mk (some b) cs => by
    unfold Mod.setFalse Mod.inPlace Mod.hidden
    rfl
  | .mk none cs => by
    unfold Mod.setFalse Mod.inPlace Mod.hidden
    rw [inPlaces_setFalse cs]
    rfl
theorem inPlaces_setFalse : ∀ ms : Mods, ms.setFalse.inPlace = ms.hidden
  | .nil => rfl
  | .cons k m rest => by
    unfold Mods.setFalse Mods.inPlace Mods.hidden
    rw [inPlace_setFalse m, inPlaces_setFalse rest]
end

mutual
theorem shape_setFalse : ∀ m : Mod, m.setFalse.shape = m.shape
  | .mk (some b) cs => by
    unfold Mod.setFalse Mod.shape
    rfl
  | .mk none cs => by
    unfold Mod.setFalse Mod.shape
    rw [shapes_setFalse cs]
theorem shapes_setFalse : ∀ ms : Mods, ms.setFalse.shape = ms.shape
  | .nil => rfl
  | .cons k m rest => by
    unfold Mods.setFalse Mods.shape
    rw [shape_setFalse m, shapes_setFalse rest]
end

mutual
theorem plain_inPlace : ∀ m : Mod, m.plain = true → m.inPlace = false
  | .mk b cs, h => by
    unfold Mod.plain at h
    unfold Mod.inPlace
    have h' := Bool.and_eq_true_iff.1 h
    rw [plains_inPlace cs h'.2]
    have : b = none := by simpa using h'.1
    rw [this]
    rfl
theorem plains_inPlace : ∀ ms : Mods, ms.plain = true → ms.inPlace = false
  | .nil, _ => rfl
  | .cons k m rest, h => by
    unfold Mods.plain at h
    unfold Mods.inPlace
    have h' := Bool.and_eq_true_iff.1 h
    rw [plain_inPlace m h'.1, plains_inPlace rest h'.2]
    rfl
end

mutual
theorem unnested_hidden : ∀ m : Mod, m.unnested = true → m.hidden = false
  | .mk (some b) cs, h => by
    unfold Mod.unnested at h
    unfold Mod.hidden
    exact plains_inPlace cs h
  | .mk none cs, h => by
    unfold Mod.unnested at h
    unfold Mod.hidden
    exact unnesteds_hidden cs h
theorem unnesteds_hidden : ∀ ms : Mods, ms.unnested = true → ms.hidden = false
  | .nil, _ => rfl
  | .cons k m rest, h => by
    unfold Mods.unnested at h
    unfold Mods.hidden
    have h' := Bool.and_eq_true_iff.1 h
    rw [unnested_hidden m h'.1, unnesteds_hidden rest h'.2]
    rfl
end

theorem count_all {l : List Block} (h : ∀ b ∈ l, b.typed = true) : count l = l.length := by
  unfold count
  rw [List.filter_eq_self.2 (by simpa using h)]

theorem setLayer_get (total before : Nat) (rate : ℚ) (l : List Block) (h : ∀ b ∈ l, b.typed = true) (j : Nat) :
    ((setLayer total before rate l).map (·.rate))[j]? = if j < l.length then some (rate * ((before + j : Nat) / (total : ℚ))) else none := by
  unfold setLayer
  rw [List.map_map, List.getElem?_map, List.getElem?_zipIdx]
  by_cases hj : j < l.length
  · rw [if_pos hj, List.getElem?_eq_getElem hj]
    have := h _ (List.getElem_mem hj)
    simp [this]
  · rw [if_neg hj, List.getElem?_eq_none (by omega)]
    rfl

theorem setLayers_get (total : Nat) (stages : List Nat) (rate : ℚ) : ∀ (layers : List (List Block)) (idx visited : Nat)
    (_ : ∀ l ∈ layers, ∀ b ∈ l, b.typed = true) (i j : Nat) (l : List Block) (_ : layers[i]? = some l) (b : Block) (_ : l[j]? = some b),
    ∃ l', (rates (setLayers total stages rate idx visited layers))[i]? = some l' ∧
      l'[j]? = some (if idx + i ∈ stages then rate * ((visited + ((layers.take i).map List.length).sum + j : Nat) / (total : ℚ)) else b.rate)
  | [], _, _, _, i, j, l, hl, _, _ => by simp at hl
  | x :: layers, idx, visited, h, 0, j, l, hl, b, hb => by
    obtain rfl : x = l := by simpa using hl
    refine ⟨_, rfl, ?_⟩
    have hj : j < x.length := by
      by_contra hn
      rw [List.getElem?_eq_none (by omega)] at hb
      cases hb
    by_cases hs : idx ∈ stages
    · simp only [hs, if_true, Nat.add_zero]
      rw [setLayer_get total visited rate x (h x (by simp)) j, if_pos hj]
      simp
    · simp only [hs, if_false, Nat.add_zero]
      rw [List.getElem?_map, hb]
      rfl
  | x :: layers, idx, visited, h, i + 1, j, l, hl, b, hb => by
    obtain ⟨l', h1, h2⟩ := setLayers_get total stages rate layers (idx + 1) (visited + count x) (fun y hy => h y (by simp [hy])) i j l
      (by simpa using hl) b hb
    refine ⟨l', h1, ?_⟩
    rw [h2, count_all (h x (by simp)), List.take_succ_cons, List.map_cons, List.sum_cons]
    rw [show idx + 1 + i = idx + (i + 1) by omega, Nat.add_assoc visited x.length]

theorem sum_take_lt (layers : List (List Block)) (i j : Nat) (l : List Block) (hl : layers[i]? = some l) (hj : j < l.length) :
    ((layers.take i).map List.length).sum + j < (layers.map List.length).sum := by
  induction layers generalizing i with
  | nil => simp at hl
  | cons x layers ih =>
    cases i with
    | zero =>
      obtain rfl : x = l := by simpa using hl
      simp
      omega
    | succ i =>
      have := ih i (by simpa using hl)
      rw [List.take_succ_cons, List.map_cons, List.map_cons, List.sum_cons, List.sum_cons]
      omega

end Verif.Build
