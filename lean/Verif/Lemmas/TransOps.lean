import Verif.Spec.TransOps

/-! Helper lemmas for `Verif/Props/TransOps.lean`. -/

namespace Verif.TransOps
open Verif

theorem keep_eq {A : Type} : ∀ (m : List Bool) (l : List A), m.length = l.length → ((m.zip l).filter (·.1)).map (·.2) = activeOf m l
  | [], [], _ => rfl
  | [], _ :: _, h => by simp at h
  | _ :: _, [], h => by simp at h
  | b :: m, a :: l, h => by
    have ih := keep_eq m l (by simpa using h)
    cases b
    · simp [activeOf, ← ih]
    · simp [activeOf, ← ih]

theorem keep_ok {A : Type} (m : List Bool) (l : List A) (h : m.length = l.length) : keep m l = .ok (activeOf m l) := by
  unfold keep; rw [if_pos h, keep_eq m l h]

theorem activeOf_length {A : Type} : ∀ (m : List Bool) (l : List A), m.length = l.length → (activeOf m l).length = active m
  | [], [], _ => rfl
  | [], _ :: _, h => by simp at h
  | _ :: _, [], h => by simp at h
  | b :: m, a :: l, h => by
    have ih := activeOf_length m l (by simpa using h)
    cases b
    · simp [activeOf, active] at ih ⊢; exact ih
    · simp [activeOf, active] at ih ⊢; exact ih

theorem ln_params {A : Type} (n : Nat) (p : List A) (m : List Bool) (f : Bool) (h : m.length = p.length) :
    (⟨n, some p, some m, f⟩ : LN A).params = .ok (some (activeOf m p)) := by
  unfold LN.params; dsimp only; rw [keep_ok m p h]

theorem layerNorm_ok {A X : Type} (norm : List X → List X) (ap : A → X → X) (p : List A) (m : List Bool) (h : m.length = p.length)
    (x : List X) : layerNorm norm ap (active m) (some (activeOf m p)) x =
      if x.length = active m then .ok (List.zipWith ap (activeOf m p) (norm x)) else .error .runtime := by
  unfold layerNorm
  by_cases hx : x.length = active m
  · rw [if_neg (by simpa using hx), if_pos hx]; dsimp only; rw [if_neg (by simp [activeOf_length m p h])]
  · rw [if_pos hx, if_neg hx]

theorem ln_forward {A X : Type} (norm : List X → List X) (ap : A → X → X) (n : Nat) (p : List A) (m : List Bool) (f : Bool)
    (h : m.length = p.length) (x : List X) :
    (⟨n, some p, some m, f⟩ : LN A).forward norm ap 3 x =
      (if x.length = active m then .ok (List.zipWith ap (activeOf m p) (norm x)) else .error .runtime,
        ⟨active m, some p, some m, f⟩) := by
  unfold LN.forward
  rw [if_neg (by simp), ln_params n p m f h]; dsimp only; rw [layerNorm_ok norm ap p m h]

theorem ln_after {A X : Type} (norm : List X → List X) (ap : A → X → X) (p : List A) (f : Bool) :
    ∀ (us : List (Use X)) (n : Nat) (m : List Bool), m.length = p.length → (∀ m', Use.choose m' ∈ us → m'.length = p.length) →
      ∃ n', (⟨n, some p, some m, f⟩ : LN A).after norm ap us = ⟨n', some p, some (lastMask m us), f⟩ ∧ (lastMask m us).length = p.length
  | [], n, m, h, _ => ⟨n, rfl, h⟩
  | .choose m' :: us, n, m, h, hc => by
    rw [LN.after, lastMask]
    exact ln_after norm ap p f us n m' (hc m' (by simp)) (fun q hq => hc q (by simp [hq]))
  | .run d x :: us, n, m, h, hc => by
    rw [LN.after, lastMask]
    by_cases hd : d = 3
    · subst hd
      rw [ln_forward norm ap n p m f h]
      exact ln_after norm ap p f us _ m h (fun q hq => hc q (by simp [hq]))
    · have : ((⟨n, some p, some m, f⟩ : LN A).forward norm ap d x).2 = ⟨n, some p, some m, f⟩ := by
        unfold LN.forward; rw [if_pos hd]
      rw [this]
      exact ln_after norm ap p f us _ m h (fun q hq => hc q (by simp [hq]))

theorem replaceAll_spec {H P : Type} (map : List (String × String)) (fresh : String → H → P)
    (hm : ∀ s c, map.lookup s = some c → map.lookup c = none) :
    ∀ (l : List String) (m : String → Option (Layer H P)) (k : String),
      replaceAll map fresh l m k = if k ∈ l then (m k).map (replaceOne map fresh) else m k
  | [], m, k => by simp [replaceAll]
  | n :: l, m, k => by
    have idem : ∀ y : Layer H P, replaceOne map fresh (replaceOne map fresh y) = replaceOne map fresh y := by
      intro y
      unfold replaceOne
      cases hl : map.lookup y.cls with
      | none => dsimp only; rw [hl]
      | some c => dsimp only; rw [hm _ _ hl]
    rw [replaceAll, replaceAll_spec map fresh hm l]
    by_cases hk : k = n
    · subst hk
      by_cases hl : k ∈ l
      · rw [if_pos hl, if_pos rfl, if_pos (by simp)]
        cases hmk : m k with
        | none => rfl
        | some y => simp [idem]
      · rw [if_neg hl, if_pos rfl, if_pos (by simp)]
    · by_cases hl : k ∈ l
      · rw [if_pos hl, if_neg hk, if_pos (by simp [hl])]
      · rw [if_neg hl, if_neg hk, if_neg (by simp [hk, hl])]

end Verif.TransOps
