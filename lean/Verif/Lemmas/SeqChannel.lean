import Verif.Model.SeqChannel
import Mathlib.Tactic.Linarith
import Mathlib.Tactic.FieldSimp
import Mathlib.Tactic.Positivity
import Mathlib.Data.List.Basic

/-! Helper lemmas for `Verif/Props/SeqChannel.lean`. -/

namespace Verif.SeqChannel
open Verif

theorem prefixMask_length (n : Nat) (k : Int) : (prefixMask n k).length = n := by
  unfold prefixMask
  simp only [List.length_append, List.length_replicate]
  split <;> omega

theorem popcount_prefixMask (n : Nat) (k : Int) (hk : 0 ≤ k) :
    popcount (prefixMask n k) = min k.toNat n := by
  unfold prefixMask popcount
  rw [if_neg (by omega)]
  simp [List.countP_append, List.countP_replicate]

theorem prefixMask_get (n : Nat) (k : Int) (hk : 0 ≤ k) (i : Nat) (hi : i < n) :
    (prefixMask n k)[i]? = some (decide ((i : Int) < k)) := by
  unfold prefixMask
  rw [if_neg (by omega)]
  by_cases h : (i : Int) < k
  · rw [List.getElem?_append_left (by simp; omega)]
    simp [List.getElem?_replicate]; omega
  · rw [List.getElem?_append_right (by simp; omega)]
    simp only [List.length_replicate, List.getElem?_replicate]
    rw [if_pos (by omega)]
    simp; omega

end Verif.SeqChannel
