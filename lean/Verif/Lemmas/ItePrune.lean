import Verif.Spec.ItePrune
import Verif.Lemmas.Float64

/-! Helper lemmas for `Verif/Props/ItePrune.lean`. -/

namespace Verif.ItePrune
open Verif

theorem pyInt_mono {a b : ℚ} (ha : 0 ≤ a) (h : a ≤ b) : pyInt a ≤ pyInt b := by
  unfold pyInt
  rw [if_pos ha, if_pos (le_trans ha h)]
  exact Int.floor_mono h

theorem pyInt_int (i : Int) : pyInt (i : ℚ) = i := by
  unfold pyInt
  split <;> simp

theorem ratio_mono (m : Manager) (k k' : Nat) (hk : k ≤ k') (hk' : k' ≤ m.times) (ht : 0 < m.times) :
    (0 : ℚ) ≤ (k : ℚ) / m.times ∧ (k : ℚ) / m.times ≤ (k' : ℚ) / m.times ∧ (k' : ℚ) / m.times ≤ 1 := by
  have h0 : (0 : ℚ) < m.times := by exact_mod_cast ht
  refine ⟨by positivity, ?_, ?_⟩
  · gcongr
  · rw [div_le_one h0]; exact_mod_cast hk'

theorem planned_name (rnd : ℚ → ℚ) (m : Manager) (k : Nat) (e : String × Num) : (planned rnd m k e).1 = e.1 := by
  unfold planned
  split
  · rfl
  · split <;> rfl

theorem lookup_mem (d : Choices) (hn : (d.map (·.1)).Nodup) (e : String × Num) (he : e ∈ d) : lookup d e.1 = .ok e.2 := by
  unfold lookup
  cases hf : d.find? (·.1 = e.1) with
  | none =>
    rw [List.find?_eq_none] at hf
    exact absurd (hf e he) (by simp)
  | some x =>
    have hx := List.mem_of_find?_eq_some hf
    have hxe : x.1 = e.1 := by simpa using List.find?_some hf
    have : x = e := List.inj_on_of_nodup_map hn hx he hxe
    rw [this]

theorem mapM_value (rnd : ℚ → ℚ) (m : Manager) (k : Nat) (l : Choices) (h : ∀ e ∈ l, ∃ s, lookup m.supernet e.1 = .ok s) :
    ∃ cfg : Choices, (l.mapM fun e => do
      let s ← lookup m.supernet e.1
      return (e.1, m.value rnd k e.2 s)) = (.ok cfg : Except Err Choices) ∧
    ∀ n, cfg.find? (·.1 = n) = (l.find? (·.1 = n)).bind fun e =>
      match lookup m.supernet e.1 with | .ok s => some (e.1, m.value rnd k e.2 s) | .error _ => none := by
  induction l with
  | nil => exact ⟨[], rfl, by simp⟩
  | cons e l ih =>
    obtain ⟨cfg, h1, h2⟩ := ih (fun x hx => h x (by simp [hx]))
    obtain ⟨s, hs⟩ := h e (by simp)
    refine ⟨(e.1, m.value rnd k e.2 s) :: cfg, ?_, ?_⟩
    · rw [List.mapM_cons, h1]
      simp [hs, bind, Except.bind, pure, Except.pure]
    · intro n
      rw [List.find?_cons, List.find?_cons]
      by_cases hn : e.1 = n
      · simp [hn]
        rw [hn] at hs
        simp [hs, hn]
      · simp [hn, h2 n]

theorem double_mono {x y : ℚ} (h : x ≤ y) : double x ≤ double y := by
  unfold double
  by_cases hx : x < 0
  · rw [if_pos hx]
    by_cases hy : y < 0
    · rw [if_pos hy]
      have := fl64_mono (show -y ≤ -x by linarith)
      linarith
    · rw [if_neg hy]
      have h1 := fl64_pos (-x) (by linarith)
      have h2 := fl64_mono (show (0 : ℚ) ≤ y by linarith)
      have h0 : fl64 0 = 0 := by simp [fl64]
      linarith
  · rw [if_neg hx, if_neg (by linarith)]
    exact fl64_mono h

theorem double_int (n : Int) (h : |n| < 2 ^ 53) : double (n : ℚ) = n := by
  unfold double
  rw [abs_lt] at h
  by_cases hn : (n : ℚ) < 0
  · rw [if_pos hn]
    have hn' : n < 0 := by exact_mod_cast hn
    obtain ⟨k, rfl⟩ : ∃ k : Nat, n = -(k : Int) := ⟨n.natAbs, by omega⟩
    push_cast
    rw [neg_neg, fl64_nat k (by omega)]
  · rw [if_neg hn]
    have hn' : ¬ n < 0 := by exact_mod_cast hn
    obtain ⟨k, rfl⟩ : ∃ k : Nat, n = (k : Int) := ⟨n.natAbs, by omega⟩
    push_cast
    exact fl64_nat k (by omega)

end Verif.ItePrune
