import Verif.Spec.Derived

/-! Helper lemmas for `Verif/Props/Derived.lean`. -/

namespace Verif.Derived
open Verif SeqChannel MakeDivisible

theorem pyInt_mono {a b : ℚ} (h0 : 0 ≤ a) (h : a ≤ b) : pyInt a ≤ pyInt b := by
  rw [pyInt_of_nonneg h0, pyInt_of_nonneg (le_trans h0 h)]
  exact Int.floor_le_floor h

theorem pyInt_nonneg {a : ℚ} (h0 : 0 ≤ a) : 0 ≤ pyInt a := by
  rw [pyInt_of_nonneg h0]; exact Int.floor_nonneg.2 h0

theorem zerosPrefix_ok (size c : Int) (h0 : 0 ≤ c) (h : c ≤ size) :
    ∃ m, zerosPrefix size c = .ok m ∧ (popcount m : Int) = c := by
  refine ⟨prefixMask size.toNat c, by simp [zerosPrefix]; omega, ?_⟩
  rw [popcount_prefixMask _ _ h0]
  omega

theorem popcount_le (m : List Bool) : popcount m ≤ m.length := List.countP_le_length

theorem divideAndDivise_ok (x ratio divisor : Int) (hx : 0 ≤ x) (hr : 1 ≤ ratio) (hd : 1 ≤ divisor) :
    ∃ n, divideAndDivise x ratio divisor = .ok n ∧ 0 < n := by
  have hq : 0 ≤ x / ratio := Int.ediv_nonneg hx (by omega)
  have hq' : (0 : ℚ) ≤ ((x / ratio : Int) : ℚ) := by exact_mod_cast hq
  obtain ⟨n, h1, _, h2, _⟩ := C01_makeDivisible_spec ((x / ratio : Int) : ℚ) divisor (9/10) hq' hd (by norm_num)
  refine ⟨n, ?_, h2⟩
  unfold divideAndDivise pyFloorDiv
  rw [if_neg (by omega), Int.fdiv_eq_ediv_of_nonneg _ (by omega)]
  exact h1

theorem divideAndDivise_mono (x y ratio divisor a b : Int) (hx : 0 ≤ x) (hxy : x ≤ y)
    (hr : 1 ≤ ratio) (hd : 1 ≤ divisor) (ha : divideAndDivise x ratio divisor = .ok a)
    (hb : divideAndDivise y ratio divisor = .ok b) : a ≤ b := by
  unfold divideAndDivise pyFloorDiv at ha hb
  rw [if_neg (by omega), Int.fdiv_eq_ediv_of_nonneg _ (by omega)] at ha hb
  have hq : 0 ≤ x / ratio := Int.ediv_nonneg hx (by omega)
  have hqq : x / ratio ≤ y / ratio := Int.ediv_le_ediv (by omega) hxy
  exact C01_makeDivisible_mono _ _ divisor (9/10) (by exact_mod_cast hq) (by exact_mod_cast hqq) hd
    (by norm_num) a b ha hb

theorem setAll_restore {α : Type} (σ : Nat → α) : ∀ (ids : List Nat) (τ : Nat → α) (j : Nat),
    setAll τ ids (ids.map σ) j = if j ∈ ids then σ j else τ j
  | [], τ, j => by simp [setAll]
  | i :: is, τ, j => by
    simp only [List.map_cons, setAll]
    rw [setAll_restore σ is]
    by_cases h : j ∈ is
    · simp [h]
    · by_cases h2 : j = i <;> simp [h, h2]

theorem setAll_other {α : Type} : ∀ (ids : List Nat) (cs : List α) (τ : Nat → α) (j : Nat),
    j ∉ ids → setAll τ ids cs j = τ j
  | [], _, τ, j, _ => by simp [setAll]
  | _ :: _, [], τ, j, _ => by simp [setAll]
  | i :: is, c :: cs, τ, j, h => by
    simp only [setAll]
    rw [setAll_other is cs _ j (fun hh => h (by simp [hh]))]
    simp at h
    simp [h.1]

theorem choicesLoop_other {α β : Type} (f : (Nat → α) → β) (ids : List Nat) :
    ∀ (items : List (List α)) (σ : Nat → α) (j : Nat), j ∉ ids →
      (choicesLoop f ids items σ).2 j = σ j
  | [], σ, j, _ => rfl
  | item :: items, σ, j, h => by
    simp only [choicesLoop]
    rw [choicesLoop_other f ids items _ j h, setAll_other ids item σ j h]

theorem mem_product {α : Type} (σ : Nat → α) (cands : Nat → List α) : ∀ ids : List Nat,
    (∀ i ∈ ids, σ i ∈ cands i) → ids.map σ ∈ product (ids.map cands)
  | [], _ => by simp [product]
  | i :: is, h => by
    simp only [List.map_cons, product, List.mem_flatMap, List.mem_map]
    exact ⟨σ i, h i (by simp), is.map σ, mem_product σ cands is (fun k hk => h k (by simp [hk])), rfl⟩

theorem mem_choicesLoop {α β : Type} (f : (Nat → α) → β) (ids : List Nat) (σ : Nat → α) :
    ∀ (items : List (List α)) (τ : Nat → α), (∀ j, j ∉ ids → τ j = σ j) →
      ids.map σ ∈ items → f σ ∈ (choicesLoop f ids items τ).1
  | [], _, _, h => by simp at h
  | item :: items, τ, hτ, h => by
    simp only [choicesLoop, List.mem_cons]
    rcases List.mem_cons.1 h with h | h
    · left
      rw [← h]
      congr 1
      funext j
      rw [setAll_restore]
      split
      · rfl
      · rename_i hj; exact (hτ j hj).symm
    · right
      refine mem_choicesLoop f ids σ items _ (fun j hj => ?_) h
      rw [setAll_other ids item τ j hj, hτ j hj]

theorem divideAndDivise_one (x ratio : Int) (hx : 0 ≤ x) (hr : 1 ≤ ratio) :
    divideAndDivise x ratio 1 = .ok (max 1 (x / ratio)) := by
  have hq : 0 ≤ x / ratio := Int.ediv_nonneg hx (by omega)
  unfold divideAndDivise pyFloorDiv
  rw [if_neg (by omega), Int.fdiv_eq_ediv_of_nonneg _ (by omega)]
  generalize x / ratio = y at hq
  have hp : pyInt ((y : ℚ) + ((1 : Int) : ℚ) / 2) = y := by
    have h0 : (0 : ℚ) ≤ (y : ℚ) + ((1 : Int) : ℚ) / 2 := by
      have : (0 : ℚ) ≤ (y : ℚ) := by exact_mod_cast hq
      push_cast; linarith
    rw [pyInt_of_nonneg h0, Int.floor_eq_iff]
    constructor <;> push_cast <;> linarith
  unfold makeDivisible pyFloorDiv
  simp only [Option.getD_none, lt_irrefl, if_false, hp]
  rw [if_neg (by omega)]
  simp only [Int.fdiv_one, mul_one]
  rw [if_neg]
  have h1 : (y : ℚ) ≤ ((max 1 y : Int) : ℚ) := by exact_mod_cast le_max_right _ _
  have h2 : (0 : ℚ) ≤ (y : ℚ) := by exact_mod_cast hq
  linarith

end Verif.Derived
