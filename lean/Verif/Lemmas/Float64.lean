import Verif.Float64
import Mathlib.Data.Nat.Log
import Mathlib.Tactic

/-! Lemmas about rounding to doubles. -/

namespace Verif

theorem roundHalfEven_one (n : Nat) : roundHalfEven n 1 = n := by
  unfold roundHalfEven
  simp [Nat.mod_one]

/-- Integers below `2 ^ 53` are doubles. -/
theorem fl64_nat (n : Nat) (h : n < 2 ^ 53) : fl64 (n : ℚ) = n := by
  by_cases h0 : n = 0
  · subst h0
    simp [fl64]
  have hq : ¬ (n : ℚ) ≤ 0 := by
    have : 0 < n := Nat.pos_of_ne_zero h0
    push Not
    exact_mod_cast this
  have hl1 : 2 ^ n.log2 ≤ n := Nat.log2_self_le h0
  have hl2 : n.log2 < 53 := (Nat.log2_lt h0).2 h
  obtain ⟨s, hs⟩ : ∃ s, n.log2 + s = 52 := ⟨52 - n.log2, by omega⟩
  have hs0 : (52 : Int) - ((n.log2 : Int) - ((Nat.log2 1 : Nat) : Int)) = (s : Int) := by
    have : Nat.log2 1 = 0 := by decide
    rw [this]
    omega
  unfold fl64
  rw [if_neg hq]
  dsimp only
  rw [Rat.num_natCast, Rat.den_natCast, Int.toNat_natCast, hs0]
  have hsc : scale2 n 1 (s : Int) = (n * 2 ^ s, 1) := by
    unfold scale2
    rw [if_pos (by omega), Int.toNat_natCast]
  rw [hsc]
  dsimp only
  have hge : ¬ n * 2 ^ s < 2 ^ 52 * 1 := by
    have : 2 ^ 52 = 2 ^ n.log2 * 2 ^ s := by rw [← Nat.pow_add, hs]
    rw [Nat.mul_one, this]
    exact not_lt.2 (Nat.mul_le_mul_right _ hl1)
  rw [if_neg hge, hsc]
  dsimp only
  rw [roundHalfEven_one]
  by_cases hz : s = 0
  · subst hz
    simp [scale2]
  · have : scale2 (n * 2 ^ s) 1 (-(s : Int)) = (n * 2 ^ s, 2 ^ s) := by
      unfold scale2
      rw [if_neg (by omega), neg_neg, Int.toNat_natCast, Nat.one_mul]
    rw [this]
    push_cast
    field_simp

/-- To the nearest integer, halves to the even one. -/
def near (x : ℚ) : Int :=
  if x - ⌊x⌋ < 1 / 2 then ⌊x⌋ else if 1 / 2 < x - ⌊x⌋ then ⌊x⌋ + 1 else if ⌊x⌋ % 2 = 0 then ⌊x⌋ else ⌊x⌋ + 1

theorem near_error (x : ℚ) : |(near x : ℚ) - x| ≤ 1 / 2 := by
  have h1 := Int.floor_le x
  have h2 := Int.lt_floor_add_one x
  unfold near
  rw [abs_le]
  by_cases a : x - ⌊x⌋ < 1 / 2
  · rw [if_pos a]
    constructor <;> linarith
  rw [if_neg a]
  by_cases b : 1 / 2 < x - ⌊x⌋
  · rw [if_pos b]
    push_cast
    constructor <;> linarith
  rw [if_neg b]
  by_cases c : ⌊x⌋ % 2 = 0
  · rw [if_pos c]
    constructor <;> linarith
  · rw [if_neg c]
    push_cast
    constructor <;> linarith

theorem near_mono {x y : ℚ} (h : x ≤ y) : near x ≤ near y := by
  have hf : ⌊x⌋ ≤ ⌊y⌋ := Int.floor_le_floor h
  have hb : ∀ z : ℚ, ⌊z⌋ ≤ near z ∧ near z ≤ ⌊z⌋ + 1 := by
    intro z
    unfold near
    split_ifs <;> omega
  rcases lt_or_eq_of_le hf with hlt | heq
  · have := (hb x).2
    have := (hb y).1
    omega
  · unfold near
    rw [← heq]
    by_cases a : x - ⌊x⌋ < 1 / 2
    · rw [if_pos a]
      split_ifs <;> omega
    · have a' : ¬ y - ⌊x⌋ < 1 / 2 := by
        intro hh
        apply a
        linarith
      rw [if_neg a, if_neg a']
      by_cases b : 1 / 2 < x - ⌊x⌋
      · rw [if_pos b, if_pos (by linarith)]
      · rw [if_neg b]
        split_ifs <;> omega

theorem near_int (n : Int) : near (n : ℚ) = n := by
  unfold near
  simp

theorem roundHalfEven_near (a b : Nat) (hb : 0 < b) : ((roundHalfEven a b : Nat) : Int) = near ((a : ℚ) / b) := by
  have hb' : (0 : ℚ) < b := by exact_mod_cast hb
  have hfl : ⌊(a : ℚ) / b⌋ = ((a / b : Nat) : Int) := by
    rw [Int.floor_eq_iff]
    constructor
    · push_cast
      exact Nat.cast_div_le
    · rw [div_lt_iff₀ hb']
      have := Nat.lt_div_mul_add (a := a) hb
      have h2 : a < (a / b + 1) * b := by rw [Nat.add_mul]; omega
      exact_mod_cast h2
  have hfr : (a : ℚ) / b - ((a / b : Nat) : Int) = ((a % b : Nat) : ℚ) / b := by
    have := Nat.div_add_mod a b
    have h2 : (a : ℚ) = (b : ℚ) * ((a / b : Nat) : ℚ) + ((a % b : Nat) : ℚ) := by exact_mod_cast this.symm
    field_simp
    rw [Int.cast_natCast]
    linarith
  unfold near roundHalfEven
  rw [hfl, hfr]
  dsimp only
  have e1 : ((a % b : Nat) : ℚ) / b < 1 / 2 ↔ 2 * (a % b) < b := by
    rw [div_lt_div_iff₀ hb' (by norm_num)]
    constructor
    · intro h
      have : ((a % b * 2 : Nat) : ℚ) < ((1 * b : Nat) : ℚ) := by push_cast; linarith
      have := Nat.cast_lt.1 this
      omega
    · intro h
      have : ((2 * (a % b) : Nat) : ℚ) < (b : ℚ) := by exact_mod_cast h
      push_cast at this
      linarith
  have e2 : (1 : ℚ) / 2 < ((a % b : Nat) : ℚ) / b ↔ b < 2 * (a % b) := by
    rw [div_lt_div_iff₀ (by norm_num) hb']
    constructor
    · intro h
      have : ((1 * b : Nat) : ℚ) < ((a % b * 2 : Nat) : ℚ) := by push_cast; linarith
      have := Nat.cast_lt.1 this
      omega
    · intro h
      have : (b : ℚ) < ((2 * (a % b) : Nat) : ℚ) := by exact_mod_cast h
      push_cast at this
      linarith
  have e3 : ((a / b : Nat) : Int) % 2 = 0 ↔ a / b % 2 = 0 := by omega
  by_cases c1 : 2 * (a % b) < b
  · rw [if_pos c1, if_pos (e1.2 c1)]
  rw [if_neg c1, if_neg (mt e1.1 c1)]
  by_cases c2 : b < 2 * (a % b)
  · rw [if_pos c2, if_pos (e2.2 c2)]
    push_cast
    rfl
  rw [if_neg c2, if_neg (mt e2.1 c2)]
  by_cases c3 : a / b % 2 = 0
  · rw [if_pos c3, if_pos (e3.2 c3)]
  · rw [if_neg c3, if_neg (mt e3.1 c3)]
    push_cast
    rfl

theorem scale2_val (num den : Nat) (s : Int) (hd : 0 < den) :
    0 < (scale2 num den s).2 ∧ ((scale2 num den s).1 : ℚ) / (scale2 num den s).2 = (num : ℚ) / den * 2 ^ s := by
  have hd' : (den : ℚ) ≠ 0 := by exact_mod_cast hd.ne'
  unfold scale2
  by_cases h : 0 ≤ s
  · obtain ⟨n, rfl⟩ := Int.eq_ofNat_of_zero_le h
    rw [if_pos h]
    refine ⟨hd, ?_⟩
    simp only [Int.ofNat_eq_natCast, Int.toNat_natCast, zpow_natCast]
    push_cast
    ring
  · obtain ⟨n, hn⟩ : ∃ n : Nat, s = -(n : Int) := ⟨(-s).toNat, by omega⟩
    subst hn
    rw [if_neg h]
    refine ⟨by positivity, ?_⟩
    simp only [neg_neg, Int.toNat_natCast, zpow_neg, zpow_natCast]
    push_cast
    field_simp

/-- What rounding to a double does. -/
theorem fl64_spec (q : ℚ) (hq : 0 < q) :
    ∃ s : Int, 2 ^ 52 ≤ q * 2 ^ s ∧ q * 2 ^ s < 2 ^ 53 ∧ fl64 q = (near (q * 2 ^ s) : ℚ) / 2 ^ s := by
  have hnum : 0 < q.num := Rat.num_pos.2 hq
  obtain ⟨n, hn⟩ := Int.eq_ofNat_of_zero_le hnum.le
  have hn0 : n ≠ 0 := by rintro rfl; rw [hn] at hnum; simp at hnum
  have hd0 : q.den ≠ 0 := q.den_nz
  have hval : (n : ℚ) / q.den = q := by
    have := Rat.num_div_den q
    rw [hn, Int.cast_natCast] at this
    exact this
  have a1 : 2 ^ n.log2 ≤ n := Nat.log2_self_le hn0
  have a2 : n < 2 ^ (n.log2 + 1) := Nat.lt_log2_self
  have b1 : 2 ^ q.den.log2 ≤ q.den := Nat.log2_self_le hd0
  have b2 : q.den < 2 ^ (q.den.log2 + 1) := Nat.lt_log2_self
  have hb : 0 < q.den := Nat.pos_of_ne_zero hd0
  set s0 : Int := 52 - ((Nat.log2 n : Int) - (Nat.log2 q.den : Int)) with hs0
  have e0 : q * 2 ^ s0 = ((n : ℚ) / 2 ^ n.log2) / ((q.den : ℚ) / 2 ^ q.den.log2) * 2 ^ 52 := by
    have hd' : (q.den : ℚ) ≠ 0 := by exact_mod_cast hd0
    rw [hs0, zpow_sub₀ (by norm_num), zpow_sub₀ (by norm_num)]
    simp only [zpow_natCast]
    have h52 : ((2 : ℚ) ^ (52 : Int)) = 2 ^ 52 := by norm_num
    have hq' : q * q.den = n := by rw [eq_comm, ← div_eq_iff hd']; exact hval
    rw [h52, ← hq']
    generalize (q.den : ℚ) = d at hd' ⊢
    field_simp
  have p1 : (1 : ℚ) ≤ (n : ℚ) / 2 ^ n.log2 := by
    rw [le_div_iff₀ (by positivity), one_mul]; exact_mod_cast a1
  have p2 : (n : ℚ) / 2 ^ n.log2 < 2 := by
    rw [div_lt_iff₀ (by positivity)]; rw [Nat.pow_succ, Nat.mul_comm] at a2; exact_mod_cast a2
  have p3 : (1 : ℚ) ≤ (q.den : ℚ) / 2 ^ q.den.log2 := by
    rw [le_div_iff₀ (by positivity), one_mul]; exact_mod_cast b1
  have p4 : (q.den : ℚ) / 2 ^ q.den.log2 < 2 := by
    rw [div_lt_iff₀ (by positivity)]; rw [Nat.pow_succ, Nat.mul_comm] at b2; exact_mod_cast b2
  have x1 : 2 ^ 51 < q * 2 ^ s0 := by
    rw [e0]
    have : (1 : ℚ) / 2 < ((n : ℚ) / 2 ^ n.log2) / ((q.den : ℚ) / 2 ^ q.den.log2) := by
      rw [div_lt_div_iff₀ (by norm_num) (by linarith)]
      linarith
    nlinarith
  have x2 : q * 2 ^ s0 < 2 ^ 53 := by
    rw [e0]
    have : ((n : ℚ) / 2 ^ n.log2) / ((q.den : ℚ) / 2 ^ q.den.log2) < 2 := by
      rw [div_lt_iff₀ (by linarith)]
      linarith
    nlinarith
  obtain ⟨v1, v2⟩ := scale2_val n q.den s0 hb
  rw [hval] at v2
  have hcond : (scale2 n q.den s0).1 < 2 ^ 52 * (scale2 n q.den s0).2 ↔ q * 2 ^ s0 < 2 ^ 52 := by
    rw [← v2, div_lt_iff₀ (by exact_mod_cast v1)]
    exact_mod_cast Iff.rfl
  have fin : ∀ t : Int, (((scale2 (roundHalfEven (scale2 n q.den t).1 (scale2 n q.den t).2) 1 (-t)).1 : ℚ) /
      (scale2 (roundHalfEven (scale2 n q.den t).1 (scale2 n q.den t).2) 1 (-t)).2) = (near (q * 2 ^ t) : ℚ) / 2 ^ t := by
    intro t
    obtain ⟨u1, u2⟩ := scale2_val n q.den t hb
    rw [hval] at u2
    rw [(scale2_val _ 1 (-t) (by norm_num)).2, ← u2, ← roundHalfEven_near _ _ u1]
    push_cast
    rw [zpow_neg]
    field_simp
  unfold fl64
  rw [if_neg (by linarith)]
  dsimp only
  rw [hn, Int.toNat_natCast, ← hs0]
  by_cases hc : q * 2 ^ s0 < 2 ^ 52
  · rw [if_pos (hcond.2 hc)]
    refine ⟨s0 + 1, ?_, ?_, fin _⟩
    · rw [zpow_add₀ (by norm_num), zpow_one]; linarith
    · rw [zpow_add₀ (by norm_num), zpow_one]; linarith
  · rw [if_neg (mt hcond.1 hc)]
    exact ⟨s0, by linarith, x2, fin _⟩

/-- The relative error of a double. -/
theorem fl64_error (q : ℚ) (hq : 0 < q) : |fl64 q - q| ≤ q / 2 ^ 53 := by
  obtain ⟨s, h1, _, h3⟩ := fl64_spec q hq
  have hp : (0 : ℚ) < 2 ^ s := by positivity
  have e : fl64 q - q = ((near (q * 2 ^ s) : ℚ) - q * 2 ^ s) / 2 ^ s := by
    rw [h3]
    field_simp
  rw [e, abs_div, abs_of_pos hp, div_le_iff₀ hp]
  have := near_error (q * 2 ^ s)
  have : q / 2 ^ 53 * 2 ^ s = q * 2 ^ s / 2 ^ 53 := by ring
  rw [this]
  have : (1 : ℚ) / 2 ≤ q * 2 ^ s / 2 ^ 53 := by
    rw [le_div_iff₀ (by norm_num)]
    linarith
  linarith

theorem fl64_pos (q : ℚ) (hq : 0 < q) : 0 < fl64 q := by
  have := fl64_error q hq
  rw [abs_le] at this
  have h2 : q / 2 ^ 53 < q := div_lt_self hq (by norm_num)
  linarith [this.1]

theorem near_lower (x : ℚ) (n : Int) (h : (n : ℚ) ≤ x) : n ≤ near x := by
  rw [← near_int n]
  exact near_mono h

theorem near_upper (x : ℚ) (n : Int) (h : x ≤ (n : ℚ)) : near x ≤ n := by
  rw [← near_int n]
  exact near_mono h

/-- Rounding to a double keeps the order. -/
theorem fl64_mono {x y : ℚ} (h : x ≤ y) : fl64 x ≤ fl64 y := by
  by_cases hx : x ≤ 0
  · by_cases hy : y ≤ 0
    · simpa [fl64, hx, hy] using h
    · have := fl64_pos y (by linarith)
      have : fl64 x = x := by simp [fl64, hx]
      linarith
  have hx' : 0 < x := by linarith
  obtain ⟨s, a1, a2, a3⟩ := fl64_spec x hx'
  obtain ⟨t, b1, b2, b3⟩ := fl64_spec y (by linarith)
  have hs : (0 : ℚ) < 2 ^ s := by positivity
  have ht : (0 : ℚ) < 2 ^ t := by positivity
  have hts : t ≤ s := by
    by_contra hlt
    have : (2 : ℚ) ^ (s + 1) ≤ 2 ^ t := zpow_le_zpow_right₀ (by norm_num) (by omega)
    rw [zpow_add₀ (by norm_num), zpow_one] at this
    have : y * (2 ^ s * 2) ≤ y * 2 ^ t := mul_le_mul_of_nonneg_left this (by linarith)
    have : x * 2 ^ s ≤ y * 2 ^ s := mul_le_mul_of_nonneg_right h hs.le
    linarith
  rw [a3, b3]
  rcases eq_or_lt_of_le hts with rfl | hlt
  · apply div_le_div_of_nonneg_right _ hs.le
    exact_mod_cast near_mono (mul_le_mul_of_nonneg_right h hs.le)
  · have u1 : near (x * 2 ^ s) ≤ 2 ^ 53 := near_upper _ _ (by push_cast; linarith)
    have u2 : (2 : Int) ^ 52 ≤ near (y * 2 ^ t) := near_lower _ _ (by push_cast; linarith)
    have u1' : (near (x * 2 ^ s) : ℚ) ≤ 2 ^ 53 := by exact_mod_cast u1
    have u2' : (2 : ℚ) ^ 52 ≤ near (y * 2 ^ t) := by exact_mod_cast u2
    have w : (2 : ℚ) ^ (t + 1) ≤ 2 ^ s := zpow_le_zpow_right₀ (by norm_num) (by omega)
    rw [zpow_add₀ (by norm_num), zpow_one] at w
    rw [div_le_div_iff₀ hs ht]
    nlinarith

end Verif
