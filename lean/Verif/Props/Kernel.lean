import Verif.Lemmas.Kernel

namespace Verif.Kernel
open Verif DynamicOps

variable {R : Type}

/-- Choosing an odd size not above the (odd) largest: the kernel used has that size, its
entries are the centred ones of the full kernel, and the padding is half the size. -/
theorem C29_centre [Zero R] (l : Layer R) (sizes : List Nat) (t : Nat) (hw : Square l.size l.weight)
    (hs : l.sizes = some sizes) (hc : l.choice = some t) (ho : l.size % 2 = 1) (ht : t % 2 = 1) (hle : t ≤ l.size) :
    ∃ w, l.params = .ok (w, t / 2) ∧ Square t w ∧
      ∀ u < t, ∀ v < t, at' w u v = at' l.weight ((l.size - t) / 2 + u) ((l.size - t) / 2 + v) := by
  unfold Layer.params
  simp only [hs, hc, samePadding, ht, if_true, bind, Except.bind]
  split
  · rename_i he
    subst he
    refine ⟨l.weight, rfl, hw, ?_⟩
    intro u _ v _
    simp
  · obtain ⟨e1, e2⟩ := odd_div l.size t ho ht hle
    rw [kernelPos, if_neg (by omega), e1, e2]
    refine ⟨_, rfl, ?_, ?_⟩
    · have := crop_square (a := (l.size - t) / 2) (b := (l.size - t) / 2 + t) hw (by omega)
      rwa [Nat.add_sub_cancel_left] at this
    · intro u hu v hv
      exact at'_crop _ _ _ _ _ (by omega) (by omega)

/-- With dilation 1, for every stride, input and position: the layer with the chosen size
gives what the full kernel with its own same padding gives when everything outside the
centre is zero. Missing: dilation, see `C29_dilated_values_violated`. -/
theorem C29_values_partial [Semiring R] (l : Layer R) (sizes : List Nat) (t : Nat) (hw : Square l.size l.weight)
    (hs : l.sizes = some sizes) (hc : l.choice = some t) (ho : l.size % 2 = 1) (ht : t % 2 = 1) (hle : t ≤ l.size)
    (w : List (List R)) (p : Nat) (hp : l.params = .ok (w, p)) (stride : Nat) (x : Int → Int → R) (i j : Nat) :
    conv2 w t p stride 1 x i j = conv2 (centreOnly l.size t l.weight) l.size (l.size / 2) stride 1 x i j := by
  obtain ⟨w', hp', _, hat⟩ := C29_centre l sizes t hw hs hc ho ht hle
  rw [hp'] at hp
  simp only [Except.ok.injEq, Prod.mk.injEq] at hp
  obtain ⟨rfl, rfl⟩ := hp
  unfold conv2
  set a := (l.size - t) / 2 with ha
  have hat' : ∀ u < t, ∀ v < t, at' w' u v = at' l.weight (a + u) (a + v) := hat
  have h1 : a + t ≤ l.size := by omega
  have h2 : a + t / 2 = l.size / 2 := by omega
  rw [sum_window _ l.size a t h1 (by
    intro u _ hn
    apply Finset.sum_eq_zero
    intro v _
    rw [at'_centre, if_neg (by rintro ⟨h, h', _⟩; exact hn ⟨h, h'⟩), zero_mul])]
  apply Finset.sum_congr rfl
  intro u hu
  rw [sum_window _ l.size a t h1 (by
    intro v _ hn
    rw [at'_centre, if_neg (by rintro ⟨_, _, h, h'⟩; exact hn ⟨h, h'⟩), zero_mul])]
  apply Finset.sum_congr rfl
  intro v hv
  simp only [Finset.mem_range] at hu hv
  rw [at'_centre, if_pos (by omega), hat' u hu v hv]
  congr 2
  · push_cast; omega
  · push_cast; omega

/-- With dilation 1 the output size is that of the full kernel with its own same padding,
namely the input size divided by the stride and rounded up, for every odd size. Missing: dilation, see `C29_dilation_violated`,
and layers with another padding of their own, see `C29_own_padding_violated`. -/
theorem C29_size_partial (h stride t : Nat) (ht : t % 2 = 1) (hs : 0 < stride) :
    outSize h t (2 * (t / 2)) stride 1 = ((h + stride - 1) / stride : Nat) := by
  rw [← ceil_div h stride hs]
  unfold outSize
  congr 2
  have : 2 * (t / 2) + 1 = t := by omega
  push_cast
  omega

/-- With dilation 2 the size depends on the chosen kernel: the padding does not take the
dilation into account. -/
theorem C29_dilation_violated : outSize 14 3 (2 * (3 / 2)) 1 2 = 12 ∧ outSize 14 5 (2 * (5 / 2)) 1 2 = 10 := by
  constructor <;> decide

/-- Registering a search space replaces the layer's own padding, even at the largest size:
a layer of size 3 without padding gives another output size. -/
theorem C29_own_padding_violated :
    ∃ l l' : Layer Nat, l.register id [1, 3] (some 3) = .ok l' ∧ l.params = .ok (l.weight, 0) ∧
      l'.params = .ok (l.weight, 1) ∧ outSize 14 3 (2 * 0) 1 1 = 12 ∧ outSize 14 3 (2 * 1) 1 1 = 14 :=
  ⟨⟨3, 0, [[1, 2, 3], [4, 5, 6], [7, 8, 9]], none, none⟩, _, rfl, rfl, rfl, by decide, by decide⟩

/-- An even choice is refused, a missing choice too, and one above the largest size. -/
theorem C29_refused (l : Layer R) (sizes : List Nat) (hs : l.sizes = some sizes) :
    (l.choice = none → l.params = .error .runtime) ∧
    (∀ t, l.choice = some t → t % 2 = 0 → l.params = .error .assertion) ∧
    (∀ t, l.choice = some t → l.size < t → l.params = .error .assertion) := by
  refine ⟨fun h => by simp [Layer.params, hs, h], ?_, ?_⟩
  · intro t h ht
    simp [Layer.params, hs, h, samePadding, show t % 2 ≠ 1 by omega, bind, Except.bind]
  · intro t h ht
    by_cases ho : t % 2 = 1
    · simp [Layer.params, hs, h, samePadding, ho, bind, Except.bind, show t ≠ l.size by omega, kernelPos, ht]
    · simp [Layer.params, hs, h, samePadding, ho, bind, Except.bind]

/-- Registering is refused unless the largest choice is the size of the layer. -/
theorem C29_register (l : Layer R) (sorted : List Nat → List Nat) (cs : List Nat) (c : Option Nat) :
    (sorted cs = [] → l.register sorted cs c = .error .value) ∧
    (∀ m, (sorted cs).getLast? = some m → m ≠ l.size → l.register sorted cs c = .error .value) ∧
    (∀ l', l.register sorted cs c = .ok l' → l'.weight = l.weight ∧ l'.sizes = some (sorted cs) ∧ l'.choice = c ∧
      (sorted cs).getLast? = some l.size) := by
  refine ⟨fun h => by simp [Layer.register, h], fun m h hm => by simp [Layer.register, h, hm], ?_⟩
  intro l' h
  unfold Layer.register at h
  split at h
  · simp at h
  · rename_i m hm
    split at h
    · simp at h
    · rename_i he
      push Not at he
      simp only [Except.ok.injEq] at h
      subst h
      exact ⟨rfl, rfl, rfl, by rw [hm, he]⟩

/-- With the matrices it is registered with, the layer with transformed kernels uses the
centred entries too, whichever sizes lie in between. -/
theorem C29_transformed [Semiring R] (l : Layer R) (sizes : List Nat) (t : Nat) (hw : Square l.size l.weight)
    (hs : l.sizes = some sizes) (hc : l.choice = some t) (hd : sizes.reverse.Pairwise (· > ·))
    (hlast : sizes.getLast? = some l.size) (ho : ∀ k ∈ sizes, k % 2 = 1) (hm : t ∈ sizes) :
    l.ofaParams (fun _ tar => eye (tar * tar)) = l.params := by
  have ht : t % 2 = 1 := ho t hm
  unfold Layer.ofaParams Layer.params
  simp only [hs, hc, samePadding, ht, if_true, bind, Except.bind]
  split
  · rfl
  · rename_i hne
    have hrev : ∃ rest, sizes.reverse = l.size :: rest := by
      rw [← List.head?_reverse] at hlast
      cases h : sizes.reverse with
      | nil => rw [h] at hlast; simp at hlast
      | cons a r => rw [h] at hlast; simp at hlast; exact ⟨r, by rw [hlast]⟩
    obtain ⟨rest, hr⟩ := hrev
    have hmem : t ∈ l.size :: rest := by rw [← hr]; simpa using hm
    have hle : t ≤ l.size := by
      rcases List.mem_cons.1 hmem with h | h
      · omega
      · rw [hr] at hd; exact le_of_lt ((List.pairwise_cons.1 hd).1 t h)
    rw [hr] at hd
    rw [hr, shrink_eye t ht rest l.size l.weight hw hd (fun k hk => ho k (by
      rw [← List.mem_reverse, hr]; exact hk)) hmem, kernelPos, if_neg (by omega)]

/-- Adaptive padding, for a layer without own padding (which is how it is converted):
for every input size, kernel, stride and dilation the output size is the input size
divided by the stride, rounded up; the two sides differ by at most one. Missing: layers with a padding of their own, see
`C29_adaptive_violated`. -/
theorem C29_adaptive_partial (h k stride dil : Nat) (hk : 0 < k) (hs : 0 < stride) (hh : 0 < h) :
    adaptiveOut h k 0 stride dil = ((h + stride - 1) / stride : Nat) ∧
    (adaptivePad h k stride dil).1 ≤ (adaptivePad h k stride dil).2 ∧
    (adaptivePad h k stride dil).2 ≤ (adaptivePad h k stride dil).1 + 1 := by
  have hc := ceil_div h stride hs
  obtain ⟨o, ho⟩ : ∃ o, (h + stride - 1) / stride = o := ⟨_, rfl⟩
  have hb1 : o * stride ≤ h + stride - 1 := by rw [← ho]; exact Nat.div_mul_le_self _ _
  have hb2 : h + stride - 1 < (o + 1) * stride := by
    rw [← ho, Nat.add_mul, one_mul, ← Nat.mul_comm]; exact Nat.lt_mul_div_succ _ hs |>.trans_eq (by ring)
  refine ⟨?_, ?_, ?_⟩
  · unfold adaptiveOut adaptivePad outSize
    simp only [ho]
    set e : Int := ((o : Int) - 1) * stride + ((k : Int) - 1) * dil + 1 - h with he
    have hpad : (((max e 0).toNat / 2 + ((max e 0).toNat - (max e 0).toNat / 2) + 2 * 0 : Nat) : Int) = max e 0 := by
      have h1 : ((max e 0).toNat : Int) = max e 0 := Int.toNat_of_nonneg (le_max_right _ _)
      omega
    rw [hpad, Int.fdiv_eq_ediv_of_nonneg _ (by omega)]
    have hb1' : (o : Int) * stride ≤ h + stride - 1 := by
      have : ((o * stride : Nat) : Int) ≤ ((h + stride - 1 : Nat) : Int) := by exact_mod_cast hb1
      push_cast at this; omega
    have hb2' : (h : Int) + stride - 1 < (o + 1) * stride := by
      have : ((h + stride - 1 : Nat) : Int) < (((o + 1) * stride : Nat) : Int) := by exact_mod_cast hb2
      push_cast at this; omega
    have hsp : (0 : Int) < stride := by exact_mod_cast hs
    suffices hq : ((h : Int) + max e 0 - dil * ((k : Int) - 1) - 1) / stride = o - 1 by rw [hq]; ring
    have hkd : (0 : Int) ≤ ((k : Int) - 1) * dil := mul_nonneg (by omega) (by omega)
    rw [Int.ediv_eq_iff_of_pos hsp]
    rcases le_total e 0 with h0 | h0
    · rw [max_eq_right h0]
      constructor
      · nlinarith
      · nlinarith
    · rw [max_eq_left h0]
      constructor
      · nlinarith
      · nlinarith
  · unfold adaptivePad; simp only []; omega
  · unfold adaptivePad; simp only []; omega

/-- A layer built with a padding of its own pads twice; the exported layer (whose
constructor ignores the padding) does not. -/
theorem C29_adaptive_violated : adaptiveOut 14 3 1 2 1 = 8 ∧ adaptiveOut 14 3 0 2 1 = 7 := by
  constructor <;> decide

example : Square k5.size k5.weight ∧ k5.params = .ok ([[7, 8, 9], [12, 13, 14], [17, 18, 19]], 1) ∧
    [1, 3, 5].reverse.Pairwise (· > ·) ∧ ({ k5 with choice := some 1 }).params = .ok ([[13]], 0) ∧
    ({ k5 with choice := some 1 }).ofaParams (fun _ tar => eye (tar * tar)) = .ok ([[13]], 0) := by
  refine ⟨⟨rfl, by decide⟩, by decide, by decide, by decide, by decide⟩

example : outSize 15 3 (2 * (3 / 2)) 2 1 = 8 ∧ adaptiveOut 15 3 0 2 1 = 8 ∧ adaptiveOut 4 1 0 3 1 = 2 := by decide

/-- A stride picks the values of the convolution without stride. -/
theorem C29_stride [Semiring R] (w : List (List R)) (k pad stride dil : Nat) (x : Int → Int → R) (i j : Nat) :
    conv2 w k pad stride dil x i j = conv2 w k pad 1 dil x (i * stride) (j * stride) := by
  unfold conv2
  simp only [Nat.mul_one]

/-- Violated with dilation: the padding is half the size whatever the dilation, so a smaller size looks
at a shifted part of the input: with dilation 2 a kernel of one entry (taken from a kernel of three) gives
the input at the same place, the kernel of three with only its centre gives it one place further on. -/
theorem C29_dilated_values_violated :
    let l : Layer Int := ⟨3, 1, [[0, 0, 0], [0, 1, 0], [0, 0, 0]], some [1, 3], some 1⟩
    let x : Int → Int → Int := fun a b => 10 * a + b
    l.params = .ok ([[1]], 0) ∧ conv2 [[1]] 1 0 1 2 x 4 4 = 44 ∧
    conv2 (centreOnly 3 1 l.weight) 3 (3 / 2) 1 2 x 4 4 = 55 := by
  decide +kernel

/-- Transformed kernels: a missing choice and an even one are refused as for plain ones. -/
theorem C29_transformed_refused [Semiring R] (trans : Nat → Nat → List (List R)) (l : Layer R) (sizes : List Nat)
    (hs : l.sizes = some sizes) :
    (l.choice = none → l.ofaParams trans = .error .runtime) ∧
    (∀ t, l.choice = some t → t % 2 = 0 → l.ofaParams trans = .error .assertion) := by
  refine ⟨fun h => by simp [Layer.ofaParams, hs, h], fun t h ht => ?_⟩
  simp [Layer.ofaParams, hs, h, samePadding, show t % 2 ≠ 1 by omega, bind, Except.bind]

end Verif.Kernel
