import Verif.Lemmas.Expand

/-! C48: expanding the channels of a network. -/
namespace Verif.Expand
open Verif.DynamicOps (select chunks count select_map select_zipWith select_append select_true
  chunks_flatten count_true)

variable {X : Type} [AddCommGroup X]

/-- C48, one convolution or linear layer: expanded with zeroed new weights it
computes, on the old output channels, what it computed before from the old
input channels, whatever the new input channels carry. -/
theorem C48_conv (act : List ℚ → X → X) (bias : ℚ → X) (initW initB : List ℚ)
    (mo mi : List Bool) (l : Layer) (h0 : ∀ x, act (List.replicate l.c 0) x = 0)
    (hl : l.Fits mo mi) :
    ∃ l', expandNormal true initW initB mo mi l = .ok l' ∧
      ∀ x : List X, x.length = mi.length →
        (convForward act bias l' x).length = mo.length ∧
        select mo (convForward act bias l' x) = convForward act bias l (select mi x) :=
  conv_expand act bias initW initB mo mi l h0 hl

/-- C48, depthwise convolutions. -/
theorem C48_depthwise (act : List ℚ → X → X) (bias : ℚ → X) (initW initB : List ℚ)
    (m : List Bool) (l : DwLayer) (hl : l.Fits m) :
    ∃ l', expandDw true initW initB m m l = .ok l' ∧
      ∀ x : List X, x.length = m.length →
        (dwForward act bias l' x).length = m.length ∧
        select m (dwForward act bias l' x) = dwForward act bias l (select m x) :=
  dw_expand act bias initW initB m l hl

/-- C48, batch norms. -/
theorem C48_norm (bn : ℚ → ℚ → ℚ → ℚ → X → X) (initW initB : List ℚ)
    (m : List Bool) (n : Norm) (hn : n.Fits m) :
    ∃ n', expandNorm true initW initB m n = .ok n' ∧
      ∀ x : List X, x.length = m.length →
        (normForward bn n' x).length = m.length ∧
        select m (normForward bn n' x) = normForward bn n (select m x) :=
  norm_expand bn initW initB m n hn

/-- C48, networks: the expansion of a whole network succeeds and computes the
original outputs on the old channels, for every input. -/
theorem C48_network (n : Nat) (init : List ℚ) (e : Net X) (h : e.WF n) :
    ∃ e', e.expand true init = .ok e' ∧
      ∀ x : List X, x.length = n →
        (e'.eval x).length = e.mask.length ∧ select e.mask (e'.eval x) = e.eval x :=
  net_expand n init e h

/-- C48, networks whose last layer is not expanded: the outputs are equal. -/
theorem C48_outputs (n : Nat) (init : List ℚ) (e : Net X) (h : e.WF n)
    (hm : ∀ b ∈ e.mask, b = true) :
    ∃ e', e.expand true init = .ok e' ∧ ∀ x : List X, x.length = n → e'.eval x = e.eval x := by
  obtain ⟨e', he, hx⟩ := net_expand n init e h
  refine ⟨e', he, fun x hn => ?_⟩
  obtain ⟨a, b⟩ := hx x hn
  have : e.mask = List.replicate (e'.eval x).length true :=
    List.eq_replicate_iff.mpr ⟨a.symm, hm⟩
  rw [← b, this, select_true]

/-- C48, what is refused: grouped convolutions that are not depthwise and batch
norms without affine parameters. -/
theorem C48_refused (groups inC outC : Nat) :
    (kindOf groups inC outC = .error .notImplemented ↔
      groups ≠ 1 ∧ ¬ (inC = outC ∧ outC = groups)) := by
  unfold kindOf
  split_ifs with h1 h2
  · simp [h1]
  · simp [h2]
  · simp only [true_iff]; exact ⟨h1, h2⟩

/-- A batch norm without affine parameters is refused. -/
theorem C48_norm_violated (initW initB : List ℚ) (m : List Bool) (n : Norm) (zero : Bool)
    (h1 : n.mean.length = count m) (h2 : n.var.length = count m) (h : n.affine = none) :
    expandNorm zero initW initB m n = .error .attribute := by
  simp only [expandNorm, expandBias_eq _ m _ h1, expandBias_eq _ m _ h2, bind, Except.bind, h]

/-- C48, rounding: a unit of `n` channels ends with the smallest multiple of the
divisor that is at least `n`, its old channels first. -/
theorem C48_divisible (d n : Nat) (hd : 0 < d) :
    ∃ k, makeDivisible d n (List.replicate n true) =
        .ok (List.replicate n true ++ List.replicate k false) ∧
      d ∣ n + k ∧ ∀ t, d ∣ t → n ≤ t → n + k ≤ t := by
  have hc : (List.replicate n true).count true = n := by simp
  simp only [makeDivisible, divisibleWidth, hc, if_neg (Nat.pos_iff_ne_zero.mp hd)]
  by_cases hm : n % d = 0
  · refine ⟨0, ?_, ?_, ?_⟩
    · simp [hm, bind, Except.bind, pure, Except.pure]
    · simpa using Nat.dvd_of_mod_eq_zero hm
    · intro t _ h; simpa using h
  · have hlt : n < (n / d + 1) * d := by
      have := Nat.lt_div_mul_add hd (a := n)
      rw [Nat.add_mul, one_mul]; exact this
    refine ⟨(n / d + 1) * d - n, ?_, ?_, ?_⟩
    · rw [if_neg hm, max_eq_left hlt.le]
      simp only [bind, Except.bind, expandTo, expandUnit]
      rw [if_neg (by omega)]
      congr 3
      omega
    · rw [Nat.add_sub_cancel' hlt.le]; exact ⟨_, Nat.mul_comm _ _⟩
    · rintro t ⟨q, rfl⟩ hle
      rw [Nat.add_sub_cancel' hlt.le, Nat.mul_comm d q]
      apply Nat.mul_le_mul_right
      by_contra hq
      have hq : q ≤ n / d := by omega
      have h1 : d * q ≤ d * (n / d) := Nat.mul_le_mul_left d hq
      have h2 : d * (n / d) + n % d = n := Nat.div_add_mod n d
      omega

/-- C48, errors: a zero divisor and a unit asked to shrink are refused. -/
theorem C48_errors (n : Nat) (mask : List Bool) :
    makeDivisible 0 n mask = .error .zeroDivision ∧
    (∀ t : Int, t < n → expandTo n t mask = .error .runtime) := by
  refine ⟨by simp [makeDivisible, divisibleWidth, bind, Except.bind], ?_⟩
  intro t ht
  simp only [expandTo, expandUnit]; rw [if_pos (by omega)]

/-- C48, expanding a unit twice: the second target is counted from the original
width, so the unit gets wider than asked. -/
theorem C48_twice_violated (n a b : Nat) (ha : n ≤ a) (hb : n ≤ b) :
    ((expandTo n a (List.replicate n true) >>= expandTo n b).map List.length =
      .ok (a + (b - n))) := by
  simp only [expandTo, expandUnit]
  rw [if_neg (by omega)]
  simp only [bind, Except.bind, expandTo, expandUnit]
  rw [if_neg (by omega)]
  simp only [Except.map, List.length_append, List.length_replicate]
  congr 1
  omega

/-- C48 fails for a unit that was pruned before it is expanded: the weights are
taken in order from the unpruned layer, so the remaining channel gets the
weights of a pruned one. -/
theorem C48_pruned_violated :
    ∃ (l l' : Layer) (mo : List Bool),
      expandNormal true [] [] (mo ++ [false]) [true] l = .ok l' ∧
      select (mo ++ [false]) (convForward (fun k x => k.sum * x) (fun b => b) l' [(1 : ℚ)]) ≠
        select mo (convForward (fun k x => k.sum * x) (fun b => b) l [(1 : ℚ)]) := by
  refine ⟨⟨1, [[[2]], [[3]]], none⟩, ⟨1, [[[0]], [[2]], [[0]]], none⟩, [false, true], ?_, ?_⟩
  · decide +kernel
  · decide +kernel

example : demo.WF 2 ∧ (∀ b ∈ demo.mask, b = true) := by
  constructor
  · simp [demo, Net.WF, Layer.Fits, Norm.Fits, count, Net.mask, List.replicate]
  · decide

example : demo.eval [1, 1] = [16] ∧
    (demo.expand true []).map (·.eval [1, 1]) = .ok [16] := by decide +kernel

/-- C48, too few old weights: copying succeeds exactly when there are as many old elements as
places for them; more are not an error. -/
theorem C48_short {α : Type} (m : List Bool) (src base : List α) (hb : base.length = m.length) :
    ((∃ r, scatter m src base = .ok r) ↔ m.count true ≤ src.length) ∧
    (src.length < m.count true → scatter m src base = .error .runtime) := by
  induction m generalizing src base with
  | nil =>
    obtain rfl := List.length_eq_zero_iff.1 hb
    exact ⟨by simp [scatter], by simp⟩
  | cons b m ih =>
    obtain ⟨x, base, rfl⟩ : ∃ x l, base = x :: l := by
      cases base with
      | nil => simp at hb
      | cons x l => exact ⟨x, l, rfl⟩
    simp only [List.length_cons, Nat.add_right_cancel_iff] at hb
    cases b with
    | false =>
      obtain ⟨i1, i2⟩ := ih src base hb
      have hc : (false :: m).count true = m.count true := by simp
      rw [hc, scatter, ← i1]
      refine ⟨?_, fun h => by rw [i2 h]; rfl⟩
      cases scatter m src base <;> simp [Functor.map, Except.map]
    | true =>
      have hc : (true :: m).count true = m.count true + 1 := by simp
      rw [hc]
      cases src with
      | nil => simp [scatter]
      | cons s src =>
        obtain ⟨i1, i2⟩ := ih src base hb
        rw [List.length_cons, Nat.add_le_add_iff_right, Nat.add_lt_add_iff_right, scatter, ← i1]
        refine ⟨?_, fun h => by rw [i2 h]; rfl⟩
        cases scatter m src base <;> simp [Functor.map, Except.map]

/-- C48, a depthwise convolution must keep as many inputs as outputs. -/
theorem C48_depthwise_refused (zero : Bool) (initW initB : List ℚ) (mo mi : List Bool) (l : DwLayer) (h : mi.length ≠ mo.length) :
    expandDw zero initW initB mo mi l = .error .assertion := by
  unfold expandDw
  rw [if_pos h]

example : scatter [true, false, true] [1] [0, 0, 0] = .error .runtime ∧
    scatter [true, false, true] [1, 2] [0, 0, 0] = .ok [1, 0, 2] := by decide +kernel

/-- What the layers compute, channel by channel. -/
theorem C48_forward (act : List ℚ → X → X) (bias : ℚ → X) (bn : ℚ → ℚ → ℚ → ℚ → X → X) (x : List X) (i : Nat) :
    (∀ (l : Layer) row, l.w[i]? = some row → l.b = none →
      (convForward act bias l x)[i]? = some (List.zipWith act row x).sum) ∧
    (∀ (l : Layer) row b t, l.w[i]? = some row → l.b = some b → b[i]? = some t →
      (convForward act bias l x)[i]? = some ((List.zipWith act row x).sum + bias t)) ∧
    (∀ (l : DwLayer) row b t v, l.w[i]? = some row → l.b = some b → b[i]? = some t → x[i]? = some v →
      (dwForward act bias l x)[i]? = some (act row v + bias t)) ∧
    (∀ (n : Norm) m s v, n.mean[i]? = some m → n.var[i]? = some s → x[i]? = some v → n.affine = none →
      (normForward bn n x)[i]? = some (bn 1 0 m s v)) ∧
    (∀ (n : Norm) m s v ws bs w b, n.mean[i]? = some m → n.var[i]? = some s → x[i]? = some v → n.affine = some (ws, bs) →
      ws[i]? = some w → bs[i]? = some b → (normForward bn n x)[i]? = some (bn w b m s v)) := by
  refine ⟨?_, ?_, ?_, ?_, ?_⟩
  · intro l row h1 h2
    simp [convForward, h1, h2]
  · intro l row b t h1 h2 h3
    simp [convForward, h1, h2, h3, List.getElem?_zipWith]
  · intro l row b t v h1 h2 h3 h4
    simp [dwForward, h1, h2, h3, h4, List.getElem?_zipWith]
  · intro n m s v h1 h2 h3 h4
    have hs : (n.mean.zip n.var)[i]? = some (m, s) := by simp [List.zip, List.getElem?_zipWith, h1, h2]
    simp only [normForward, h4]
    simp [List.getElem?_zipWith, List.zip, h1, h2, h3]
  · intro n m s v ws bs w b h1 h2 h3 h4 h5 h6
    simp only [normForward, h4]
    simp [List.getElem?_zipWith, List.zip, h1, h2, h3, h5, h6]

/-- The sum of two branches is taken channel by channel. -/
theorem C48_sum (e e' : Net X) (x : List X) (i : Nat) (u v : X) (h : (e.eval x)[i]? = some u) (h' : (e'.eval x)[i]? = some v) :
    ((Net.add e e').eval x)[i]? = some (u + v) := by
  simp [Net.eval, List.getElem?_zipWith, h, h']

end Verif.Expand
