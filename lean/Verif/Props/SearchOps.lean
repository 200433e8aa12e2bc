import Verif.Lemmas.SearchOps

namespace Verif.SearchOps
open Verif

/-! ## Specification -/

/-! ## Lemmas -/

/-! ## Properties -/

/-- C77: blocks of MobileNet.  Every candidate with an odd kernel, whatever its
kernel, expand ratio and squeeze-and-excitation, and the identity, fits every
place of a network: it turns `cin` into `cout` channels and divides the sizes by
the stride, rounding up. -/
theorem C77_mobile {cin cout s : ℕ} (hs : s = 1 ∨ s = 2) {x : Shape} (hc : x.c = cin)
    (hh : 1 ≤ x.h) (hw : 1 ≤ x.w) :
    (∀ k e se, k % 2 = 1 → Fits (.mb k e se false) cin cout s x)
    ∧ Fits .identity cin cout s x :=
  mobile_fits hs hc hh hw

example : Fits (.mb 5 6 true false) 16 24 2 ⟨16, 57, 56⟩ :=
  (C77_mobile (x := ⟨16, 57, 56⟩) (Or.inr rfl) rfl (by decide) (by decide)).1 _ _ _ rfl

/-- C77, DISAGREEMENT: an even kernel is accepted, but makes the feature map one
larger in each direction: with stride 1 such a candidate does not fit, and where
input and output are added the block fails. -/
theorem C77_even_kernel_violated {cin cout k e : ℕ} {se : Bool} (hk : k % 2 = 0) (hk0 : 1 ≤ k)
    {x : Shape} (hc : x.c = cin) (hh : 2 ≤ x.h) (hw : 2 ≤ x.w) :
    Op.make cin cout 1 (.mb k e se false) = .ok ()
    ∧ (cin ≠ cout → Op.run cin cout 1 (.mb k e se false) x = .ok ⟨cout, x.h + 1, x.w + 1⟩)
    ∧ Op.run cin cin 1 (.mb k e se false) x = .error .runtime := by
  have e1 : opt (cin * e ≠ cin) (conv cin (cin * e) 1 1 0 1) x
      = .ok ⟨cin * e, x.h, x.w⟩ := by
    by_cases h : cin * e = cin
    · have : decide (cin * e ≠ cin) = false := by simpa using h
      rw [this, h, ← hc]; rfl
    · have : decide (cin * e ≠ cin) = true := by simpa using h
      rw [this]; exact conv_one hc (by omega) (by omega)
  have ew : ∀ n, 2 ≤ n → win k 1 (k / 2) 1 n = .ok (n + 1) := by
    intro n hn
    unfold win
    rw [if_neg (by omega), Nat.div_one]
    exact congrArg Except.ok (by omega)
  have e2 : conv (cin * e) (cin * e) k 1 (k / 2) 1 ⟨cin * e, x.h, x.w⟩
      = .ok ⟨cin * e, x.h + 1, x.w + 1⟩ := by
    unfold conv
    rw [if_pos rfl, ew _ hh, ew _ hw]; rfl
  have e3 : opt se (keep (cin * e)) ⟨cin * e, x.h + 1, x.w + 1⟩
      = .ok ⟨cin * e, x.h + 1, x.w + 1⟩ := by
    cases se with
    | true => exact keep_ok _ _ _
    | false => rfl
  have e4 : ∀ c, conv (cin * e) c 1 1 0 1 ⟨cin * e, x.h + 1, x.w + 1⟩
      = .ok ⟨c, x.h + 1, x.w + 1⟩ := fun c => conv_one rfl (by simp) (by simp)
  refine ⟨rfl, fun hne => ?_, ?_⟩
  · show mbRun _ _ _ _ _ _ _ _ _ _ = _
    unfold mbRun
    dsimp only
    rw [e1]
    dsimp only [bind, Except.bind]
    rw [e2]
    dsimp only
    rw [e3]
    dsimp only
    rw [e4]
    dsimp only
    rw [if_neg (by simp [hne]), if_neg (by decide)]
  · show mbRun _ _ _ _ _ _ _ _ _ _ = _
    unfold mbRun
    dsimp only
    rw [e1]
    dsimp only [bind, Except.bind]
    rw [e2]
    dsimp only
    rw [e3]
    dsimp only
    rw [e4]
    dsimp only
    rw [if_pos (by simp)]
    unfold add bdim
    rw [if_pos hc, if_neg (by show ¬ x.h = x.h + 1; omega), if_neg (by omega),
      if_neg (by show ¬ x.h + 1 = 1; omega)]; rfl

example : Op.run 8 8 1 (.mb 4 6 false false) ⟨8, 14, 14⟩ = .error .runtime :=
  (C77_even_kernel_violated (cout := 8) (k := 4) (x := ⟨8, 14, 14⟩) rfl (by decide) rfl (by decide) (by decide)).2.2

/-- C77 (partial): blocks with the shortcut of AttentiveNAS fit on every feature
map whose height and width are both even or both odd (or with stride 1). Missing: maps of an even and an odd side, see
`C77_attentive_violated`. -/
theorem C77_attentive_partial {cin cout s k e : ℕ} {se : Bool} (hs : s = 1 ∨ s = 2)
    (hk : k % 2 = 1) {x : Shape} (hc : x.c = cin) (hh : 1 ≤ x.h) (hw : 1 ≤ x.w)
    (hp : s = 2 → x.h % 2 = x.w % 2) : Fits (.mb k e se true) cin cout s x := by
  refine ⟨if_pos hs, mbRun_ok hs hk hc hh hw ?_ ?_ ?_⟩
  · intro h; simpa using h
  · intro h
    have := of_decide_eq_true h
    exact absurd this.2.2 (by decide)
  · intro _ _; exact hp

example : Fits (.mb 3 4 true true) 24 40 2 ⟨24, 57, 55⟩ :=
  C77_attentive_partial (x := ⟨24, 57, 55⟩) (Or.inr rfl) rfl rfl (by decide) (by decide)
    (fun _ => rfl)

/-- C77, DISAGREEMENT: with stride 2 the shortcut pads height and width by the
parity of the width alone.  If only one of them is odd, the block fails on every
feature map of height at least four; a height of two or three gives a wrong
shape or another broadcast result instead of ⌈h / 2⌉ rows. -/
theorem C77_attentive_violated {cin cout k e : ℕ} {se : Bool} (hk : k % 2 = 1)
    {x : Shape} (hc : x.c = cin) (hh : 4 ≤ x.h) (hw : 2 ≤ x.w) (hp : x.h % 2 ≠ x.w % 2) :
    Op.make cin cout 2 (.mb k e se true) = .ok ()
    ∧ Op.run cin cout 2 (.mb k e se true) x = .error .runtime := by
  have e1 : opt (cin * e ≠ cin) (conv cin (cin * e) 1 1 0 1) x
      = .ok ⟨cin * e, x.h, x.w⟩ := by
    by_cases h : cin * e = cin
    · have : decide (cin * e ≠ cin) = false := by simpa using h
      rw [this, h, ← hc]; rfl
    · have : decide (cin * e ≠ cin) = true := by simpa using h
      rw [this]; exact conv_one hc (by omega) (by omega)
  have e2 : conv (cin * e) (cin * e) k 2 (k / 2) 1 ⟨cin * e, x.h, x.w⟩
      = .ok (expected (cin * e) 2 x) :=
    conv_same hk (by omega) rfl (show 1 ≤ x.h by omega) (show 1 ≤ x.w by omega)
  have e3 : opt se (keep (cin * e)) (expected (cin * e) 2 x) = .ok (expected (cin * e) 2 x) := by
    cases se with
    | true => exact keep_ok _ _ _
    | false => rfl
  have e4 : conv (cin * e) cout 1 1 0 1 (expected (cin * e) 2 x) = .ok (expected cout 2 x) :=
    conv_one rfl (up_pos (by omega) (by omega)) (up_pos (by omega) (by omega))
  have ex : ∃ h' w', h' ≠ up x.h 2 ∧ 2 ≤ h' ∧ shortcut cin cout 2 x = .ok ⟨cout, h', w'⟩ := by
    refine ⟨(x.h + 2 * (x.w % 2) - 2) / 2 + 1, (x.w + 2 * (x.w % 2) - 2) / 2 + 1, ?_, ?_, ?_⟩
    · unfold up
      rcases Nat.mod_two_eq_zero_or_one x.w with h | h <;> rw [h] at hp ⊢ <;> omega
    · rcases Nat.mod_two_eq_zero_or_one x.w with h | h <;> rw [h] <;> omega
    · have ep : opt (1 < 2) (pool 2 2 (x.w % 2)) x
          = .ok ⟨x.c, (x.h + 2 * (x.w % 2) - 2) / 2 + 1, (x.w + 2 * (x.w % 2) - 2) / 2 + 1⟩ := by
        show pool 2 2 (x.w % 2) x = _
        unfold pool win
        rw [if_neg (by omega), if_neg (by omega)]; rfl
      unfold shortcut
      rw [ep]
      dsimp only [bind, Except.bind]
      by_cases h : cin = cout
      · have hd : decide (cin ≠ cout) = false := by simpa using h
        rw [hd, hc, h]; rfl
      · have hd : decide (cin ≠ cout) = true := by simpa using h
        rw [hd]
        exact conv_one hc (by simp) (by simp)
  obtain ⟨h', w', hne, h2, es⟩ := ex
  refine ⟨rfl, ?_⟩
  show mbRun _ _ _ _ _ _ _ _ _ _ = _
  unfold mbRun
  dsimp only
  rw [e1]
  dsimp only [bind, Except.bind]
  rw [e2]
  dsimp only
  rw [e3]
  dsimp only
  rw [e4]
  dsimp only
  rw [if_neg (by simp), if_pos rfl, es]
  dsimp only
  have hu : 2 ≤ up x.h 2 := by unfold up; omega
  unfold add bdim expected
  rw [if_pos rfl, if_neg hne, if_neg (by show ¬ h' = 1; omega),
    if_neg (by show ¬ up x.h 2 = 1; omega)]; rfl

example : Op.run 24 40 2 (.mb 3 4 true true) ⟨24, 57, 56⟩ = .error .runtime :=
  (C77_attentive_violated (x := ⟨24, 57, 56⟩) rfl rfl (by decide) (by decide) (by decide)).2

example : Op.run 24 24 2 (.mb 3 4 true true) ⟨24, 2, 3⟩ = .ok ⟨24, 2, 2⟩ := by decide

/-- C77 (partial): units of ShuffleNet.  Every candidate that the constructor
accepts gives twice half of the configured channels, so the configured channels
if their number is even, and divides the sizes by the stride; with stride 1 it
is accepted exactly if it keeps the number of channels. Missing: odd numbers of channels, see `C77_shuffle_violated`. -/
theorem C77_shuffle_partial {op : Op}
    (hop : op = .shuffle 3 ∨ op = .shuffle 5 ∨ op = .shuffle 7 ∨ op = .xception)
    {cin cout s : ℕ} (hs : 1 ≤ s) {x : Shape} (hc : x.c = cin) (hh : 1 ≤ x.h) (hw : 1 ≤ x.w) :
    (op.make cin cout s = .ok () ↔ (s = 1 → cin = cout / 2 * 2))
    ∧ ((s = 1 → cin = cout / 2 * 2) →
      op.run cin cout s x = .ok (expected (cout / 2 * 2) s x)) :=
  shuffle_fits hop hs hc hh hw

example : Fits .xception 64 160 2 ⟨64, 28, 28⟩ :=
  let h := C77_shuffle_partial (op := .xception) (cin := 64) (cout := 160) (s := 2)
    (x := ⟨64, 28, 28⟩) (Or.inr (Or.inr (Or.inr rfl)))
    (by decide) rfl (by decide) (by decide)
  ⟨h.1.2 (fun e => absurd e (by decide)), h.2 (fun e => absurd e (by decide))⟩

/-- C77, DISAGREEMENT: an odd number of output channels is accepted with stride
2, but the unit then gives one channel less than configured. -/
theorem C77_shuffle_violated {op : Op}
    (hop : op = .shuffle 3 ∨ op = .shuffle 5 ∨ op = .shuffle 7 ∨ op = .xception)
    {cin cout s : ℕ} (hs : 2 ≤ s) (ho : cout % 2 = 1) {x : Shape} (hc : x.c = cin)
    (hh : 1 ≤ x.h) (hw : 1 ≤ x.w) :
    op.make cin cout s = .ok ()
    ∧ op.run cin cout s x = .ok (expected (cout - 1) s x) := by
  have h := C77_shuffle_partial (cout := cout) (s := s) hop (by omega) hc hh hw
  have e : cout / 2 * 2 = cout - 1 := by omega
  have hn : s = 1 → cin = cout / 2 * 2 := fun e => by omega
  exact ⟨h.1.2 hn, e ▸ h.2 hn⟩

example : Op.run 64 161 2 (.shuffle 3) ⟨64, 28, 28⟩ = .ok ⟨160, 14, 14⟩ :=
  (C77_shuffle_violated (x := ⟨64, 28, 28⟩) (Or.inl rfl) (by decide) (by decide) rfl (by decide) (by decide)).2

/-- C77 (partial): operations of DARTS.  On an edge between nodes of the same
number of channels every operation fits; a skip connection of stride 2 exactly
if channels, height and width are even. Missing: nodes of different numbers of channels, see `C77_darts_channels_violated`. -/
theorem C77_darts_partial {c s : ℕ} (hs : s = 1 ∨ s = 2) {x : Shape} (hc : x.c = c)
    (hh : 1 ≤ x.h) (hw : 1 ≤ x.w) :
    Fits (.poolBN 3) c c s x ∧ Fits (.dilConv 3) c c s x ∧ Fits (.dilConv 5) c c s x
    ∧ Fits (.sepConv 3) c c s x ∧ Fits (.sepConv 5) c c s x ∧ Fits .zero c c s x
    ∧ (Fits .skip c c s x ↔ (s = 2 → c % 2 = 0 ∧ x.h % 2 = 0 ∧ x.w % 2 = 0)) :=
  darts_fits hs hc hh hw

example : Fits .skip 16 16 2 ⟨16, 32, 32⟩ :=
  ((C77_darts_partial (x := ⟨16, 32, 32⟩) (Or.inr rfl) rfl (by decide)
    (by decide)).2.2.2.2.2.2).2 (fun _ => by decide)

/-- C77, DISAGREEMENT: between nodes with different numbers of channels the
operations of DARTS do not fit although they take both numbers: pooling and
dilated convolutions fail, and a skip connection of stride 1 and the zero
operation pass on the wrong number of channels. -/
theorem C77_darts_channels_violated {cin cout s : ℕ} (hne : cin ≠ cout) (hs : s = 1 ∨ s = 2)
    {x : Shape} (hc : x.c = cin) (hh : 1 ≤ x.h) (hw : 1 ≤ x.w) :
    Op.run cin cout s (.poolBN 3) x = .error .runtime
    ∧ Op.run cin cout s (.dilConv 3) x = .error .runtime
    ∧ Op.run cin cout 1 .skip x = .ok x
    ∧ (∃ y, Op.run cin cout s .zero x = .ok y ∧ y.c = cin) := by
  have hs1 : 1 ≤ s := by omega
  refine ⟨?_, ?_, rfl, _, rfl, hc⟩
  · show (do
      let o ← pool 3 s 1 x
      keep cout o) = _
    have e1 : pool 3 s 1 x = .ok (expected cin s x) := by
      unfold pool
      have a := win_same (k := 3) rfl hs1 hh
      have b := win_same (k := 3) rfl hs1 hw
      rw [show (3 / 2 : ℕ) = 1 from rfl] at a b
      rw [a, b, hc]; rfl
    rw [e1]
    exact if_neg hne
  · have e1 : conv cin cin 3 s (3 / 2 * 2) 2 x = .ok (expected cin s x) := by
      unfold conv
      rw [if_pos hc, win_odd rfl hs1 hh, win_odd rfl hs1 hw]; rfl
    have e2 : conv cin cout 1 1 0 1 (expected cin s x) = .ok (expected cout s x) :=
      conv_one rfl (up_pos hh hs1) (up_pos hw hs1)
    show (do
      let o ← conv cin cin 3 s (3 / 2 * 2) 2 x
      let o ← conv cin cout 1 1 0 1 o
      keep cin o) = _
    rw [e1]
    dsimp only [bind, Except.bind]
    rw [e2]
    exact if_neg (Ne.symm hne)

example : Op.run 16 32 2 (.dilConv 3) ⟨16, 32, 32⟩ = .error .runtime :=
  (C77_darts_channels_violated (x := ⟨16, 32, 32⟩) (by decide) (Or.inr rfl) rfl (by decide) (by decide)).2.1

/-- C77 (partial): operations of EfficientNet.  Plain convolutions with "same"
padding fit, with or without skip; separable convolutions fit, with
squeeze-and-excitation only if the number of channels is kept. Missing: squeeze-and-excitation with a change of channels, see
`C77_efficient_violated`. -/
theorem C77_efficient_partial {cin cout s k : ℕ} (hs : 1 ≤ s) (hk : k % 2 = 1)
    {x : Shape} (hc : x.c = cin) (hh : 1 ≤ x.h) (hw : 1 ≤ x.w) :
    (∀ sk, Fits (.convBnAct k (k / 2) sk) cin cout s x)
    ∧ (∀ se noskip, (se = true → cin = cout) → Fits (.dsConv k se noskip) cin cout s x) := by
  have uh := up_pos hh hs
  have uw := up_pos hw hs
  refine ⟨fun sk => ⟨rfl, ?_⟩, fun se noskip hse => ⟨rfl, ?_⟩⟩
  · show (do
      let o ← conv cin cout k s (k / 2) 1 x
      if sk = true ∧ s = 1 ∧ cin = cout then addTo o x else .ok o) = _
    rw [conv_same hk hs hc hh hw]
    dsimp only [bind, Except.bind]
    by_cases h : sk = true ∧ s = 1 ∧ cin = cout
    · rw [if_pos h]
      obtain ⟨-, h1, h2⟩ := h
      subst h1; subst h2
      rw [expected_one hc, addTo_self]
    · rw [if_neg h]
  · show (do
      let o ← conv cin cin k s (k / 2) 1 x
      let o ← opt se (keep cout) o
      let o ← conv cin cout 1 1 0 1 o
      if (s = 1 ∧ cin = cout) ∧ noskip = false then addTo o x else .ok o) = _
    rw [conv_same hk hs hc hh hw]
    dsimp only [bind, Except.bind]
    have e1 : opt se (keep cout) (expected cin s x) = .ok (expected cin s x) := by
      cases se with
      | true => rw [← hse rfl]; exact keep_ok _ _ _
      | false => rfl
    rw [e1]
    dsimp only
    have e2 : conv cin cout 1 1 0 1 (expected cin s x) = .ok (expected cout s x) :=
      conv_one rfl uh uw
    rw [e2]
    dsimp only
    by_cases h : (s = 1 ∧ cin = cout) ∧ noskip = false
    · rw [if_pos h]
      obtain ⟨⟨h1, h2⟩, -⟩ := h
      subst h1; subst h2
      rw [expected_one hc, addTo_self]
    · rw [if_neg h]

example : Fits (.dsConv 3 false false) 32 16 1 ⟨32, 112, 112⟩ :=
  (C77_efficient_partial (x := ⟨32, 112, 112⟩) le_rfl rfl rfl (by decide) (by decide)).2 _ _
    (fun e => absurd e (by decide))

/-- C77, DISAGREEMENT: the squeeze-and-excitation layer of a separable
convolution is built for the output channels but applied to the input ones, so
the block fails whenever they differ; and a plain convolution of kernel 3 or
more with the default padding of zero fails where it adds its input. -/
theorem C77_efficient_violated {cin cout s k : ℕ} (hs : 1 ≤ s) (hk : k % 2 = 1)
    {x : Shape} (hc : x.c = cin) :
    (∀ noskip, cin ≠ cout → 1 ≤ x.h → 1 ≤ x.w →
      Op.run cin cout s (.dsConv k true noskip) x = .error .runtime)
    ∧ (3 ≤ k → k ≤ x.h → k ≤ x.w →
      Op.run cin cin 1 (.convBnAct k 0 true) x = .error .runtime) := by
  refine ⟨fun noskip hne hh hw => ?_, fun h3 hh hw => ?_⟩
  · show (do
      let o ← conv cin cin k s (k / 2) 1 x
      let o ← opt true (keep cout) o
      let o ← conv cin cout 1 1 0 1 o
      if (s = 1 ∧ cin = cout) ∧ noskip = false then addTo o x else .ok o) = _
    rw [conv_same hk hs hc hh hw]
    dsimp only [bind, Except.bind]
    have e1 : opt true (keep cout) (expected cin s x) = .error .runtime := if_neg hne
    rw [e1]
  · show (do
      let o ← conv cin cin k 1 0 1 x
      if true = true ∧ 1 = 1 ∧ cin = cin then addTo o x else .ok o) = _
    have e1 : conv cin cin k 1 0 1 x = .ok ⟨cin, x.h - k + 1, x.w - k + 1⟩ := by
      unfold conv win
      rw [if_pos hc, if_neg (by omega), if_neg (by omega)]
      show Except.ok _ = _
      refine congrArg Except.ok ?_
      rw [Nat.div_one, Nat.div_one]
      congr 1 <;> omega
    rw [e1]
    dsimp only [bind, Except.bind]
    rw [if_pos ⟨rfl, rfl, rfl⟩]
    unfold addTo
    have : ∀ z, add ⟨cin, x.h - k + 1, x.w - k + 1⟩ x = .ok z → z.h = x.h := by
      intro z hz
      unfold add at hz
      have eb : bdim cin x.c = .ok cin := by rw [hc, bdim_self]
      rw [eb] at hz
      dsimp only [bind, Except.bind] at hz
      have eh : bdim (x.h - k + 1) x.h = .ok x.h ∨ bdim (x.h - k + 1) x.h = .error .runtime := by
        unfold bdim
        rw [if_neg (by omega)]
        by_cases h1 : x.h - k + 1 = 1
        · rw [if_pos h1]; exact Or.inl rfl
        · rw [if_neg h1, if_neg (by omega)]; exact Or.inr rfl
      rcases eh with eh | eh
      · rw [eh] at hz
        dsimp only at hz
        cases hb : bdim (x.w - k + 1) x.w with
        | error er => rw [hb] at hz; cases hz
        | ok w => rw [hb] at hz; cases hz; rfl
      · rw [eh] at hz; cases hz
    cases ha : add ⟨cin, x.h - k + 1, x.w - k + 1⟩ x with
    | ok z =>
      have hz := this z ha
      show (if z = _ then _ else _) = _
      rw [if_neg]
      intro h
      rw [h] at hz
      dsimp only at hz
      omega
    | error er =>
      have : er = .runtime := by
        unfold add bdim at ha
        dsimp only [bind, Except.bind] at ha
        split_ifs at ha <;> simp_all
      rw [this]; rfl

example : Op.run 32 16 1 (.dsConv 3 true false) ⟨32, 112, 112⟩ = .error .runtime :=
  (C77_efficient_violated (x := ⟨32, 112, 112⟩) le_rfl rfl rfl).1 _ (by decide) (by decide)
    (by decide)

/-- C77: so whatever candidate is sampled in a block of MobileNet, the shapes of
the network do not change. -/
theorem C77_interchange {ops : List Op} {cin cout s : ℕ} (hs : s = 1 ∨ s = 2) {x : Shape}
    (hc : x.c = cin) (hh : 1 ≤ x.h) (hw : 1 ≤ x.w)
    (hops : ∀ op ∈ ops, op = .identity ∨ ∃ k e se, op = .mb k e se false ∧ k % 2 = 1)
    {a b : Op} (ha : a ∈ ops) (hb : b ∈ ops) : a.run cin cout s x = b.run cin cout s x := by
  have key : ∀ op ∈ ops, op.run cin cout s x = .ok (expected cout s x) := by
    intro op hop
    have h := C77_mobile (cout := cout) hs hc hh hw
    rcases hops op hop with rfl | ⟨k, e, se, rfl, hk⟩
    · exact h.2.2
    · exact (h.1 k e se hk).2
  rw [key a ha, key b hb]

example : Op.run 16 24 2 (.mb 7 6 true false) ⟨16, 57, 56⟩
    = Op.run 16 24 2 .identity ⟨16, 57, 56⟩ :=
  C77_interchange (ops := [.mb 7 6 true false, .identity]) (x := ⟨16, 57, 56⟩) (Or.inr rfl) rfl
    (by decide) (by decide)
    (by
      intro op h
      rcases List.mem_cons.1 h with rfl | h
      · exact Or.inr ⟨_, _, _, rfl, rfl⟩
      · exact Or.inl (List.mem_singleton.1 h))
    (List.Mem.head _) (List.Mem.tail _ (List.Mem.head _))

/-- What the constructors refuse, and how. -/
theorem C77_make_refused (cin cout s : ℕ) :
    (∀ k e se att, ¬ (s = 1 ∨ s = 2) → Op.make cin cout s (.mb k e se att) = .error .assertion) ∧
    (∀ k, ¬ ((k = 3 ∨ k = 5) ∧ (s = 1 ∨ s = 2)) → Op.make cin cout s (.sepConv k) = .error .assertion ∧
      Op.make cin cout s (.dilConv k) = .error .assertion) ∧
    (∀ k, (k = 3 ∨ k = 5) → (s = 1 ∨ s = 2) → ¬ cin ∣ cout → Op.make cin cout s (.sepConv k) = .error .value) ∧
    (∀ k, ¬ (k = 3 ∨ k = 5 ∨ k = 7) → Op.make cin cout s (.shuffle k) = .error .assertion) ∧
    (s = 1 → cin ≠ cout / 2 * 2 → (∀ k, Op.make cin cout s (.shuffle k) = .error .assertion) ∧
      Op.make cin cout s .xception = .error .assertion) := by
  refine ⟨fun k e se att h => if_neg h, fun k h => ⟨if_neg h, if_neg h⟩, fun k h1 h2 h3 => ?_, fun k h => if_neg h, fun h1 h2 => ⟨fun k => ?_, if_pos ⟨h1, h2⟩⟩⟩
  · simp only [Op.make, if_pos (And.intro h1 h2), if_neg (fun h => h3 (Nat.dvd_of_mod_eq_zero h))]
  · simp only [Op.make, if_pos (And.intro h1 h2), ite_self]

example : Op.make 16 24 1 (.sepConv 3) = .error .value := (C77_make_refused 16 24 1).2.2.1 3 (by simp) (by simp) (by decide)

/-- Whatever operation runs on whatever input, the only error is PyTorch's: shapes that do
not fit. -/
theorem C77_run_errors (cin cout s : ℕ) (o : Op) (x : Shape) (e : Err) (h : o.run cin cout s x = .error e) : e = .runtime := by
  exact (onlyRuntime_run cin cout s o x).out e h

example : (Op.shuffle 3).run 4 4 1 ⟨5, 8, 8⟩ = .error .runtime := by decide +kernel

end Verif.SearchOps
