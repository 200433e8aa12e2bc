import Verif.Spec.SearchOps

/-! Helper lemmas for `Verif/Props/SearchOps.lean`. -/

namespace Verif.SearchOps
open Verif

theorem up_one (n : ℕ) : up n 1 = n := by unfold up; omega

theorem up_pos {n s : ℕ} (hn : 1 ≤ n) (hs : 1 ≤ s) : 1 ≤ up n s := by
  unfold up
  exact (Nat.one_le_div_iff hs).2 (by omega)

theorem win_odd {k s n d : ℕ} (hk : k % 2 = 1) (hs : 1 ≤ s) (hn : 1 ≤ n) :
    win k s (k / 2 * d) d n = .ok (up n s) := by
  have hkk : k - 1 = 2 * (k / 2) := by omega
  unfold win up
  rw [hkk]
  have e : d * (2 * (k / 2)) = 2 * (k / 2 * d) := by ring
  rw [e, if_neg (by omega)]
  have e2 : n + 2 * (k / 2 * d) - (2 * (k / 2 * d) + 1) = n - 1 := by omega
  rw [e2]
  congr 1
  have : n + s - 1 = (n - 1) + s := by omega
  rw [this, Nat.add_div_right _ hs]

theorem win_same {k s n : ℕ} (hk : k % 2 = 1) (hs : 1 ≤ s) (hn : 1 ≤ n) :
    win k s (k / 2) 1 n = .ok (up n s) := by
  have := win_odd (d := 1) hk hs hn
  rwa [Nat.mul_one] at this

theorem win_point {s n : ℕ} (hs : 1 ≤ s) (hn : 1 ≤ n) :
    win 1 s 0 1 n = .ok (up n s) := win_same (k := 1) rfl hs hn

theorem conv_same {cin cout k s : ℕ} {x : Shape} (hk : k % 2 = 1) (hs : 1 ≤ s) (hc : x.c = cin)
    (hh : 1 ≤ x.h) (hw : 1 ≤ x.w) :
    conv cin cout k s (k / 2) 1 x = .ok (expected cout s x) := by
  unfold conv
  rw [if_pos hc, win_same hk hs hh, win_same hk hs hw]; rfl

theorem conv_point {cin cout s : ℕ} {x : Shape} (hs : 1 ≤ s) (hc : x.c = cin)
    (hh : 1 ≤ x.h) (hw : 1 ≤ x.w) :
    conv cin cout 1 s 0 1 x = .ok (expected cout s x) :=
  conv_same (k := 1) rfl hs hc hh hw

theorem conv_one {cin cout : ℕ} {x : Shape} (hc : x.c = cin)
    (hh : 1 ≤ x.h) (hw : 1 ≤ x.w) :
    conv cin cout 1 1 0 1 x = .ok ⟨cout, x.h, x.w⟩ := by
  rw [conv_point le_rfl hc hh hw]; unfold expected; rw [up_one, up_one]

theorem conv_keep {cin cout k : ℕ} {x : Shape} (hk : k % 2 = 1) (hc : x.c = cin)
    (hh : 1 ≤ x.h) (hw : 1 ≤ x.w) :
    conv cin cout k 1 (k / 2) 1 x = .ok ⟨cout, x.h, x.w⟩ := by
  rw [conv_same hk le_rfl hc hh hw]; unfold expected; rw [up_one, up_one]

theorem bdim_self (a : ℕ) : bdim a a = .ok a := by unfold bdim; rw [if_pos rfl]

theorem add_self (x : Shape) : add x x = .ok x := by
  unfold add; rw [bdim_self, bdim_self, bdim_self]; rfl

theorem addTo_self (x : Shape) : addTo x x = .ok x := by
  unfold addTo; rw [add_self]
  show (if x = x then _ else _) = _
  rw [if_pos rfl]

theorem expected_one {c : ℕ} {x : Shape} (hc : x.c = c) : expected c 1 x = x := by
  unfold expected; rw [up_one, up_one, ← hc]

theorem keep_ok (c h w : ℕ) : keep c ⟨c, h, w⟩ = .ok ⟨c, h, w⟩ := if_pos rfl

theorem shortcut_ok {cin cout s : ℕ} {x : Shape} (hs : s = 1 ∨ s = 2) (hc : x.c = cin)
    (hh : 1 ≤ x.h) (hw : 1 ≤ x.w) (hp : s = 2 → x.h % 2 = x.w % 2) :
    shortcut cin cout s x = .ok (expected cout s x) := by
  unfold shortcut
  have key : ∀ y : Shape, y.c = cin → y.h = up x.h s → y.w = up x.w s →
      opt (cin ≠ cout) (conv cin cout 1 1 0 1) y = .ok (expected cout s x) := by
    intro y h1 h2 h3
    have hs1 : 1 ≤ s := by omega
    unfold opt
    by_cases h : cin = cout
    · rw [if_neg (by simpa using h)]
      unfold expected; rw [← h2, ← h3, ← h, ← h1]
    · rw [if_pos (by simpa using h), conv_one h1 (h2 ▸ up_pos hh hs1) (h3 ▸ up_pos hw hs1),
        h2, h3]; rfl
  rcases hs with rfl | rfl
  · exact key x hc (up_one _).symm (up_one _).symm
  · have hp := hp rfl
    have e : ∀ n, 1 ≤ n → n % 2 = x.w % 2 → win 2 2 (x.w % 2) 1 n = .ok (up n 2) := by
      intro n hn hm
      rw [← hm]
      unfold win up
      rcases Nat.mod_two_eq_zero_or_one n with h | h
      · rw [h, if_neg (by omega)]
        refine congrArg Except.ok ?_
        omega
      · rw [h, if_neg (by omega)]
        refine congrArg Except.ok ?_
        omega
    have ep : opt (1 < 2) (pool 2 2 (x.w % 2)) x = .ok ⟨x.c, up x.h 2, up x.w 2⟩ := by
      show pool 2 2 (x.w % 2) x = _
      unfold pool; rw [e _ hh hp, e _ hw rfl]; rfl
    rw [ep]
    exact key _ hc rfl rfl

theorem mbRun_ok {ex res se att : Bool} {cin cout s k e : ℕ} {x : Shape}
    (hs : s = 1 ∨ s = 2) (hk : k % 2 = 1) (hc : x.c = cin) (hh : 1 ≤ x.h) (hw : 1 ≤ x.w)
    (hex : ex = false → cin * e = cin) (hres : res = true → s = 1 ∧ cin = cout)
    (hp : res = false → att = true → s = 2 → x.h % 2 = x.w % 2) :
    mbRun ex res se att cin cout s k e x = .ok (expected cout s x) := by
  have hs1 : 1 ≤ s := by omega
  have e1 : opt ex (conv cin (cin * e) 1 1 0 1) x = .ok ⟨cin * e, x.h, x.w⟩ := by
    cases ex with
    | true => exact conv_one hc hh hw
    | false => show Except.ok x = _; rw [hex rfl, ← hc]
  have e2 : conv (cin * e) (cin * e) k s (k / 2) 1 ⟨cin * e, x.h, x.w⟩
      = .ok (expected (cin * e) s x) := conv_same hk hs1 rfl hh hw
  have e3 : opt se (keep (cin * e)) (expected (cin * e) s x) = .ok (expected (cin * e) s x) := by
    cases se with
    | true => exact keep_ok _ _ _
    | false => rfl
  have e4 : conv (cin * e) cout 1 1 0 1 (expected (cin * e) s x) = .ok (expected cout s x) :=
    conv_one rfl (up_pos hh hs1) (up_pos hw hs1)
  unfold mbRun
  dsimp only
  rw [e1]
  dsimp only [bind, Except.bind]
  rw [e2]
  dsimp only
  rw [e3]
  dsimp only
  rw [e4]
  dsimp only
  cases res with
  | true =>
    obtain ⟨rfl, rfl⟩ := hres rfl
    show add x _ = _
    rw [expected_one hc, add_self]
  | false =>
    cases att with
    | true =>
      rw [if_neg (by decide), if_pos rfl, shortcut_ok hs hc hh hw (hp rfl rfl)]
      exact add_self _
    | false => rfl

theorem cat_ok (a b h w : ℕ) : cat ⟨a, h, w⟩ ⟨b, h, w⟩ = .ok ⟨a + b, h, w⟩ := if_pos ⟨rfl, rfl⟩

theorem convs_cons {c cout k s h w : ℕ} {l : List (ℕ × ℕ × ℕ)} (hk : k % 2 = 1)
    (hs : 1 ≤ s) (hh : 1 ≤ h) (hw : 1 ≤ w) :
    convs c ((cout, k, s) :: l) ⟨c, h, w⟩ = convs cout l ⟨cout, up h s, up w s⟩ := by
  show (do
    let y ← conv c cout k s (k / 2) 1 ⟨c, h, w⟩
    convs cout l y) = _
  rw [conv_same (x := ⟨c, h, w⟩) hk hs rfl hh hw]; rfl

theorem convs_one {c cout k h w : ℕ} {l : List (ℕ × ℕ × ℕ)} (hk : k % 2 = 1)
    (hh : 1 ≤ h) (hw : 1 ≤ w) :
    convs c ((cout, k, 1) :: l) ⟨c, h, w⟩ = convs cout l ⟨cout, h, w⟩ := by
  rw [convs_cons hk le_rfl hh hw, up_one, up_one]

theorem unit_ok {cin cout s : ℕ} {x : Shape} {b1 b2 : Shape → Except Err Shape} (hs : 1 ≤ s)
    (hc : x.c = cin) (hm : s = 1 → cin = cout / 2 * 2)
    (h1 : 1 < s → b1 x = .ok (expected (cout / 2) s x))
    (h2 : 1 < s → b2 x = .ok (expected (cout / 2) s x))
    (h3 : s = 1 → b2 ⟨cout / 2, x.h, x.w⟩ = .ok ⟨cout / 2, x.h, x.w⟩) :
    unitRun s b1 b2 x = .ok (expected (cout / 2 * 2) s x) := by
  have e : branches s b1 b2 x = .ok (expected (cout / 2 * 2) s x) := by
    unfold branches
    by_cases h : 1 < s
    · rw [if_pos h, h1 h, h2 h]
      show cat _ _ = _
      unfold expected
      rw [cat_ok, Nat.mul_two]
    · have h : s = 1 := by omega
      subst h
      have hx : x.c / 2 = cout / 2 := by have := hm rfl; omega
      have hy : x.c - cout / 2 = cout / 2 := by have := hm rfl; omega
      rw [if_neg (by omega), hx, h3 rfl]
      show cat _ _ = _
      unfold expected
      rw [hy, cat_ok, up_one, up_one, Nat.mul_two]
  unfold unitRun
  rw [e]
  show (if (cout / 2 * 2) % 2 = 0 then _ else _) = _
  rw [if_pos (Nat.mul_mod_left _ _)]

theorem shuffle_ok {cin cout s k : ℕ} {x : Shape} (hk : k % 2 = 1) (hs : 1 ≤ s)
    (hc : x.c = cin) (hh : 1 ≤ x.h) (hw : 1 ≤ x.w) (hm : s = 1 → cin = cout / 2 * 2) :
    shuffleRun cin cout s k x = .ok (expected (cout / 2 * 2) s x) := by
  obtain ⟨c, h, w⟩ := x
  dsimp only at hc hh hw
  subst hc
  have uh := up_pos hh hs
  have uw := up_pos hw hs
  have k1 : 1 % 2 = 1 := rfl
  unfold shuffleRun
  dsimp only
  refine unit_ok hs rfl hm (fun h => ?_) (fun h => ?_) (fun h => ?_)
  · rw [convs_cons hk hs hh hw, convs_one k1 uh uw]; rfl
  · rw [if_pos h, convs_one k1 hh hw, convs_cons hk hs hh hw, convs_one k1 uh uw]
    rfl
  · subst h
    rw [if_neg (by omega), convs_one k1 hh hw, convs_one hk hh hw, convs_one k1 hh hw]
    rfl

theorem xception_ok {cin cout s : ℕ} {x : Shape} (hs : 1 ≤ s)
    (hc : x.c = cin) (hh : 1 ≤ x.h) (hw : 1 ≤ x.w) (hm : s = 1 → cin = cout / 2 * 2) :
    xceptionRun cin cout s x = .ok (expected (cout / 2 * 2) s x) := by
  obtain ⟨c, h, w⟩ := x
  dsimp only at hc hh hw
  subst hc
  have uh := up_pos hh hs
  have uw := up_pos hw hs
  have k1 : 1 % 2 = 1 := rfl
  have k3 : 3 % 2 = 1 := rfl
  unfold xceptionRun
  dsimp only
  refine unit_ok hs rfl hm (fun h => ?_) (fun h => ?_) (fun h => ?_)
  · rw [convs_cons k3 hs hh hw, convs_one k1 uh uw]; rfl
  · rw [if_pos h, convs_cons k3 hs hh hw, convs_one k1 uh uw, convs_one k3 uh uw,
      convs_one k1 uh uw, convs_one k3 uh uw, convs_one k1 uh uw]
    rfl
  · subst h
    rw [if_neg (by omega), convs_one k3 hh hw, convs_one k1 hh hw, convs_one k3 hh hw,
      convs_one k1 hh hw, convs_one k3 hh hw, convs_one k1 hh hw]
    rfl

theorem mobile_fits {cin cout s : ℕ} (hs : s = 1 ∨ s = 2) {x : Shape} (hc : x.c = cin)
    (hh : 1 ≤ x.h) (hw : 1 ≤ x.w) :
    (∀ k e se, k % 2 = 1 → Fits (.mb k e se false) cin cout s x)
    ∧ Fits .identity cin cout s x := by
  refine ⟨fun k e se hk => ⟨?_, ?_⟩, rfl, ?_⟩
  · show (if _ then _ else _) = _
    rw [if_pos hs]
  · refine mbRun_ok hs hk hc hh hw ?_ ?_ ?_
    · intro h; simpa using h
    · intro h
      have := of_decide_eq_true h
      exact ⟨this.1, this.2.1⟩
    · intro _ h; exact absurd h (by decide)
  · show (if _ then _ else _) = _
    by_cases h : s ≠ 1 ∨ cin ≠ cout
    · rw [if_pos h]; exact conv_point (by omega) hc hh hw
    · rw [if_neg h]
      have h1 : s = 1 := by omega
      have h2 : cin = cout := by omega
      subst h1; subst h2
      rw [expected_one hc]

theorem shuffle_fits {op : Op}
    (hop : op = .shuffle 3 ∨ op = .shuffle 5 ∨ op = .shuffle 7 ∨ op = .xception)
    {cin cout s : ℕ} (hs : 1 ≤ s) {x : Shape} (hc : x.c = cin) (hh : 1 ≤ x.h) (hw : 1 ≤ x.w) :
    (op.make cin cout s = .ok () ↔ (s = 1 → cin = cout / 2 * 2))
    ∧ ((s = 1 → cin = cout / 2 * 2) →
      op.run cin cout s x = .ok (expected (cout / 2 * 2) s x)) := by
  have hm : op.make cin cout s
      = if s = 1 ∧ cin ≠ cout / 2 * 2 then .error .assertion else .ok () := by
    rcases hop with rfl | rfl | rfl | rfl <;> rfl
  refine ⟨?_, fun h => ?_⟩
  · rw [hm]
    by_cases h : s = 1 ∧ cin ≠ cout / 2 * 2
    · rw [if_pos h]
      exact ⟨fun e => (by cases e), fun e => absurd (e h.1) h.2⟩
    · rw [if_neg h]
      refine ⟨fun _ h1 => ?_, fun _ => rfl⟩
      by_contra h2
      exact h ⟨h1, h2⟩
  · rcases hop with rfl | rfl | rfl | rfl
    · exact shuffle_ok rfl hs hc hh hw h
    · exact shuffle_ok rfl hs hc hh hw h
    · exact shuffle_ok rfl hs hc hh hw h
    · exact xception_ok hs hc hh hw h

theorem darts_fits {c s : ℕ} (hs : s = 1 ∨ s = 2) {x : Shape} (hc : x.c = c)
    (hh : 1 ≤ x.h) (hw : 1 ≤ x.w) :
    Fits (.poolBN 3) c c s x ∧ Fits (.dilConv 3) c c s x ∧ Fits (.dilConv 5) c c s x
    ∧ Fits (.sepConv 3) c c s x ∧ Fits (.sepConv 5) c c s x ∧ Fits .zero c c s x
    ∧ (Fits .skip c c s x ↔ (s = 2 → c % 2 = 0 ∧ x.h % 2 = 0 ∧ x.w % 2 = 0)) := by
  have hs1 : 1 ≤ s := by omega
  have uh := up_pos hh hs1
  have uw := up_pos hw hs1
  have hdil : ∀ k, k = 3 ∨ k = 5 → Fits (.dilConv k) c c s x := by
    intro k hk
    have hk2 : k % 2 = 1 := by omega
    refine ⟨if_pos ⟨hk, hs⟩, ?_⟩
    have e1 : conv c c k s (k / 2 * 2) 2 x = .ok (expected c s x) := by
      unfold conv
      rw [if_pos hc, win_odd hk2 hs1 hh, win_odd hk2 hs1 hw]; rfl
    show (do
      let o ← conv c c k s (k / 2 * 2) 2 x
      let o ← conv c c 1 1 0 1 o
      keep c o) = _
    rw [e1]
    dsimp only [bind, Except.bind]
    have e2 : conv c c 1 1 0 1 (expected c s x) = .ok (expected c s x) := conv_one rfl uh uw
    rw [e2]
    exact keep_ok _ _ _
  have hsep : ∀ k, k = 3 ∨ k = 5 → Fits (.sepConv k) c c s x := by
    intro k hk
    have hk2 : k % 2 = 1 := by omega
    refine ⟨?_, ?_⟩
    · show (if _ then (if c % c = 0 then _ else _) else _) = _
      rw [if_pos ⟨hk, hs⟩, if_pos (Nat.mod_self c)]
    have e2 : conv c c 1 1 0 1 (expected c s x) = .ok (expected c s x) := conv_one rfl uh uw
    have e3 : conv c c k 1 (k / 2) 1 (expected c s x) = .ok (expected c s x) :=
      conv_keep hk2 rfl uh uw
    show (do
      let o ← conv c c k s (k / 2) 1 x
      let o ← conv c c 1 1 0 1 o
      let o ← conv c c k 1 (k / 2) 1 o
      conv c c 1 1 0 1 o) = _
    rw [conv_same hk2 hs1 hc hh hw]
    dsimp only [bind, Except.bind]
    rw [e2]
    dsimp only
    rw [e3]
    exact e2
  refine ⟨⟨rfl, ?_⟩, hdil 3 (Or.inl rfl), hdil 5 (Or.inr rfl), hsep 3 (Or.inl rfl),
    hsep 5 (Or.inr rfl), ⟨rfl, ?_⟩, ?_⟩
  · show (do
      let o ← pool 3 s 1 x
      keep c o) = _
    have e1 : pool 3 s 1 x = .ok (expected c s x) := by
      unfold pool
      have a := win_same (k := 3) rfl hs1 hh
      have b := win_same (k := 3) rfl hs1 hw
      rw [show (3 / 2 : ℕ) = 1 from rfl] at a b
      rw [a, b, hc]; rfl
    rw [e1]
    exact keep_ok _ _ _
  · show Except.ok _ = _
    unfold expected up
    rw [hc]
  · rcases hs with rfl | rfl
    · refine ⟨fun _ h => absurd h (by decide), fun _ => ⟨rfl, ?_⟩⟩
      rw [expected_one hc]; rfl
    · have e1 : conv c (c / 2) 1 2 0 1 x = .ok (expected (c / 2) 2 x) :=
        conv_point (by omega) hc hh hw
      have er : Op.run c c 2 .skip x = (do
        let y ← conv c (c / 2) 1 2 0 1 x
        let z ← conv c (c / 2) 1 2 0 1 (crop x)
        let o ← cat y z
        keep c o) := rfl
      rw [e1] at er
      dsimp only [bind, Except.bind] at er
      constructor
      · rintro ⟨_, h⟩ -
        rw [er] at h
        by_cases h2 : 2 ≤ x.h ∧ 2 ≤ x.w
        · have e2 : conv c (c / 2) 1 2 0 1 (crop x)
              = .ok ⟨c / 2, up (x.h - 1) 2, up (x.w - 1) 2⟩ :=
            conv_point (x := crop x) (by omega) hc (show 1 ≤ x.h - 1 by omega)
              (show 1 ≤ x.w - 1 by omega)
          rw [e2] at h
          dsimp only at h
          unfold cat expected at h
          by_cases h3 : up x.h 2 = up (x.h - 1) 2 ∧ up x.w 2 = up (x.w - 1) 2
          · rw [if_pos h3] at h
            dsimp only at h
            unfold keep at h
            by_cases h4 : c / 2 + c / 2 = c
            · unfold up at h3; omega
            · rw [if_neg h4] at h; cases h
          · rw [if_neg h3] at h; cases h
        · have e2 : conv c (c / 2) 1 2 0 1 (crop x) = .error .runtime := by
            unfold conv win crop
            rw [if_pos hc]
            by_cases h3 : 2 ≤ x.h
            · rw [if_neg (by show ¬ (x.h - 1 + 2 * 0 < _); omega),
                if_pos (by show (x.w - 1 + 2 * 0 < _); omega)]; rfl
            · rw [if_pos (by show (x.h - 1 + 2 * 0 < _); omega)]; rfl
          rw [e2] at h; cases h
      · intro h
        obtain ⟨h1, h2, h3⟩ := h rfl
        refine ⟨rfl, ?_⟩
        rw [er]
        have e2 : conv c (c / 2) 1 2 0 1 (crop x)
            = .ok ⟨c / 2, up (x.h - 1) 2, up (x.w - 1) 2⟩ :=
          conv_point (x := crop x) (by omega) hc (show 1 ≤ x.h - 1 by omega)
            (show 1 ≤ x.w - 1 by omega)
        rw [e2]
        dsimp only
        have h4 : up (x.h - 1) 2 = up x.h 2 := by unfold up; omega
        have h5 : up (x.w - 1) 2 = up x.w 2 := by unfold up; omega
        rw [h4, h5]
        unfold expected
        rw [cat_ok]
        dsimp only
        rw [show c / 2 + c / 2 = c by omega]
        exact keep_ok _ _ _

/-- The only error is PyTorch's. -/
structure OnlyRuntime {α : Type} (r : Except Err α) : Prop where
  out : ∀ e, r = .error e → e = .runtime

theorem OnlyRuntime.ok {α : Type} (x : α) : OnlyRuntime (.ok x : Except Err α) := ⟨fun e h => by simp at h⟩

theorem OnlyRuntime.err {α : Type} : OnlyRuntime (.error .runtime : Except Err α) :=
  ⟨fun e h => by simp only [Except.error.injEq] at h; exact h.symm⟩

theorem OnlyRuntime.bind {α β : Type} {r : Except Err α} {f : α → Except Err β} (h : OnlyRuntime r) (hf : ∀ x, OnlyRuntime (f x)) :
    OnlyRuntime (r >>= f) := by
  cases r with
  | error e => exact ⟨fun e' he => h.out e' (by simp only [Bind.bind, Except.bind, Except.error.injEq] at he; rw [he])⟩
  | ok x => exact hf x

theorem OnlyRuntime.ite {α : Type} {p : Prop} [Decidable p] {a b : Except Err α} (ha : OnlyRuntime a) (hb : OnlyRuntime b) :
    OnlyRuntime (if p then a else b) := by
  split <;> assumption

theorem rt_win (k s p d n : ℕ) : OnlyRuntime (win k s p d n) := .ite .err (.ok _)

theorem rt_conv (cin cout k s p d : ℕ) (x : Shape) : OnlyRuntime (conv cin cout k s p d x) :=
  .ite ((rt_win ..).bind fun _ => (rt_win ..).bind fun _ => .ok _) .err

theorem rt_pool (k s p : ℕ) (x : Shape) : OnlyRuntime (pool k s p x) :=
  (rt_win ..).bind fun _ => (rt_win ..).bind fun _ => .ok _

theorem rt_keep (c : ℕ) (x : Shape) : OnlyRuntime (keep c x) := .ite (.ok _) .err

theorem rt_bdim (a b : ℕ) : OnlyRuntime (bdim a b) := .ite (.ok _) (.ite (.ok _) (.ite (.ok _) .err))

theorem rt_add (x y : Shape) : OnlyRuntime (add x y) :=
  (rt_bdim ..).bind fun _ => (rt_bdim ..).bind fun _ => (rt_bdim ..).bind fun _ => .ok _

theorem rt_addTo (x y : Shape) : OnlyRuntime (addTo x y) := (rt_add ..).bind fun _ => .ite (.ok _) .err

theorem rt_cat (x y : Shape) : OnlyRuntime (cat x y) := .ite (.ok _) .err

theorem rt_opt (b : Bool) {f : Shape → Except Err Shape} (hf : ∀ x, OnlyRuntime (f x)) (x : Shape) : OnlyRuntime (opt b f x) :=
  .ite (hf x) (.ok _)

theorem rt_shortcut (cin cout red : ℕ) (x : Shape) : OnlyRuntime (shortcut cin cout red x) :=
  (rt_opt _ (rt_pool _ _ _) _).bind fun _ => rt_opt _ (rt_conv _ _ _ _ _ _) _

theorem rt_convs (cin : ℕ) (l : List (ℕ × ℕ × ℕ)) (x : Shape) : OnlyRuntime (convs cin l x) := by
  induction l generalizing cin x with
  | nil => exact .ok _
  | cons p l ih => exact (rt_conv ..).bind fun _ => ih _ _

theorem rt_unit (s : ℕ) {b1 b2 : Shape → Except Err Shape} (h1 : ∀ x, OnlyRuntime (b1 x)) (h2 : ∀ x, OnlyRuntime (b2 x)) (x : Shape) :
    OnlyRuntime (unitRun s b1 b2 x) := by
  refine OnlyRuntime.bind ?_ fun _ => .ite (.ok _) .err
  exact .ite ((h1 _).bind fun _ => (h2 _).bind fun _ => rt_cat ..) ((h2 _).bind fun _ => rt_cat ..)

theorem onlyRuntime_run (cin cout s : ℕ) (o : Op) (x : Shape) : OnlyRuntime (o.run cin cout s x) := by
  cases o with
  | mb k e se att =>
    refine (rt_opt _ (rt_conv _ _ _ _ _ _) _).bind fun _ => (rt_conv ..).bind fun _ => (rt_opt _ (rt_keep _) _).bind fun _ =>
      (rt_conv ..).bind fun _ => .ite (rt_add ..) (.ite ((rt_shortcut ..).bind fun _ => rt_add ..) (.ok _))
  | identity => exact .ite (rt_conv ..) (.ok _)
  | shuffle k => exact rt_unit _ (rt_convs _ _) (rt_convs _ _) _
  | xception => exact rt_unit _ (rt_convs _ _) (rt_convs _ _) _
  | convBnAct k p sk => exact (rt_conv ..).bind fun _ => .ite (rt_addTo ..) (.ok _)
  | dsConv k se noskip =>
    exact (rt_conv ..).bind fun _ => (rt_opt _ (rt_keep _) _).bind fun _ => (rt_conv ..).bind fun _ => .ite (rt_addTo ..) (.ok _)
  | poolBN k => exact (rt_pool ..).bind fun _ => rt_keep ..
  | dilConv k => exact (rt_conv ..).bind fun _ => (rt_conv ..).bind fun _ => rt_keep ..
  | sepConv k => exact (rt_conv ..).bind fun _ => (rt_conv ..).bind fun _ => (rt_conv ..).bind fun _ => rt_conv ..
  | skip =>
    exact .ite ((rt_conv ..).bind fun _ => (rt_conv ..).bind fun _ => (rt_cat ..).bind fun _ => rt_keep ..) (.ok _)
  | zero => exact .ok _

end Verif.SearchOps
