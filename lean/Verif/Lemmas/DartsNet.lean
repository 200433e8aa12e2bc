import Verif.Spec.DartsNet
import Verif.Lemmas.SearchOps

/-! Helper lemmas for `Verif/Props/DartsNet.lean`. -/

namespace Verif.DartsNet
open Verif SearchOps

/-- size after the nodes of a cell -/
def half (red : Bool) (n : ℕ) : ℕ := if red then n / 2 else n

theorem darts_fits1 {op : Op} (ho : IsDarts op) {c : ℕ} {x : Shape} (hc : x.c = c)
    (hh : 1 ≤ x.h) (hw : 1 ≤ x.w) : op.run c c 1 x = .ok x := by
  have h := darts_fits (s := 1) (Or.inl rfl) hc hh hw
  have e : ∀ o, Fits o c c 1 x → o.run c c 1 x = .ok x := by
    intro o h
    have := h.2
    rwa [expected_one hc] at this
  simp only [IsDarts, List.mem_cons, List.not_mem_nil, or_false] at ho
  rcases ho with rfl | rfl | rfl | rfl | rfl | rfl | rfl
  · exact e _ h.1
  · exact e _ h.2.1
  · exact e _ h.2.2.1
  · exact e _ h.2.2.2.1
  · exact e _ h.2.2.2.2.1
  · exact e _ (h.2.2.2.2.2.2.2 (fun h => absurd h (by decide)))
  · exact e _ h.2.2.2.2.2.1

theorem darts_fits2 {op : Op} (ho : IsDarts op) {c : ℕ} {x : Shape} (hc : x.c = c)
    (hc2 : c % 2 = 0) (hh : 1 ≤ x.h) (hw : 1 ≤ x.w) (hh2 : x.h % 2 = 0) (hw2 : x.w % 2 = 0) :
    op.run c c 2 x = .ok ⟨c, x.h / 2, x.w / 2⟩ := by
  have h := darts_fits (s := 2) (Or.inr rfl) hc hh hw
  have e : ∀ o, Fits o c c 2 x → o.run c c 2 x = .ok ⟨c, x.h / 2, x.w / 2⟩ := by
    intro o h
    rw [h.2]
    unfold expected up
    rw [show (x.h + 2 - 1) / 2 = x.h / 2 by omega, show (x.w + 2 - 1) / 2 = x.w / 2 by omega]
  simp only [IsDarts, List.mem_cons, List.not_mem_nil, or_false] at ho
  rcases ho with rfl | rfl | rfl | rfl | rfl | rfl | rfl
  · exact e _ h.1
  · exact e _ h.2.1
  · exact e _ h.2.2.1
  · exact e _ h.2.2.2.1
  · exact e _ h.2.2.2.2.1
  · exact e _ (h.2.2.2.2.2.2.2 (fun _ => ⟨hc2, hh2, hw2⟩))
  · exact e _ h.2.2.2.2.2.1

theorem mapM_const {α : Type} {f : α → Except Err Shape} {z : Shape} : ∀ {l : List α},
    (∀ a ∈ l, f a = .ok z) → l.mapM f = .ok (List.replicate l.length z)
  | [], _ => rfl
  | a :: l, h => by
    rw [List.mapM_cons, h a (List.Mem.head _),
      mapM_const (l := l) (fun x hx => h x (List.Mem.tail _ hx))]; rfl

theorem foldl_add (z : Shape) : ∀ n, (List.replicate n z).foldlM add z = .ok z
  | 0 => rfl
  | n + 1 => by
    rw [List.replicate_succ, List.foldlM_cons, add_self]
    exact foldl_add z n

theorem foldl_cat (c h w : ℕ) : ∀ n m, (List.replicate n ⟨c, h, w⟩).foldlM cat ⟨m, h, w⟩
    = .ok ⟨m + n * c, h, w⟩
  | 0, m => by rw [Nat.zero_mul]; rfl
  | n + 1, m => by
    rw [List.replicate_succ, List.foldlM_cons, cat_ok]
    show List.foldlM cat ⟨m + c, h, w⟩ _ = _
    rw [foldl_cat c h w n (m + c), Nat.add_mul, Nat.one_mul]
    congr 2
    omega

theorem nodesRun_ok {c h w : ℕ} {red : Bool} (hh : 1 ≤ h) (hw : 1 ≤ w)
    (hr : red = true → c % 2 = 0 ∧ h % 2 = 0 ∧ w % 2 = 0) :
    ∀ {ch : List (List (ℕ × Op))} {k : ℕ},
      (∀ (d : ℕ) node, ch[d]? = some node → node ≠ [] ∧ ∀ e ∈ node, e.1 < d + k + 2 ∧ IsDarts e.2) →
      nodesRun c red (⟨c, h, w⟩ :: ⟨c, h, w⟩ :: List.replicate k ⟨c, half red h, half red w⟩) ch
        = .ok (⟨c, h, w⟩ :: ⟨c, h, w⟩
            :: List.replicate (k + ch.length) ⟨c, half red h, half red w⟩)
  | [], k, _ => rfl
  | node :: l, k, hg => by
    obtain ⟨hne, hes⟩ := hg 0 node rfl
    have hedge : ∀ e ∈ node, edgeRun c red
        (⟨c, h, w⟩ :: ⟨c, h, w⟩ :: List.replicate k ⟨c, half red h, half red w⟩) e
        = .ok ⟨c, half red h, half red w⟩ := by
      intro e he
      obtain ⟨h1, h2⟩ := hes e he
      have hfirst : ∀ (x : Shape), x = ⟨c, h, w⟩ → e.1 < 2 →
          e.2.run c c (if e.1 < (if red then 2 else 0) then 2 else 1) x
            = .ok ⟨c, half red h, half red w⟩ := by
        intro x hx hi
        subst hx
        cases red with
        | true =>
          have := hr rfl
          rw [if_pos (by simpa using hi)]
          exact darts_fits2 h2 rfl this.1 hh hw this.2.1 this.2.2
        | false =>
          rw [if_neg (by simp)]
          exact darts_fits1 h2 rfl hh hw
      unfold edgeRun
      obtain ⟨i, op⟩ := e
      match i, h1, hfirst with
      | 0, _, hfirst => exact hfirst _ rfl (show _ < 2 by norm_num)
      | 1, _, hfirst => exact hfirst _ rfl (show _ < 2 by norm_num)
      | j + 2, h1, _ =>
        dsimp only at h1 ⊢
        rw [List.getElem?_cons_succ, List.getElem?_cons_succ, List.getElem?_replicate,
          if_pos (by omega)]
        dsimp only
        rw [if_neg (by cases red <;> simp)]
        refine darts_fits1 h2 rfl ?_ ?_
        · show 1 ≤ half red h
          unfold half
          cases red with
          | true => have := (hr rfl).2.1; rw [if_pos rfl]; omega
          | false => exact hh
        · show 1 ≤ half red w
          unfold half
          cases red with
          | true => have := (hr rfl).2.2; rw [if_pos rfl]; omega
          | false => exact hw
    have hnode : nodeRun c red
        (⟨c, h, w⟩ :: ⟨c, h, w⟩ :: List.replicate k ⟨c, half red h, half red w⟩) node
        = .ok ⟨c, half red h, half red w⟩ := by
      unfold nodeRun
      rw [mapM_const hedge]
      cases node with
      | nil => exact absurd rfl hne
      | cons e node => exact foldl_add _ _
    show (do
      let y ← nodeRun c red
        (⟨c, h, w⟩ :: ⟨c, h, w⟩ :: List.replicate k ⟨c, half red h, half red w⟩) node
      nodesRun c red
        ((⟨c, h, w⟩ :: ⟨c, h, w⟩ :: List.replicate k ⟨c, half red h, half red w⟩ : List Shape)
          ++ [y]) l) = _
    rw [hnode]
    dsimp only [bind, Except.bind]
    rw [List.cons_append, List.cons_append,
      show List.replicate k (⟨c, half red h, half red w⟩ : Shape) ++ [⟨c, half red h, half red w⟩]
        = List.replicate (k + 1) ⟨c, half red h, half red w⟩ from List.replicate_succ'.symm,
      nodesRun_ok hh hw hr (k := k + 1) (fun d node hd => by
        have := hg (d + 1) node hd
        refine ⟨this.1, fun e he => ?_⟩
        have := this.2 e he
        exact ⟨by omega, this.2⟩)]
    rw [List.length_cons, show k + 1 + l.length = k + (l.length + 1) by omega]

theorem cellRun_ok {g : CellCfg} {nodes h w h0 w0 : ℕ} {ch : List (List (ℕ × Op))}
    (hn : 1 ≤ nodes) (hg : GoodChoice nodes ch) (hh : 1 ≤ h) (hw : 1 ≤ w)
    (hr : g.red = true → g.c % 2 = 0 ∧ h % 2 = 0 ∧ w % 2 = 0)
    (hp : preproc0 g ⟨g.pprev, h0, w0⟩ = .ok ⟨g.c, h, w⟩) :
    cellRun g ch ⟨g.pprev, h0, w0⟩ ⟨g.prev, h, w⟩
      = .ok ⟨nodes * g.c, half g.red h, half g.red w⟩ := by
  unfold cellRun
  rw [hp]
  dsimp only [bind, Except.bind]
  have e1 : conv g.prev g.c 1 1 0 1 ⟨g.prev, h, w⟩ = .ok ⟨g.c, h, w⟩ := conv_one rfl hh hw
  rw [e1]
  dsimp only
  have e2 := nodesRun_ok (c := g.c) (red := g.red) hh hw hr (ch := ch) (k := 0)
    (fun d node hd => by simpa using hg.2 d node hd)
  rw [Nat.zero_add] at e2
  rw [show nodesRun g.c g.red [⟨g.c, h, w⟩, ⟨g.c, h, w⟩] ch = _ from e2]
  dsimp only
  obtain ⟨m, hm⟩ : ∃ m, ch.length = m + 1 := ⟨ch.length - 1, by have := hg.1; omega⟩
  rw [hm, List.replicate_succ]
  show List.foldlM cat _ _ = _
  rw [foldl_cat]
  have : nodes = m + 1 := by have := hg.1; omega
  rw [this, Nat.add_mul, Nat.one_mul, Nat.add_comm]

theorem reductions_succ (L n : ℕ) :
    reductions L (n + 1) = reductions L n + (if reduces L n then 1 else 0) := by
  unfold reductions reduces
  rw [List.range_succ, List.filter_append, List.length_append]
  congr 1
  by_cases h : n = L / 3 ∨ n = 2 * L / 3
  · rw [List.filter_cons_of_pos (by simpa using h), if_pos (by simpa using h)]; rfl
  · rw [List.filter_cons_of_neg (by simpa using h), if_neg (by simpa using h)]; rfl

theorem reductions_le (L n : ℕ) :
    reductions L n ≤ (if L / 3 < n then 1 else 0) + (if 2 * L / 3 < n then 1 else 0) := by
  induction n with
  | zero => simp [reductions]
  | succ n ih =>
    rw [reductions_succ]
    by_cases h : n = L / 3 ∨ n = 2 * L / 3
    · rw [if_pos (by simpa [reduces] using h)]
      rcases h with h | h
      · rw [if_neg (show ¬ L / 3 < n by omega)] at ih
        rw [if_pos (show L / 3 < n + 1 by omega)]
        by_cases h2 : 2 * L / 3 < n
        · rw [if_pos h2] at ih; rw [if_pos (by omega)]; omega
        · rw [if_neg h2] at ih; omega
      · rw [if_neg (show ¬ 2 * L / 3 < n by omega)] at ih
        rw [if_pos (show 2 * L / 3 < n + 1 by omega)]
        by_cases h2 : L / 3 < n
        · rw [if_pos h2] at ih; rw [if_pos (by omega)]; omega
        · rw [if_neg h2] at ih; omega
    · rw [if_neg (by simpa [reduces] using h)]
      refine le_trans ih ?_
      have a : ∀ m : ℕ, (if m < n then 1 else 0) ≤ (if m < n + 1 then 1 else 0) := by
        intro m
        by_cases hm : m < n
        · rw [if_pos hm, if_pos (by omega)]
        · rw [if_neg hm]; exact Nat.zero_le _
      exact Nat.add_le_add (a _) (a _)

theorem reductions_before {L n : ℕ} (h : reduces L n = true) : reductions L n ≤ 1 := by
  have := reductions_le L n
  have h : n = L / 3 ∨ n = 2 * L / 3 := by simpa [reduces] using h
  rcases h with h | h
  · rw [if_neg (show ¬ L / 3 < n by omega)] at this
    by_cases h2 : 2 * L / 3 < n
    · rw [if_pos h2] at this; omega
    · rw [if_neg h2] at this; omega
  · rw [if_neg (show ¬ 2 * L / 3 < n by omega)] at this
    by_cases h2 : L / 3 < n
    · rw [if_pos h2] at this; omega
    · rw [if_neg h2] at this; omega

theorem reductions_two (L n : ℕ) : reductions L n ≤ 2 := by
  have := reductions_le L n
  have a : ∀ m : ℕ, (if m < n then 1 else 0) ≤ 1 := by
    intro m; by_cases hm : m < n
    · rw [if_pos hm]
    · rw [if_neg hm]; omega
  have h1 := a (L / 3)
  have h2 := a (2 * L / 3)
  omega

theorem skip_even {cin c h w : ℕ} (hc : c % 2 = 0) (hh : 1 ≤ h) (hw : 1 ≤ w) (hh2 : h % 2 = 0)
    (hw2 : w % 2 = 0) : skipRun cin c 2 ⟨cin, h, w⟩ = .ok ⟨c, h / 2, w / 2⟩ := by
  have e1 : conv cin (c / 2) 1 2 0 1 ⟨cin, h, w⟩ = .ok ⟨c / 2, h / 2, w / 2⟩ := by
    rw [conv_point (x := ⟨cin, h, w⟩) (by omega) rfl hh hw]
    unfold expected up
    dsimp only
    rw [show (h + 2 - 1) / 2 = h / 2 by omega, show (w + 2 - 1) / 2 = w / 2 by omega]
  have e2 : conv cin (c / 2) 1 2 0 1 (crop ⟨cin, h, w⟩) = .ok ⟨c / 2, h / 2, w / 2⟩ := by
    rw [conv_point (cin := cin) (x := crop ⟨cin, h, w⟩) (by omega) rfl
      (show 1 ≤ h - 1 by omega) (show 1 ≤ w - 1 by omega)]
    unfold expected up crop
    dsimp only
    rw [show (h - 1 + 2 - 1) / 2 = h / 2 by omega, show (w - 1 + 2 - 1) / 2 = w / 2 by omega]
  unfold skipRun
  rw [if_pos (by omega), e1]
  dsimp only [bind, Except.bind]
  rw [e2]
  dsimp only
  rw [cat_ok]
  dsimp only
  rw [show c / 2 + c / 2 = c by omega]
  exact keep_ok _ _ _

theorem skip_odd {cin cin' c h w : ℕ} (ho : h % 2 = 1 ∨ w % 2 = 1) :
    skipRun cin c 2 ⟨cin', h, w⟩ = .error .runtime := by
  unfold skipRun
  rw [if_pos (by omega)]
  by_cases hc : cin' = cin
  · subst hc
    by_cases hs : 2 ≤ h ∧ 2 ≤ w
    · have e1 : conv cin' (c / 2) 1 2 0 1 ⟨cin', h, w⟩ = .ok ⟨c / 2, up h 2, up w 2⟩ :=
        conv_point (x := ⟨cin', h, w⟩) (by omega) rfl (show 1 ≤ h by omega) (show 1 ≤ w by omega)
      have e2 : conv cin' (c / 2) 1 2 0 1 (crop ⟨cin', h, w⟩)
          = .ok ⟨c / 2, up (h - 1) 2, up (w - 1) 2⟩ :=
        conv_point (x := crop ⟨cin', h, w⟩) (by omega) rfl (show 1 ≤ h - 1 by omega)
          (show 1 ≤ w - 1 by omega)
      rw [e1]
      dsimp only [bind, Except.bind]
      rw [e2]
      dsimp only
      unfold cat
      rw [if_neg (by unfold up; dsimp only; omega)]
    · by_cases h1 : 1 ≤ h ∧ 1 ≤ w
      · have e1 : conv cin' (c / 2) 1 2 0 1 ⟨cin', h, w⟩ = .ok ⟨c / 2, up h 2, up w 2⟩ :=
          conv_point (x := ⟨cin', h, w⟩) (by omega) rfl h1.1 h1.2
        rw [e1]
        dsimp only [bind, Except.bind]
        have e2 : conv cin' (c / 2) 1 2 0 1 (crop ⟨cin', h, w⟩) = .error .runtime := by
          unfold conv win crop
          rw [if_pos rfl]
          by_cases h3 : 2 ≤ h
          · rw [if_neg (by dsimp only; omega), if_pos (by dsimp only; omega)]; rfl
          · rw [if_pos (by dsimp only; omega)]; rfl
        rw [e2]
      · have e1 : conv cin' (c / 2) 1 2 0 1 ⟨cin', h, w⟩ = .error .runtime := by
          unfold conv win
          rw [if_pos rfl]
          by_cases h3 : 1 ≤ h
          · rw [if_neg (by dsimp only; omega), if_pos (by dsimp only; omega)]; rfl
          · rw [if_pos (by dsimp only; omega)]; rfl
        rw [e1]; rfl
  · have e1 : conv cin (c / 2) 1 2 0 1 ⟨cin', h, w⟩ = .error .runtime := if_neg hc
    rw [e1]; rfl

theorem step_ok {g : Cfg} {h w i ρ0 prev pprev : ℕ} {red : Bool} {ch : List (List (ℕ × Op))}
    (hn : 1 ≤ g.nodes) (hg : GoodChoice g.nodes ch)
    (hρ : ρ0 + (if red then 1 else 0) = reductions g.L i)
    (hh : 1 ≤ h / 2 ^ reductions g.L i) (hw : 1 ≤ w / 2 ^ reductions g.L i)
    (hp : red = true → h / 2 ^ ρ0 % 2 = 0 ∧ w / 2 ^ ρ0 % 2 = 0)
    (hr : reduces g.L i = true →
      h / 2 ^ reductions g.L i % 2 = 0 ∧ w / 2 ^ reductions g.L i % 2 = 0) :
    cellRun ⟨if reduces g.L i then g.base * 2 ^ reductions g.L i * 2
        else g.base * 2 ^ reductions g.L i, prev, pprev, reduces g.L i, red⟩ ch
      ⟨pprev, h / 2 ^ ρ0, w / 2 ^ ρ0⟩
      ⟨prev, h / 2 ^ reductions g.L i, w / 2 ^ reductions g.L i⟩
    = .ok (cellShape g h w i) := by
  have hdiv : ∀ n ρ : ℕ, n / 2 ^ ρ / 2 = n / 2 ^ (ρ + 1) := fun n ρ => by
    rw [Nat.div_div_eq_div_mul, Nat.pow_succ]
  have heven : red = true ∨ reduces g.L i = true →
      (if reduces g.L i then g.base * 2 ^ reductions g.L i * 2
        else g.base * 2 ^ reductions g.L i) % 2 = 0 := by
    intro h
    by_cases hc : reduces g.L i = true
    · rw [if_pos hc]; omega
    · rcases h with h | h
      · rw [if_neg hc, ← hρ, if_pos h, Nat.pow_succ, ← Nat.mul_assoc]; omega
      · exact absurd h hc
  have hpre : preproc0 ⟨if reduces g.L i then g.base * 2 ^ reductions g.L i * 2
        else g.base * 2 ^ reductions g.L i, prev, pprev, reduces g.L i, red⟩
      ⟨pprev, h / 2 ^ ρ0, w / 2 ^ ρ0⟩
      = .ok ⟨if reduces g.L i then g.base * 2 ^ reductions g.L i * 2
        else g.base * 2 ^ reductions g.L i, h / 2 ^ reductions g.L i,
          w / 2 ^ reductions g.L i⟩ := by
    unfold preproc0
    dsimp only
    cases red with
    | true =>
      have e : ρ0 + 1 = reductions g.L i := by simpa using hρ
      rw [if_pos rfl]
      have h1 := hdiv h ρ0
      have h2 := hdiv w ρ0
      rw [e] at h1 h2
      rw [skip_even (heven (Or.inl rfl)) (by omega) (by omega) (hp rfl).1 (hp rfl).2, h1, h2]
    | false =>
      have e : ρ0 = reductions g.L i := by simpa using hρ
      rw [if_neg (by decide), e]
      exact conv_one rfl hh hw
  refine (cellRun_ok hn hg hh hw (fun h => ⟨heven (Or.inr h), hr h⟩) hpre).trans ?_
  unfold cellShape half
  dsimp only
  rw [reductions_succ]
  by_cases hc : reduces g.L i = true
  · rw [if_pos hc, if_pos hc, if_pos hc, if_pos hc, hdiv, hdiv, Nat.mul_assoc, ← Nat.pow_succ]
  · rw [if_neg hc, if_neg hc, if_neg hc, if_neg hc, Nat.add_zero]

theorem next_out (g : Cfg) (i : ℕ) : (if reduces g.L i then g.base * 2 ^ reductions g.L i * 2
    else g.base * 2 ^ reductions g.L i) = g.base * 2 ^ reductions g.L (i + 1) := by
  rw [reductions_succ]
  by_cases hc : reduces g.L i = true
  · rw [if_pos hc, if_pos hc, Nat.mul_assoc, ← Nat.pow_succ]
  · rw [if_neg hc, if_neg hc, Nat.add_zero]

theorem div_even {h ρ : ℕ} (h4 : h % 4 = 0) (hρ : ρ ≤ 1) : h / 2 ^ ρ % 2 = 0 := by
  rcases (show ρ = 0 ∨ ρ = 1 by omega) with rfl | rfl
  · rw [Nat.pow_zero, Nat.div_one]; omega
  · rw [Nat.pow_one]; omega

theorem div_pos4 {h ρ : ℕ} (h4 : h % 4 = 0) (h1 : 1 ≤ h) (hρ : ρ ≤ 2) : 1 ≤ h / 2 ^ ρ := by
  rcases (show ρ = 0 ∨ ρ = 1 ∨ ρ = 2 by omega) with rfl | rfl | rfl
  · rw [Nat.pow_zero, Nat.div_one]; omega
  · rw [Nat.pow_one]; omega
  · rw [show 2 ^ 2 = 4 from rfl]; omega

/-- One turn of the loop, for images with sizes divisible by four. -/
theorem turn {g : Cfg} {h w i ρ0 prev pprev n : ℕ} {red tr : Bool} {ch : List (List (ℕ × Op))}
    {chs : List (List (List (ℕ × Op)))} {outs : List Shape}
    (hn : 1 ≤ g.nodes) (hg : GoodChoice g.nodes ch)
    (hρ : ρ0 + (if red then 1 else 0) = reductions g.L i)
    (hh4 : h % 4 = 0) (hw4 : w % 4 = 0) (hh : 1 ≤ h) (hw : 1 ≤ w) :
    cellsRun g tr i ((cellsFrom g.L g.nodes (n + 1) i (g.base * 2 ^ reductions g.L i) prev pprev
        red).zip (ch :: chs)) ⟨pprev, h / 2 ^ ρ0, w / 2 ^ ρ0⟩
      ⟨prev, h / 2 ^ reductions g.L i, w / 2 ^ reductions g.L i⟩ outs
    = (do
      let o ← auxAt g tr i (if (i : ℤ) ∈ g.outIdx then outs ++ [cellShape g h w i] else outs)
        (cellShape g h w i)
      cellsRun g tr (i + 1) ((cellsFrom g.L g.nodes n (i + 1)
          (g.base * 2 ^ reductions g.L (i + 1)) (g.nodes * (g.base * 2 ^ reductions g.L (i + 1)))
          prev (reduces g.L i)).zip chs)
        ⟨prev, h / 2 ^ reductions g.L i, w / 2 ^ reductions g.L i⟩ (cellShape g h w i) o) := by
  have h2 := reductions_two g.L i
  have e := step_ok (prev := prev) (pprev := pprev) hn hg hρ (div_pos4 hh4 hh h2)
    (div_pos4 hw4 hw h2)
    (fun hr => by
      have : ρ0 ≤ 1 := by rw [if_pos hr] at hρ; omega
      exact ⟨div_even hh4 this, div_even hw4 this⟩)
    (fun hr => ⟨div_even hh4 (reductions_before hr), div_even hw4 (reductions_before hr)⟩)
  rw [cellsFrom, List.zip_cons_cons, cellsRun, e]
  dsimp only [bind, Except.bind]
  rw [next_out, Nat.mul_comm (g.base * 2 ^ reductions g.L (i + 1)) g.nodes]

theorem aux_ok {c mid out h w : ℕ} (hh : 7 ≤ h) (hw : 7 ≤ w) :
    auxRun c mid out ⟨c, h, w⟩ = .ok ⟨out, (h - 5) / 2, (w - 5) / 2⟩ := by
  have wp : ∀ n, 7 ≤ n → win 5 2 0 1 n = .ok ((n - 5) / 2 + 1) := by
    intro n hn
    unfold win
    rw [if_neg (by omega)]
    congr 2
  have wc : ∀ n, 2 ≤ n → win 2 1 0 1 n = .ok (n - 1) := by
    intro n hn
    unfold win
    rw [if_neg (by omega)]
    congr 1
    omega
  have e1 : pool 5 2 0 ⟨c, h, w⟩ = .ok ⟨c, (h - 5) / 2 + 1, (w - 5) / 2 + 1⟩ := by
    unfold pool
    rw [wp h hh, wp w hw]; rfl
  have e2 : conv c mid 1 1 0 1 ⟨c, (h - 5) / 2 + 1, (w - 5) / 2 + 1⟩
      = .ok ⟨mid, (h - 5) / 2 + 1, (w - 5) / 2 + 1⟩ :=
    conv_one rfl (show 1 ≤ (h - 5) / 2 + 1 by omega) (show 1 ≤ (w - 5) / 2 + 1 by omega)
  have e3 : conv mid out 2 1 0 1 ⟨mid, (h - 5) / 2 + 1, (w - 5) / 2 + 1⟩
      = .ok ⟨out, (h - 5) / 2, (w - 5) / 2⟩ := by
    unfold conv
    rw [if_pos rfl]
    dsimp only
    rw [wc _ (by omega), wc _ (by omega)]; rfl
  unfold auxRun
  rw [e1]
  dsimp only [bind, Except.bind]
  rw [e2]
  exact e3

theorem aux_small {c mid out h w : ℕ} (hs : h < 7 ∨ w < 7) :
    ∃ e, auxRun c mid out ⟨c, h, w⟩ = .error e := by
  have wp : ∀ n, win 5 2 0 1 n = if n < 5 then .error .runtime else .ok ((n - 5) / 2 + 1) := by
    intro n
    unfold win
    by_cases hn : n < 5
    · rw [if_pos (by omega), if_pos hn]
    · rw [if_neg (by omega), if_neg hn]
      congr 2
  unfold auxRun pool
  dsimp only
  rw [wp, wp]
  by_cases h5 : h < 5
  · rw [if_pos h5]; exact ⟨_, rfl⟩
  by_cases w5 : w < 5
  · rw [if_neg h5, if_pos w5]; exact ⟨_, rfl⟩
  rw [if_neg h5, if_neg w5]
  dsimp only [bind, Except.bind, pure, Except.pure]
  have e2 : conv c mid 1 1 0 1 ⟨c, (h - 5) / 2 + 1, (w - 5) / 2 + 1⟩
      = .ok ⟨mid, (h - 5) / 2 + 1, (w - 5) / 2 + 1⟩ :=
    conv_one rfl (show 1 ≤ (h - 5) / 2 + 1 by omega) (show 1 ≤ (w - 5) / 2 + 1 by omega)
  rw [e2]
  dsimp only
  unfold conv
  rw [if_pos rfl]
  unfold win
  dsimp only
  by_cases h7 : h < 7
  · rw [if_pos (by omega)]; exact ⟨_, rfl⟩
  · rw [if_neg (by omega), if_pos (by omega)]; exact ⟨_, rfl⟩

theorem auxAt_ok {g : Cfg} {tr : Bool} {h w i : ℕ} {outs : List Shape}
    (ha : g.aux.isSome = true → tr = true →
      7 ≤ (cellShape g h w (2 * g.L / 3)).h ∧ 7 ≤ (cellShape g h w (2 * g.L / 3)).w) :
    auxAt g tr i outs (cellShape g h w i)
      = .ok ((if i = 2 * g.L / 3 then auxShape g tr h w else []) ++ outs) := by
  unfold auxAt auxShape
  cases hx : g.aux with
  | none => dsimp only; rw [ite_self]; rfl
  | some p =>
    obtain ⟨mid, out⟩ := p
    dsimp only
    by_cases hi : i = 2 * g.L / 3
    · by_cases ht : tr = true
      · rw [if_pos ⟨hi, ht⟩, if_pos hi, if_pos ht, hi]
        have := ha (by rw [hx]; rfl) ht
        have e : auxRun (cellShape g h w (2 * g.L / 3)).c mid out (cellShape g h w (2 * g.L / 3))
            = _ := aux_ok this.1 this.2
        rw [e]; rfl
      · rw [if_neg (fun h => ht h.2), if_neg ht, ite_self]; rfl
    · rw [if_neg (fun h => hi h.1), if_neg hi]; rfl

theorem cells_ok {g : Cfg} {h w : ℕ} {tr : Bool} (hL : 1 ≤ g.L) (hn : 1 ≤ g.nodes)
    (hh4 : h % 4 = 0) (hw4 : w % 4 = 0) (hh : 1 ≤ h) (hw : 1 ≤ w)
    (ha : g.aux.isSome = true → tr = true →
      7 ≤ (cellShape g h w (2 * g.L / 3)).h ∧ 7 ≤ (cellShape g h w (2 * g.L / 3)).w) :
    ∀ (n i ρ0 prev pprev : ℕ) (red : Bool) (chs : List (List (List (ℕ × Op))))
      (outs : List Shape), i + n = g.L → chs.length = n → (∀ ch ∈ chs, GoodChoice g.nodes ch) →
      ρ0 + (if red then 1 else 0) = reductions g.L i →
      cellsRun g tr i ((cellsFrom g.L g.nodes n i (g.base * 2 ^ reductions g.L i) prev pprev
        red).zip chs) ⟨pprev, h / 2 ^ ρ0, w / 2 ^ ρ0⟩
        ⟨prev, h / 2 ^ reductions g.L i, w / 2 ^ reductions g.L i⟩ outs
      = .ok ((if i ≤ 2 * g.L / 3 then auxShape g tr h w else []) ++ outs
          ++ ((List.range' i n).filter (fun j : ℕ => decide ((j : ℤ) ∈ g.outIdx))).map
            (cellShape g h w))
  | 0, i, _, _, _, _, chs, outs, hi, _, _, _ => by
    rw [if_neg (by omega)]
    show Except.ok outs = _
    simp
  | n + 1, i, ρ0, prev, pprev, red, [], outs, _, hl, _, _ => by simp at hl
  | n + 1, i, ρ0, prev, pprev, red, ch :: chs, outs, hi, hl, hg, hρ => by
    rw [turn hn (hg ch (List.Mem.head _)) hρ hh4 hw4 hh hw, auxAt_ok ha]
    dsimp only [bind, Except.bind]
    have ih := cells_ok hL hn hh4 hw4 hh hw ha n (i + 1) (reductions g.L i)
      (g.nodes * (g.base * 2 ^ reductions g.L (i + 1))) prev (reduces g.L i) chs
      ((if i = 2 * g.L / 3 then auxShape g tr h w else [])
        ++ (if (i : ℤ) ∈ g.outIdx then outs ++ [cellShape g h w i] else outs))
      (by omega) (by simpa using hl) (fun c hc => hg c (List.Mem.tail _ hc))
      (reductions_succ g.L i).symm
    refine Eq.trans ih ?_
    rw [List.range'_succ]
    congr 1
    have e : (if i + 1 ≤ 2 * g.L / 3 then auxShape g tr h w else [])
        ++ (if i = 2 * g.L / 3 then auxShape g tr h w else [])
        = if i ≤ 2 * g.L / 3 then auxShape g tr h w else [] := by
      rcases Nat.lt_trichotomy i (2 * g.L / 3) with h | h | h
      · rw [if_pos (by omega), if_neg (by omega), if_pos (by omega), List.append_nil]
      · rw [if_neg (by omega), if_pos h, if_pos (by omega), List.nil_append]
      · rw [if_neg (by omega), if_neg (by omega), if_neg (by omega), List.nil_append]
    rw [← List.append_assoc, e]
    by_cases hm : (i : ℤ) ∈ g.outIdx
    · rw [if_pos hm, List.filter_cons_of_pos (by simpa using hm), List.map_cons,
        List.append_assoc, List.append_assoc, List.append_assoc]
      rfl
    · rw [if_neg hm, List.filter_cons_of_neg (by simpa using hm)]

theorem cells_aux_small {g : Cfg} {h w mid out : ℕ} (hn : 1 ≤ g.nodes)
    (hh4 : h % 4 = 0) (hw4 : w % 4 = 0) (hh : 1 ≤ h) (hw : 1 ≤ w) (ha : g.aux = some (mid, out))
    (hs : (cellShape g h w (2 * g.L / 3)).h < 7 ∨ (cellShape g h w (2 * g.L / 3)).w < 7) :
    ∀ (n i ρ0 prev pprev : ℕ) (red : Bool) (chs : List (List (List (ℕ × Op))))
      (outs : List Shape), i + n = g.L → i ≤ 2 * g.L / 3 → 2 * g.L / 3 < g.L → chs.length = n →
      (∀ ch ∈ chs, GoodChoice g.nodes ch) →
      ρ0 + (if red then 1 else 0) = reductions g.L i →
      ∃ e, cellsRun g true i ((cellsFrom g.L g.nodes n i (g.base * 2 ^ reductions g.L i) prev pprev
        red).zip chs) ⟨pprev, h / 2 ^ ρ0, w / 2 ^ ρ0⟩
        ⟨prev, h / 2 ^ reductions g.L i, w / 2 ^ reductions g.L i⟩ outs = .error e
  | 0, i, _, _, _, _, chs, outs, hi, hle, hlt, _, _, _ => by omega
  | n + 1, i, ρ0, prev, pprev, red, [], outs, _, _, _, hl, _, _ => by simp at hl
  | n + 1, i, ρ0, prev, pprev, red, ch :: chs, outs, hi, hle, hlt, hl, hg, hρ => by
    rw [turn hn (hg ch (List.Mem.head _)) hρ hh4 hw4 hh hw]
    unfold auxAt
    rw [ha]
    dsimp only
    by_cases h3 : i = 2 * g.L / 3
    · rw [if_pos ⟨h3, rfl⟩]
      obtain ⟨e, he⟩ := aux_small (c := (cellShape g h w (2 * g.L / 3)).c) (mid := mid)
        (out := out) hs
      rw [← h3] at he
      have he : auxRun (cellShape g h w i).c mid out (cellShape g h w i) = .error e := he
      rw [he]
      exact ⟨e, rfl⟩
    · rw [if_neg (fun h => h3 h.1)]
      exact cells_aux_small hn hh4 hw4 hh hw ha hs n (i + 1) (reductions g.L i)
        (g.nodes * (g.base * 2 ^ reductions g.L (i + 1))) prev (reduces g.L i) chs _
        (by omega) (by omega) hlt (by simpa using hl) (fun c hc => hg c (List.Mem.tail _ hc))
        (reductions_succ g.L i).symm

theorem reductions_zero {L i : ℕ} (h : i ≤ L / 3) : reductions L i = 0 := by
  have := reductions_le L i
  rw [if_neg (by omega), if_neg (by omega)] at this
  omega

theorem cells_odd {g : Cfg} {h w : ℕ} {tr : Bool} (hn : 1 ≤ g.nodes)
    (hh : 1 ≤ h) (hw : 1 ≤ w) (ho : h % 2 = 1 ∨ w % 2 = 1) (hL : 2 ≤ g.L) :
    ∀ (n i prev pprev : ℕ) (chs : List (List (List (ℕ × Op))))
      (outs : List Shape), i + n = g.L → i ≤ g.L / 3 → chs.length = n →
      (∀ ch ∈ chs, GoodChoice g.nodes ch) →
      ∃ e, cellsRun g tr i ((cellsFrom g.L g.nodes n i g.base prev pprev
        false).zip chs) ⟨pprev, h, w⟩ ⟨prev, h, w⟩ outs = .error e
  | 0, i, _, _, chs, outs, hi, hle, _, _ => by omega
  | n + 1, i, prev, pprev, [], outs, _, _, hl, _ => by simp at hl
  | n + 1, i, prev, pprev, ch :: chs, outs, hi, hle, hl, hg => by
    rw [cellsFrom, List.zip_cons_cons, cellsRun]
    by_cases h3 : i = g.L / 3
    · have hr : reduces g.L i = true := by unfold reduces; simp [h3]
      rw [hr]
      cases hcell : cellRun ⟨if true = true then g.base * 2 else g.base, prev, pprev, true, false⟩
          ch ⟨pprev, h, w⟩ ⟨prev, h, w⟩ with
      | error e => exact ⟨e, rfl⟩
      | ok y =>
        dsimp only [bind, Except.bind]
        cases haux : auxAt g tr i (if (i : ℤ) ∈ g.outIdx then outs ++ [y] else outs) y with
        | error e => exact ⟨e, rfl⟩
        | ok o =>
          dsimp only
          match n, chs, hl with
          | 0, _, _ => omega
          | n + 1, [], hl => simp at hl
          | n + 1, ch2 :: chs, _ =>
            rw [cellsFrom, List.zip_cons_cons, cellsRun]
            unfold cellRun preproc0
            dsimp only
            rw [if_pos rfl, skip_odd ho]
            exact ⟨_, rfl⟩
    · have hr : reduces g.L i = false := by
        unfold reduces
        have : ¬ i = 2 * g.L / 3 := by omega
        simp [h3, this]
      have e0 := reductions_zero hle
      have e := step_ok (g := g) (h := h) (w := w) (i := i) (ρ0 := 0) (prev := prev)
        (pprev := pprev) (red := false) hn (hg ch (List.Mem.head _)) (by rw [e0]; rfl)
        (by rw [e0]; simpa using hh) (by rw [e0]; simpa using hw)
        (fun h => absurd h (by decide)) (fun h => absurd h (by rw [hr]; decide))
      have es : cellShape g h w i = ⟨g.base * g.nodes, h, w⟩ := by
        unfold cellShape
        rw [reductions_zero (show i + 1 ≤ g.L / 3 by omega), Nat.pow_zero, Nat.div_one,
          Nat.div_one, Nat.mul_one, Nat.mul_comm]
      rw [es, hr, e0, Nat.pow_zero, Nat.div_one, Nat.div_one, Nat.mul_one] at e
      rw [hr]
      rw [e]
      dsimp only [bind, Except.bind]
      cases haux : auxAt g tr i (if (i : ℤ) ∈ g.outIdx then outs ++ [⟨g.base * g.nodes, h, w⟩]
          else outs) ⟨g.base * g.nodes, h, w⟩ with
      | error e => exact ⟨e, rfl⟩
      | ok o =>
        exact cells_odd hn hh hw ho hL n (i + 1) (g.base * g.nodes) prev chs o (by omega)
          (by omega) (by simpa using hl) (fun c hc => hg c (List.Mem.tail _ hc))

theorem reductions_all {L : ℕ} (hL : 2 ≤ L) : ∀ n,
    reductions L n = (if L / 3 < n then 1 else 0) + (if 2 * L / 3 < n then 1 else 0)
  | 0 => by simp [reductions]
  | n + 1 => by
    rw [reductions_succ, reductions_all hL n]
    rcases Nat.lt_trichotomy n (L / 3) with h | h | h
    · have : reduces L n = false := by
        have a : ¬ n = L / 3 := by omega
        have b : ¬ n = 2 * L / 3 := by omega
        simp [reduces, a, b]
      rw [this]; simp only [Bool.false_eq_true, reduceIte]; split_ifs <;> omega
    · have : reduces L n = true := by simp [reduces, h]
      rw [this]; simp only [Bool.false_eq_true, reduceIte]; split_ifs <;> omega
    · rcases Nat.lt_trichotomy n (2 * L / 3) with h2 | h2 | h2
      · have : reduces L n = false := by
          have a : ¬ n = L / 3 := by omega
          have b : ¬ n = 2 * L / 3 := by omega
          simp [reduces, a, b]
        rw [this]; simp only [Bool.false_eq_true, reduceIte]; split_ifs <;> omega
      · have : reduces L n = true := by simp [reduces, h2]
        rw [this]; simp only [Bool.false_eq_true, reduceIte]; split_ifs <;> omega
      · have : reduces L n = false := by
          have a : ¬ n = L / 3 := by omega
          have b : ¬ n = 2 * L / 3 := by omega
          simp [reduces, a, b]
        rw [this]; simp only [Bool.false_eq_true, reduceIte]; split_ifs <;> omega

theorem make_cells {g : Cfg} {cells : List CellCfg} (hm : make g = .ok cells) :
    cells = cellsFrom g.L g.nodes g.L 0 g.base (g.mult * g.base) (g.mult * g.base) false
    ∧ g.outIdx.getLast? = some ((g.L : ℤ) - 1) := by
  unfold make at hm
  cases hl : g.outIdx.getLast? with
  | none => rw [hl] at hm; cases hm
  | some z =>
    rw [hl] at hm
    dsimp only at hm
    by_cases hz : z = (g.L : ℤ) - 1
    · rw [if_pos hz] at hm
      cases hm
      exact ⟨rfl, by rw [hz]⟩
    · rw [if_neg hz] at hm; cases hm

theorem stem_ok {cin c h w : ℕ} (hh : 1 ≤ h) (hw : 1 ≤ w) :
    conv cin c 3 1 1 1 ⟨cin, h, w⟩ = .ok ⟨c, h, w⟩ :=
  conv_keep (k := 3) (x := ⟨cin, h, w⟩) rfl rfl hh hw

theorem run_ok {g : Cfg} {cells : List CellCfg} (hm : make g = .ok cells) (hL : 1 ≤ g.L)
    (hn : 1 ≤ g.nodes) {training : Bool} {choice : List (List (List (ℕ × Op)))}
    (hlen : choice.length = g.L) (hg : ∀ ch ∈ choice, GoodChoice g.nodes ch) {h w : ℕ}
    (hh : 1 ≤ h) (hw : 1 ≤ w) (hh4 : h % 4 = 0) (hw4 : w % 4 = 0)
    (ha : g.aux.isSome = true → training = true →
      7 ≤ (cellShape g h w (2 * g.L / 3)).h ∧ 7 ≤ (cellShape g h w (2 * g.L / 3)).w) :
    run g cells training choice ⟨g.cin, h, w⟩
      = .ok (auxShape g training h w
          ++ ((List.range g.L).filter (fun j : ℕ => decide ((j : ℤ) ∈ g.outIdx))).map
            (cellShape g h w)) := by
  obtain ⟨rfl, -⟩ := make_cells hm
  have e := cells_ok (tr := training) hL hn hh4 hw4 hh hw ha g.L 0 0 (g.mult * g.base)
    (g.mult * g.base) false choice [] (by omega) hlen hg rfl
  have e0 : reductions g.L 0 = 0 := rfl
  rw [e0, Nat.pow_zero, Nat.div_one, Nat.div_one, Nat.mul_one, if_pos (Nat.zero_le _),
    List.append_nil, ← List.range_eq_range'] at e
  unfold run
  rw [stem_ok hh hw]
  exact e

end Verif.DartsNet
