import Verif.Spec.WideNet

/-! Helper lemmas for `Verif/Props/WideNet.lean`. -/

namespace Verif.WideNet
open Verif

/-- The channels after some stages. -/
def lastCh (cin cout : ℕ) : ℕ → ℕ
  | 0 => cin
  | m + 1 => cout * 2 ^ m

theorem ceilDiv_eq (h s : ℕ) (hh : 0 < h) (hs : 0 < s) : (h - 1) / s + 1 = ceilDiv h s := by
  unfold ceilDiv
  rw [← Nat.add_div_right _ hs]
  congr 1
  omega

theorem ceilDiv_pos (h s : ℕ) (hh : 0 < h) (hs : 0 < s) : 0 < ceilDiv h s := by
  rw [← ceilDiv_eq h s hh hs]
  exact Nat.succ_pos _

theorem conv_ok (c : Conv) (h m : ℕ) (h1 : c.stride ≠ 0) (h2 : c.dil ≠ 0)
    (hm : h + 2 * c.pad = m + c.dil * (c.k - 1) + 1) :
    convShape c (c.cin, h) = .ok (c.cout, m / c.stride + 1) := by
  unfold convShape
  rw [if_neg]
  · dsimp only
    rw [hm, show m + c.dil * (c.k - 1) + 1 - c.dil * (c.k - 1) - 1 = m by omega]
  · rintro (h | h | h | h)
    · exact h rfl
    · exact h1 h
    · exact h2 h
    · dsimp only at h
      omega

theorem block_ok (cin cout s d h : ℕ) (hs : 0 < s) (hd : 0 < d) (hh : 0 < h) :
    blockShape true (mkBlock cin cout s d (mkDown cin cout s)) (cin, h) =
      .ok (cout, ceilDiv h s) := by
  have e1 : normShape cin (cin, h) = .ok (cin, h) := by
    unfold normShape
    rw [if_neg]
    simp
  have e2 : convShape ⟨cin, cout, 3, s, d, d⟩ (cin, h) = .ok (cout, ceilDiv h s) := by
    rw [← ceilDiv_eq h s hh hs]
    exact conv_ok ⟨cin, cout, 3, s, d, d⟩ h (h - 1) (by dsimp only; omega) (by dsimp only; omega)
      (by dsimp only; omega)
  have e3 : normShape cout (cout, ceilDiv h s) = .ok (cout, ceilDiv h s) := by
    unfold normShape
    rw [if_neg]
    simp
  have hp := ceilDiv_pos h s hh hs
  have e4 : convShape ⟨cout, cout, 3, 1, 1, 1⟩ (cout, ceilDiv h s) = .ok (cout, ceilDiv h s) := by
    have := conv_ok ⟨cout, cout, 3, 1, 1, 1⟩ (ceilDiv h s) (ceilDiv h s - 1) (by simp) (by simp)
      (by dsimp only; omega)
    rw [this]
    dsimp only
    rw [Nat.div_one]
    congr 2
    omega
  have e5 : shortcut (mkBlock cin cout s d (mkDown cin cout s)) (cin, h) =
      .ok (cout, ceilDiv h s) := by
    unfold shortcut mkBlock mkDown
    dsimp only
    by_cases hc : s ≠ 1 ∨ cin ≠ cout
    · rw [if_pos hc]
      dsimp only
      rw [← ceilDiv_eq h s hh hs]
      exact conv_ok ⟨cin, cout, 1, s, 0, 1⟩ h (h - 1) (by dsimp only; omega) (by simp)
        (by dsimp only; omega)
    · rw [if_neg hc]
      push Not at hc
      obtain ⟨rfl, rfl⟩ := hc
      dsimp only
      rw [← ceilDiv_eq h 1 hh Nat.one_pos, Nat.div_one]
      congr 2
      omega
  unfold blockShape
  dsimp only [mkBlock] at e5 ⊢
  rw [if_neg (by decide)]
  dsimp only [bind, Except.bind]
  rw [e1]
  dsimp only
  rw [e2]
  dsimp only
  rw [e3]
  dsimp only
  rw [e4]
  dsimp only
  rw [e5]
  dsimp only
  unfold addShape
  rw [if_pos rfl]

theorem block_same (c d h : ℕ) (hd : 0 < d) (hh : 0 < h) :
    blockShape true (mkBlock c c 1 d none) (c, h) = .ok (c, h) := by
  have := block_ok c c 1 d h Nat.one_pos hd hh
  unfold mkDown at this
  rw [if_neg (by simp)] at this
  rw [this, ← ceilDiv_eq h 1 hh Nat.one_pos, Nat.div_one]
  congr 2
  omega

theorem seq_append (bn : Bool) (l m : List Block) (x y : Shape) (h : seqShape bn l x = .ok y) :
    seqShape bn (l ++ m) x = seqShape bn m y := by
  induction l generalizing x with
  | nil =>
    injection h with h
    rw [h]
    rfl
  | cons b l ih =>
    rw [seqShape] at h
    rw [List.cons_append, seqShape]
    cases hb : blockShape bn b x with
    | error e =>
      rw [hb] at h
      cases h
    | ok z =>
      rw [hb] at h
      dsimp only at h ⊢
      exact ih z h

theorem seq_replicate (m c d h : ℕ) (hd : 0 < d) (hh : 0 < h) :
    seqShape true (List.replicate m (mkBlock c c 1 d none)) (c, h) = .ok (c, h) := by
  induction m with
  | zero => rfl
  | succ m ih =>
    rw [List.replicate_succ, seqShape, block_same c d h hd hh]
    exact ih

theorem stage_ok (n cin cout s d h : ℕ) (hs : 0 < s) (hd : 0 < d) (hh : 0 < h) :
    seqShape true (resLayer n cin cout s d) (cin, h) = .ok (cout, ceilDiv h s) := by
  unfold resLayer
  rw [seqShape, block_ok cin cout s d h hs hd hh]
  exact seq_replicate _ _ _ _ hd (ceilDiv_pos h s hh hs)

theorem lastCh_succ (cin cout m : ℕ) : lastCh cout (cout * 2) m = lastCh cin cout (m + 1) := by
  cases m with
  | zero => simp [lastCh]
  | succ m =>
    show cout * 2 * 2 ^ m = cout * 2 ^ (m + 1)
    rw [pow_succ]
    ring

/-- The last layer of a stage returns its channels. -/
theorem resLayer_last (n cin cout s d : ℕ) :
    ∃ b, (resLayer n cin cout s d).getLast? = some b ∧ b.conv2.cout = cout := by
  unfold resLayer
  cases hn : n - 1 with
  | zero => exact ⟨_, rfl, rfl⟩
  | succ m =>
    rw [List.replicate_succ', ← List.cons_append, List.getLast?_concat]
    exact ⟨_, rfl, rfl⟩

theorem stages_ok (c : Cfg) (hsp : ∀ s ∈ c.strides, 0 < s) (hdp : ∀ d ∈ c.dilations, 0 < d)
    (l : List ℕ) (i cin cout : ℕ) (hs : i + l.length ≤ c.strides.length)
    (hd : i + l.length ≤ c.dilations.length) :
    ∃ st, mkStages c l i cin cout = .ok (st, cout * 2 ^ l.length) ∧ st.length = l.length ∧
      (∀ h, 0 < h → seqShape true st.flatten (cin, h) =
        .ok (lastCh cin cout l.length, ((c.strides.drop i).take l.length).foldl ceilDiv h)) ∧
      (l ≠ [] → ∃ s, st.getLast? = some s ∧ ∃ b, s.getLast? = some b ∧
        b.conv2.cout = lastCh cin cout l.length) ∧
      ∀ j n : ℕ, l[j]? = some n → ∃ ci co s d, st[j]? = some (resLayer n ci co s d) := by
  induction l generalizing i cin cout with
  | nil =>
    refine ⟨[], ?_, rfl, ?_, ?_, ?_⟩
    · rw [mkStages]
      simp
    · intro h _
      simp [seqShape, lastCh]
    · intro h
      exact absurd rfl h
    · intro j n h
      simp at h
  | cons n l ih =>
    rw [List.length_cons] at hs hd
    have e1 : c.strides[i]? = some c.strides[i] := List.getElem?_eq_getElem (by omega)
    have e2 : c.dilations[i]? = some c.dilations[i] := List.getElem?_eq_getElem (by omega)
    have p1 : 0 < c.strides[i] := hsp _ (List.getElem_mem _)
    have p2 : 0 < c.dilations[i] := hdp _ (List.getElem_mem _)
    obtain ⟨st, h1, h2, h3, h4, h5⟩ := ih (i + 1) cout (cout * 2) (by omega) (by omega)
    have hdrop : (c.strides.drop i).take (n :: l).length =
        c.strides[i] :: (c.strides.drop (i + 1)).take l.length := by
      rw [List.drop_eq_getElem_cons (by omega), List.length_cons, List.take_succ_cons]
    refine ⟨resLayer n cin cout c.strides[i] c.dilations[i] :: st, ?_, ?_, ?_, ?_, ?_⟩
    · rw [mkStages, e1]
      dsimp only
      rw [e2]
      dsimp only
      rw [h1]
      dsimp only
      rw [List.length_cons, pow_succ]
      congr 2
      ring
    · rw [List.length_cons, List.length_cons, h2]
    · intro h hh
      rw [List.flatten_cons, seq_append _ _ _ _ _ (stage_ok n cin cout _ _ h p1 p2 hh),
        h3 _ (ceilDiv_pos _ _ hh p1), hdrop, List.foldl_cons, List.length_cons,
        lastCh_succ cin]
    · intro _
      cases l with
      | nil =>
        have hst : st = [] := List.length_eq_zero_iff.mp h2
        subst hst
        obtain ⟨b, hb, hc⟩ := resLayer_last n cin cout c.strides[i] c.dilations[i]
        exact ⟨_, rfl, b, hb, by rw [hc]; simp [lastCh]⟩
      | cons m l =>
        obtain ⟨s, hs1, b, hb, hc⟩ := h4 (by simp)
        refine ⟨s, ?_, b, hb, ?_⟩
        · cases st with
          | nil => cases hs1
          | cons a st =>
            rw [List.getLast?_cons_cons]
            exact hs1
        · rw [hc]
          exact lastCh_succ cin cout _
    · intro j m hj
      cases j with
      | zero =>
        rw [List.getElem?_cons_zero] at hj ⊢
        injection hj with hj
        subst hj
        exact ⟨_, _, _, _, rfl⟩
      | succ j =>
        rw [List.getElem?_cons_succ] at hj ⊢
        exact h5 j m hj

theorem arch_ok {d n : ℕ} (h : (d, n) ∈ [(10, 1), (16, 2), (22, 3), (28, 4), (40, 6)]) :
    archSetting d = some [n, n, n] ∧ 0 < n ∧ d = 6 * n + 4 := by
  simp only [List.mem_cons, Prod.mk.injEq, List.not_mem_nil, or_false] at h
  rcases h with ⟨rfl, rfl⟩ | ⟨rfl, rfl⟩ | ⟨rfl, rfl⟩ | ⟨rfl, rfl⟩ | ⟨rfl, rfl⟩ <;>
    exact ⟨by decide, by decide, by decide⟩

theorem expansion_ok {c : Cfg} {x : ℕ}
    (h : c.expansion = some (x : ℤ) ∧ 0 < x ∨ c.expansion = none ∧ x = c.widen) :
    getExpansion c.widen c.expansion = .ok x := by
  rcases h with ⟨h, hx⟩ | ⟨h, rfl⟩
  · rw [h]
    unfold getExpansion
    dsimp only
    rw [if_pos (by omega)]
    simp
  · rw [h]
    rfl

theorem build_stages {c : Cfg} {n x : ℕ} (u : Usable c n x) :
    ∃ st, build c = finish c st (c.base * x * 2 ^ min c.numStages 3) ∧
      st.length = min c.numStages 3 ∧
      (∀ h, 0 < h → seqShape true st.flatten (c.stem, h) =
        .ok (c.base * x * 2 ^ (min c.numStages 3 - 1),
          (c.strides.take (min c.numStages 3)).foldl ceilDiv h)) ∧
      (∃ s, st.getLast? = some s ∧ ∃ b, s.getLast? = some b ∧
        b.conv2.cout = c.base * x * 2 ^ (min c.numStages 3 - 1)) ∧
      ∀ s ∈ st, ∃ ci co r d, s = resLayer n ci co r d := by
  obtain ⟨ea, hn, -⟩ := arch_ok u.depth
  have ex := expansion_ok u.width
  have hlen : ([n, n, n].take c.numStages).length = min c.numStages 3 := by simp
  obtain ⟨st, h1, h2, h3, h4, h5⟩ := stages_ok c u.stride_pos u.dil_pos
    ([n, n, n].take c.numStages) 0 c.stem (c.base * x)
    (by rw [hlen]; have := u.strides; omega) (by rw [hlen]; have := u.dilations; omega)
  rw [hlen] at h1 h2 h3 h4
  have hk : 0 < min c.numStages 3 := by have := u.stages; omega
  have hl : lastCh c.stem (c.base * x) (min c.numStages 3) =
      c.base * x * 2 ^ (min c.numStages 3 - 1) := by
    generalize min c.numStages 3 = k at hk ⊢
    cases k with
    | zero => omega
    | succ k => rfl
  rw [hl] at h3 h4
  refine ⟨st, ?_, h2, ?_, ?_, ?_⟩
  · unfold build
    rw [ea]
    dsimp only
    rw [ex]
    dsimp only
    rw [h1]
  · intro h hh
    have := h3 h hh
    rwa [List.drop_zero] at this
  · refine h4 ?_
    intro e
    rw [e] at hlen
    simp only [List.length_nil] at hlen
    omega
  · intro s hs
    obtain ⟨j, hj⟩ := List.mem_iff_getElem?.mp hs
    have hjl : j < st.length := by
      by_contra hc
      rw [List.getElem?_eq_none (by omega)] at hj
      cases hj
    have hjn : ([n, n, n].take c.numStages)[j]? = some n := by
      have hj3 : j < ([n, n, n].take c.numStages).length := by omega
      rw [List.getElem?_eq_getElem hj3]
      have := List.mem_of_mem_take (List.getElem_mem hj3)
      simp only [List.mem_cons, List.not_mem_nil, or_false, or_self] at this
      rw [this]
    obtain ⟨ci, co, r, d, hr⟩ := h5 j n hjn
    rw [hr] at hj
    injection hj with hj
    exact ⟨ci, co, r, d, hj.symm⟩

theorem stem_ok (a b h : ℕ) (hh : 0 < h) :
    convShape ⟨a, b, 3, 1, 1, 1⟩ (a, h) = .ok (b, h) := by
  have := conv_ok ⟨a, b, 3, 1, 1, 1⟩ h (h - 1) (by simp) (by simp) (by dsimp only; omega)
  rw [this]
  dsimp only
  rw [Nat.div_one]
  congr 2
  omega

theorem finish_ok {c : Cfg} {st : List (List Block)} {out : ℕ} (hf : c.frozen < 0)
    {s : List Block} (h1 : st.getLast? = some s) {b : Block} (h2 : s.getLast? = some b) :
    finish c st out = .ok ⟨⟨c.inCh, c.stem, 3, 1, 1, 1⟩, st, out / 2, b.conv2.cout, c.bn⟩ := by
  unfold finish
  rw [if_neg (by omega), h1]
  dsimp only
  rw [h2]

theorem half_pow (a k : ℕ) (hk : 0 < k) : a * 2 ^ k / 2 = a * 2 ^ (k - 1) := by
  obtain ⟨m, rfl⟩ : ∃ m, k = m + 1 := ⟨k - 1, by omega⟩
  rw [pow_succ, ← Nat.mul_assoc, Nat.mul_div_cancel _ (by decide)]
  rfl

theorem convs_resLayer (n cin cout s d : ℕ) (hn : 0 < n) :
    ((resLayer n cin cout s d).flatMap Block.convs).length =
      2 * n + if s ≠ 1 ∨ cin ≠ cout then 1 else 0 := by
  have hr : ∀ m, ((List.replicate m (mkBlock cout cout 1 d none)).flatMap Block.convs).length =
      2 * m := by
    intro m
    induction m with
    | zero => rfl
    | succ m ih =>
      rw [List.replicate_succ, List.flatMap_cons, List.length_append, ih]
      show 2 + 2 * m = _
      omega
  unfold resLayer
  rw [List.flatMap_cons, List.length_append, hr]
  have : (Block.convs (mkBlock cin cout s d (mkDown cin cout s))).length =
      2 + if s ≠ 1 ∨ cin ≠ cout then 1 else 0 := by
    unfold Block.convs mkBlock mkDown
    by_cases h : s ≠ 1 ∨ cin ≠ cout
    · rw [if_pos h, if_pos h]
      rfl
    · rw [if_neg h, if_neg h]
      rfl
  rw [this]
  omega

end Verif.WideNet
