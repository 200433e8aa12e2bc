import Verif.Spec.Observers
import Verif.Lemmas.Deploy
import Verif.Lemmas.OnnxExport
import Verif.Lemmas.GptqQuantizer
import Mathlib.Tactic

/-! Helper lemmas for `Verif/Props/Observers.lean`. -/

namespace Verif.Observers
open Verif Deploy GptqQuantizer

theorem foldl_min_spec : ∀ (vs : List ℚ) (v : ℚ), (vs.foldl min v) ∈ v :: vs ∧ ∀ u ∈ v :: vs, vs.foldl min v ≤ u
  | [], v => by simp
  | w :: vs, v => by
    obtain ⟨h1, h2⟩ := foldl_min_spec vs (min v w)
    rw [List.foldl_cons]
    constructor
    · rcases List.mem_cons.1 h1 with h | h
      · rw [h]
        rcases min_choice v w with e | e <;> rw [e] <;> simp
      · simp [h]
    · intro u hu
      have hm := h2 (min v w) (by simp)
      rcases List.mem_cons.1 hu with rfl | hu
      · exact hm.trans (min_le_left _ _)
      · rcases List.mem_cons.1 hu with rfl | hu
        · exact hm.trans (min_le_right _ _)
        · exact h2 u (by simp [hu])

theorem foldl_max_spec : ∀ (vs : List ℚ) (v : ℚ), (vs.foldl max v) ∈ v :: vs ∧ ∀ u ∈ v :: vs, u ≤ vs.foldl max v
  | [], v => by simp
  | w :: vs, v => by
    obtain ⟨h1, h2⟩ := foldl_max_spec vs (max v w)
    rw [List.foldl_cons]
    constructor
    · rcases List.mem_cons.1 h1 with h | h
      · rw [h]
        rcases max_choice v w with e | e <;> rw [e] <;> simp
      · simp [h]
    · intro u hu
      have hm := h2 (max v w) (by simp)
      rcases List.mem_cons.1 hu with rfl | hu
      · exact (le_max_left _ _).trans hm
      · rcases List.mem_cons.1 hu with rfl | hu
        · exact (le_max_right _ _).trans hm
        · exact h2 u (by simp [hu])

/-- What an observer knows of the values it has seen. -/
def Knows (o : Obs) (seen : List ℚ) : Prop :=
  (seen = [] → o = new) ∧ (seen ≠ [] → ∃ m M, o.range = some (m, M) ∧ Extremes seen m M)

theorem knows_observe {o : Obs} {seen : List ℚ} (h : Knows o seen) (x : List ℚ) : Knows (observe o x) (seen ++ x) := by
  cases x with
  | nil => simpa [observe] using h
  | cons v vs =>
    refine ⟨by simp, fun _ => ?_⟩
    obtain ⟨a1, a2⟩ := foldl_min_spec vs v
    obtain ⟨b1, b2⟩ := foldl_max_spec vs v
    by_cases hs : seen = []
    · have := h.1 hs
      subst this
      exact ⟨_, _, rfl, ⟨by simpa [hs] using a1, by simpa [hs] using a2⟩, ⟨by simpa [hs] using b1, by simpa [hs] using b2⟩⟩
    · obtain ⟨m, M, hr, ⟨l1, l2⟩, ⟨g1, g2⟩⟩ := h.2 hs
      refine ⟨_, _, by simp only [observe, widen, hr, aminmax]; rfl, ⟨?_, ?_⟩, ⟨?_, ?_⟩⟩
      · rcases min_choice (vs.foldl min v) m with e | e <;> rw [e]
        · exact List.mem_append_right _ a1
        · exact List.mem_append_left _ l1
      · intro u hu
        rcases List.mem_append.1 hu with hu | hu
        · exact (min_le_right _ _).trans (l2 u hu)
        · exact (min_le_left _ _).trans (a2 u hu)
      · rcases max_choice (vs.foldl max v) M with e | e <;> rw [e]
        · exact List.mem_append_right _ b1
        · exact List.mem_append_left _ g1
      · intro u hu
        rcases List.mem_append.1 hu with hu | hu
        · exact (g2 u hu).trans (le_max_right _ _)
        · exact (b2 u hu).trans (le_max_left _ _)

theorem knows_all : ∀ (bs : List (List ℚ)) (o : Obs) (seen : List ℚ), Knows o seen →
    Knows (observeAll o bs) (seen ++ bs.flatten)
  | [], o, seen, h => by simpa [observeAll] using h
  | b :: bs, o, seen, h => by
    have := knows_all bs (observe o b) (seen ++ b) (knows_observe h b)
    simpa [observeAll, List.append_assoc] using this

theorem knows_new : Knows new [] := ⟨fun _ => rfl, fun h => absurd rfl h⟩

theorem extremes_unique {vs ws : List ℚ} (h : ∀ v, v ∈ vs ↔ v ∈ ws) {m M m' M' : ℚ} (a : Extremes vs m M)
    (b : Extremes ws m' M') : m = m' ∧ M = M' :=
  ⟨le_antisymm (a.least.2 _ ((h _).2 b.least.1)) (b.least.2 _ ((h _).1 a.least.1)),
    le_antisymm (b.largest.2 _ ((h _).1 a.largest.1)) (a.largest.2 _ ((h _).2 b.largest.1))⟩

theorem clamp_near {y : ℚ} {a b : ℤ} (hab : a ≤ b) (h1 : (a : ℚ) - 1 / 2 ≤ y) (h2 : y ≤ b + 1 / 2) :
    |((min (max (rhe y) a) b : ℤ) : ℚ) - y| ≤ 1 / 2 := by
  have hn := abs_le.1 (rhe_near y)
  rw [abs_le]
  by_cases ha : rhe y < a
  · have e : min (max (rhe y) a) b = a := by omega
    have : ((rhe y : ℤ) : ℚ) ≤ a - 1 := by exact_mod_cast (by omega : rhe y ≤ a - 1)
    rw [e]
    constructor <;> linarith
  · by_cases hb : b < rhe y
    · have e : min (max (rhe y) a) b = b := by omega
      have : (b : ℚ) + 1 ≤ rhe y := by exact_mod_cast (by omega : b + 1 ≤ rhe y)
      rw [e]
      constructor <;> linarith
    · have e : min (max (rhe y) a) b = rhe y := by omega
      rw [e]
      exact hn

theorem fq_near {lo hi zp : ℤ} {s x : ℚ} (hs : 0 < s) (hl : lo ≤ hi) (h1 : ((lo - zp : ℤ) : ℚ) - 1 / 2 ≤ x / s)
    (h2 : x / s ≤ ((hi - zp : ℤ) : ℚ) + 1 / 2) : |fq lo hi (s, zp) x - x| ≤ s / 2 := by
  have h := clamp_near (y := x / s) (a := lo - zp) (b := hi - zp) (by omega) h1 h2
  have e : min (max (rhe (x / s) + zp) lo) hi - zp = min (max (rhe (x / s)) (lo - zp)) (hi - zp) := by omega
  have hx : x = x / s * s := by field_simp
  have : fq lo hi (s, zp) x - x = (((min (max (rhe (x / s)) (lo - zp)) (hi - zp) : ℤ) : ℚ) - x / s) * s := by
    simp only [fq, e]
    rw [sub_mul, ← hx]
  rw [this, abs_mul, abs_of_pos hs]
  calc _ ≤ 1 / 2 * s := by apply mul_le_mul_of_nonneg_right h hs.le
    _ = s / 2 := by ring

theorem range_facts {c : Cfg} (hu : Usable c) :
    (c.scheme.signed = true → c.lo ≤ -c.hi ∧ -c.hi - 1 ≤ c.lo) ∧ (c.scheme.signed = false → c.lo = 0) := by
  constructor
  · intro h
    simp only [Cfg.lo, Cfg.hi, QParams.Scheme.range, h, if_true]
    split <;> constructor <;> omega
  · intro h
    simp [Cfg.lo, QParams.Scheme.range, h]

theorem params_pos {c : Cfg} (hu : Usable c) (o : Obs) : 0 < (minMaxParams c o).1 := by
  unfold minMaxParams
  split
  · norm_num
  · dsimp only
    split
    · exact lt_of_lt_of_le hu.eps (le_max_right _ _)
    · exact lt_of_lt_of_le hu.eps (le_max_right _ _)

theorem params_near {c : Cfg} (hu : Usable c) {o : Obs} {m M : ℚ} (hr : o.range = some (m, M)) {x : ℚ} (h1 : m ≤ x)
    (h2 : x ≤ M) : |fq c.lo c.hi (minMaxParams c o) x - x| ≤ (minMaxParams c o).1 / 2 := by
  have hpos := params_pos hu o
  have hlv : (0 : ℚ) < ((c.hi - c.lo : ℤ) : ℚ) := by exact_mod_cast (by have := hu.levels; omega : 0 < c.hi - c.lo)
  have hf := range_facts hu
  have hx1 : min m 0 ≤ x := (min_le_left _ _).trans h1
  have hx2 : x ≤ max M 0 := h2.trans (le_max_left _ _)
  have hn : min m 0 ≤ 0 := min_le_right _ _
  have hp : (0 : ℚ) ≤ max M 0 := le_max_right _ _
  unfold minMaxParams at hpos ⊢
  rw [hr] at hpos ⊢
  dsimp only at hpos ⊢
  generalize min m 0 = neg at *
  generalize max M 0 = pos at *
  by_cases hc : c.symmetric = true
  · rw [if_pos hc] at hpos ⊢
    dsimp only at hpos ⊢
    generalize hs : max (max (-neg) pos / (((c.hi - c.lo : ℤ) : ℚ) / 2)) c.eps = s at *
    have hle : max (-neg) pos ≤ s * (((c.hi - c.lo : ℤ) : ℚ) / 2) := by
      rw [← div_le_iff₀ (by positivity), ← hs]; exact le_max_left _ _
    have hb1 : x / s ≤ ((c.hi - c.lo : ℤ) : ℚ) / 2 := by
      rw [div_le_iff₀ hpos]
      have := le_max_right (-neg) pos
      nlinarith
    have hb2 : -(((c.hi - c.lo : ℤ) : ℚ) / 2) ≤ x / s := by
      rw [le_div_iff₀ hpos]
      have := le_max_left (-neg) pos
      nlinarith
    apply fq_near hpos hu.levels.le
    · by_cases hsg : c.scheme.signed = true
      · rw [if_pos hsg]
        have := (hf.1 hsg).1
        have : (c.lo : ℚ) ≤ -c.hi := by exact_mod_cast this
        push_cast at hb2 ⊢
        linarith
      · rw [if_neg hsg]
        have h0 := hf.2 (by simpa using hsg)
        have h3 : c.hi - 1 ≤ 2 * ((c.lo + c.hi) / 2) := by omega
        have h3' : (c.hi : ℚ) - 1 ≤ 2 * (((c.lo + c.hi) / 2 : ℤ) : ℚ) := by exact_mod_cast h3
        have h0' : (c.lo : ℚ) = 0 := by exact_mod_cast h0
        push_cast [Int.cast_sub] at hb2 ⊢
        linarith
    · by_cases hsg : c.scheme.signed = true
      · rw [if_pos hsg]
        have := (hf.1 hsg).2
        have : -(c.hi : ℚ) - 1 ≤ c.lo := by exact_mod_cast this
        push_cast at hb1 ⊢
        linarith
      · rw [if_neg hsg]
        have h0 := hf.2 (by simpa using hsg)
        have h3 : 2 * ((c.lo + c.hi) / 2) ≤ c.hi := by omega
        have h3' : 2 * (((c.lo + c.hi) / 2 : ℤ) : ℚ) ≤ c.hi := by exact_mod_cast h3
        have h0' : (c.lo : ℚ) = 0 := by exact_mod_cast h0
        push_cast [Int.cast_sub] at hb1 ⊢
        linarith
  · rw [if_neg hc] at hpos ⊢
    dsimp only at hpos ⊢
    generalize hs : max ((pos - neg) / ((c.hi - c.lo : ℤ) : ℚ)) c.eps = s at *
    have hle : pos - neg ≤ s * ((c.hi - c.lo : ℤ) : ℚ) := by
      rw [← div_le_iff₀ hlv, ← hs]; exact le_max_left _ _
    have ha := abs_le.1 (rhe_near (neg / s))
    have hneg : neg / s ≤ 0 := div_nonpos_of_nonpos_of_nonneg hn hpos.le
    have hge : -((c.hi - c.lo : ℤ) : ℚ) ≤ neg / s := by
      rw [le_div_iff₀ hpos]; nlinarith
    have k1 : rhe (neg / s) ≤ 0 := by
      have := Onnx.rhe_le (x := neg / s) (k := 0) (by simpa using hneg)
      exact this
    have k2 : -(c.hi - c.lo) ≤ rhe (neg / s) := by
      have h' := Onnx.rhe_le (x := -(neg / s)) (k := c.hi - c.lo) (by linarith)
      have := rhe_neg (neg / s)
      have h'' : rhe (-(neg / s)) ≤ c.hi - c.lo := h'
      rw [this] at h''
      omega
    have hz : min (max (c.lo - rhe (neg / s)) c.lo) c.hi = c.lo - rhe (neg / s) := by omega
    rw [hz]
    apply fq_near hpos hu.levels.le
    · have : neg / s ≤ x / s := by gcongr
      push_cast
      linarith
    · have : x / s ≤ neg / s + ((c.hi - c.lo : ℤ) : ℚ) := by
        rw [div_le_iff₀ hpos, add_mul, div_mul_cancel₀ _ hpos.ne']
        nlinarith
      push_cast at this ⊢
      linarith

theorem foldr_min0 : ∀ (ws : List ℚ) (u : ℚ), u ≤ ws.foldr min 0 ↔ u ≤ 0 ∧ ∀ w ∈ ws, u ≤ w
  | [], u => by simp
  | w :: ws, u => by simp [foldr_min0 ws u]; tauto

theorem foldr_max0 : ∀ (ws : List ℚ) (u : ℚ), ws.foldr max 0 ≤ u ↔ 0 ≤ u ∧ ∀ w ∈ ws, w ≤ u
  | [], u => by simp
  | w :: ws, u => by simp [foldr_max0 ws u]; tauto

theorem params_qparams (c : Cfg) {o : Obs} {ws : List ℚ} {m M : ℚ} (hr : o.range = some (m, M)) (h : Extremes ws m M) :
    minMaxParams c o = c.qparams ws := by
  have e1 : ws.foldr min 0 = min m 0 := by
    apply le_antisymm
    · have := (foldr_min0 ws _).1 le_rfl
      exact le_min (this.2 _ h.least.1) this.1
    · exact (foldr_min0 ws _).2 ⟨min_le_right _ _, fun w hw => (min_le_left _ _).trans (h.least.2 w hw)⟩
  have e2 : ws.foldr max 0 = max M 0 := by
    apply le_antisymm
    · exact (foldr_max0 ws _).2 ⟨le_max_right _ _, fun w hw => (h.largest.2 w hw).trans (le_max_left _ _)⟩
    · have := (foldr_max0 ws _).1 le_rfl
      exact max_le (this.2 _ h.largest.1) this.1
  simp only [minMaxParams, hr, Cfg.qparams, e1, e2]

theorem zp_range {c : Cfg} (hu : Usable c) (o : Obs) : c.lo ≤ (minMaxParams c o).2 ∧ (minMaxParams c o).2 ≤ c.hi := by
  have hf := range_facts hu
  have hl := hu.levels
  unfold minMaxParams
  split
  · by_cases hs : c.scheme.signed = true
    · have := hf.1 hs; dsimp only; omega
    · have := hf.2 (by simpa using hs); dsimp only; omega
  · dsimp only
    split
    · dsimp only
      by_cases hs : c.scheme.signed = true
      · have := hf.1 hs; rw [if_pos hs]; omega
      · have := hf.2 (by simpa using hs); rw [if_neg hs]; omega
    · dsimp only; omega

theorem norm_keep : ∀ (post : List (List ℚ)) (o : Obs), (∀ y ∈ post, y = []) → observeAll o post = o
  | [], _, _ => rfl
  | y :: post, o, h => by
    have hy := h y (by simp)
    subst hy
    have := norm_keep post o (fun z hz => h z (by simp [hz]))
    simpa [observeAll, observe] using this

theorem all_append (o : Obs) (a b : List (List ℚ)) : observeAll o (a ++ b) = observeAll (observeAll o a) b := by
  simp [observeAll]

theorem norm_last (o : Obs) (pre post : List (List ℚ)) (x : List ℚ) (hx : x ≠ []) (hp : ∀ y ∈ post, y = []) :
    (observeAll o (pre ++ x :: post)).norm = some (absMean x) := by
  rw [all_append]
  show (observeAll (observe (observeAll o pre) x) post).norm = _
  rw [norm_keep post _ hp]
  cases x with
  | nil => exact absurd rfl hx
  | cons v vs => rfl

theorem sync_scale (a : List ℚ) (k : ℚ) : (a.map fun (s : ℚ) => s / k).sum = a.sum / k := by
  induction a with
  | nil => simp
  | cons x a ih => simp [ih, add_div]

/-- What the observers of `n` channels know after some batches. -/
def perChannel (n : ℕ) (seen : List (List (List ℚ))) : List Obs :=
  (List.range n).map fun (j : ℕ) => observeAll new (seen.map fun x => x.getD j [])

theorem channels_step {n : ℕ} (hn : 0 < n) {seen : List (List (List ℚ))} {x : List (List ℚ)} (hx : x.length = n)
    (hne : ∀ ch ∈ x, ch ≠ []) :
    observeChannels (if seen = [] then [] else perChannel n seen) x = .ok (perChannel n (seen ++ [x])) := by
  have hall : ¬ (x.all (·.isEmpty) = true) := by
    intro h
    cases x with
    | nil => simp at hx; omega
    | cons c x =>
      simp at h
      exact hne c (by simp) h.1
  unfold observeChannels
  rw [if_neg hall]
  by_cases hs : seen = []
  · subst hs
    rw [if_pos rfl, if_pos rfl]
    congr 1
    apply List.ext_getElem
    · simp [perChannel, hx]
    · intro i h1 h2
      simp at h1
      simp [perChannel, observeAll, h1]
  · rw [if_neg hs, if_neg, if_pos]
    · congr 1
      apply List.ext_getElem
      · simp [perChannel, hx]
      · intro i h1 h2
        simp [perChannel, hx] at h1
        simp [perChannel, observeAll, hx, h1]
    · simp [perChannel, hx]
    · intro h
      have := congrArg List.length h
      simp [perChannel] at this
      omega

theorem channels_all {n : ℕ} (hn : 0 < n) : ∀ (bs seen : List (List (List ℚ))),
    (∀ x ∈ bs, x.length = n ∧ ∀ ch ∈ x, ch ≠ []) →
    channelsAll bs (if seen = [] then [] else perChannel n seen) =
      .ok (if seen ++ bs = [] then [] else perChannel n (seen ++ bs))
  | [], seen, _ => by simp [channelsAll]
  | x :: bs, seen, h => by
    have hx := h x (by simp)
    rw [channelsAll, channels_step hn hx.1 hx.2]
    have := channels_all hn bs (seen ++ [x]) (fun y hy => h y (by simp [hy]))
    simpa using this

end Verif.Observers
