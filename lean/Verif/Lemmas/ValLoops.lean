import Verif.Spec.ValLoops
import Verif.Lemmas.Sandwich

/-! Helper lemmas for `Verif/Props/ValLoops.lean`. -/

namespace Verif.ValLoops
open Verif Sandwich

variable {σ B R : Type}

/-! ### Helpers -/

/-- The metrics and the resources of a freshly calibrated subnet. -/
def World.measured (w : World σ B R) (s : σ) : Dict := update (w.quality s (w.fresh s)) (w.resources s)

/-- The metrics of the subnet of a kind. -/
def World.byKind (w : World σ B R) (d0 : Nat) : Kind → Dict
  | .max => w.measured w.maxNet
  | .min => w.measured w.minNet
  | .random i => w.measured (w.sample (d0 + i))
  | .subnet _ => []

/-- What the loop over kinds leaves. -/
structure After (w : World σ B R) (d0 : Nat) (st0 : St σ R) (ks : List Kind) (p : Dict × St σ R) : Prop where
  dict : p.1 = total (w.byKind d0) ks
  results : p.2.results = []
  events : p.2.events = st0.events ++ (List.replicate ks.length w.iters).flatten

theorem loop_aux (w : World σ B R) (l : List B) : ∀ (k : Nat) (st : St σ R),
    (l.zipIdx k).foldl (fun st p => St.iter st (w.outputs st.training st.net (w.read st.net st.stats) p.1) p.2) st =
      { st with
        results := st.results ++ l.flatMap (w.outputs st.training st.net (w.read st.net st.stats))
        events := st.events ++ (List.range' k l.length).flatMap fun i => [.beforeIter i, .afterIter i] } := by
  induction l with
  | nil => intro k st; simp
  | cons b l ih =>
    intro k st
    rw [List.zipIdx_cons, List.foldl_cons, ih]
    simp [St.iter, List.range'_succ]

theorem loop_eq (w : World σ B R) (st : St σ R) : st.loop w =
    { st with
      results := st.results ++ w.batches.flatMap (w.outputs st.training st.net (w.read st.net st.stats))
      events := st.events ++ w.iters } := by
  unfold St.loop World.iters
  rw [loop_aux, List.range_eq_range']

theorem loopTeacher_aux (w : World σ B R) (l : List B) : ∀ (k : Nat) (st : St σ R),
    (l.zipIdx k).foldl (fun st p => St.iter st (w.teacher st.training p.1) p.2) st =
      { st with
        results := st.results ++ l.flatMap (w.teacher st.training)
        events := st.events ++ (List.range' k l.length).flatMap fun i => [.beforeIter i, .afterIter i] } := by
  induction l with
  | nil => intro k st; simp
  | cons b l ih =>
    intro k st
    rw [List.zipIdx_cons, List.foldl_cons, ih]
    simp [St.iter, List.range'_succ]

theorem loopTeacher_eq (w : World σ B R) (st : St σ R) : st.loopTeacher w =
    { st with
      results := st.results ++ w.batches.flatMap (w.teacher st.training)
      events := st.events ++ w.iters } := by
  unfold St.loopTeacher World.iters
  rw [loopTeacher_aux, List.range_eq_range']

theorem picked_false (b k : Nat) (f : Nat → ℚ) :
    (((List.replicate b false).zipIdx k).filter (·.1)).map (fun p => f p.2) = [] := by
  induction b generalizing k with
  | zero => rfl
  | succ b ih => simp [List.replicate_succ, ih]

theorem picked_true (a b k : Nat) (f : Nat → ℚ) :
    (((List.replicate a true ++ List.replicate b false).zipIdx k).filter (·.1)).map (fun p => f p.2) =
      (List.range' k a).map f := by
  induction a generalizing k with
  | zero => simpa using picked_false b k f
  | succ a ih => simp [List.replicate_succ, List.range'_succ, ih]

theorem picked_leading (a b : Nat) (f : Nat → ℚ) :
    picked (List.replicate a true ++ List.replicate b false) f = (List.range a).map f := by
  rw [picked, picked_true, List.range_eq_range']

theorem picked_leading_recorded (m : List Bool) (h : Leading m) (r : List ℚ) (hr : r.length = m.count true) (old : Nat → ℚ) :
    picked m (fun c => r[c]?.getD (old c)) = r := by
  obtain ⟨a, b, rfl⟩ := h
  rw [picked_leading]
  have ha : a = r.length := by rw [hr]; simp [List.count_append, List.count_replicate]
  subst ha
  refine List.ext_getElem (by simp) fun i h1 h2 => ?_
  simp [List.getElem?_eq_getElem h2]

theorem read_calibrate (w : World σ B R) (hw : w.Regular) (hl : w.Leading) (s : σ) (stats : Nat → Nat → ℚ) :
    w.read s (w.calibrate s stats) = w.fresh s := by
  funext l
  unfold World.read World.fresh World.calibrate
  cases hm : w.mask s l with
  | none => rfl
  | some m =>
    simp only [Option.isSome_some, if_true]
    exact picked_leading_recorded m (hl s l m hm) _ (hw.count s l m hm) _

theorem put_keys {V : Type} (d : List (Name × V)) (k : Name) (v : V) (h : (d.map (·.1)).Nodup) : ((put d k v).map (·.1)).Nodup := by
  unfold put
  by_cases hk : d.any (·.1 == k) = true
  · rw [if_pos hk, List.map_map]
    have : ((fun p : Name × V => p.1) ∘ fun p : Name × V => if (p.1 == k) = true then (k, v) else p) = (·.1) := by
      funext p
      by_cases hp : p.1 = k
      · simp [hp]
      · simp [hp]
    rw [this]
    exact h
  · rw [if_neg hk, List.map_append, List.nodup_append]
    refine ⟨h, by simp, ?_⟩
    rintro a ha b hb rfl
    simp only [List.map_cons, List.map_nil, List.mem_singleton] at hb
    subst hb
    apply hk
    obtain ⟨p, hp, e⟩ := List.mem_map.1 ha
    exact List.any_eq_true.2 ⟨p, hp, by simp [e]⟩

theorem update_keys {V : Type} (e : List (Name × V)) : ∀ d : List (Name × V), (d.map (·.1)).Nodup → ((update d e).map (·.1)).Nodup := by
  induction e with
  | nil => intro d h; exact h
  | cons x e ih =>
    intro d h
    exact ih _ (put_keys d x.1 x.2 h)

theorem evaluateOnce_eq (w : World σ B R) (hw : w.Regular) (hl : w.Leading) (st : St σ R) (h0 : st.results = []) :
    st.evaluateOnce w = (w.measured st.net, { st with
      stats := w.calibrate st.net st.stats, training := false, results := [], events := st.events ++ w.iters }) := by
  unfold St.evaluateOnce
  simp only [loop_eq, St.evaluate, h0, List.nil_append, read_calibrate w hw hl]
  rw [List.take_of_length_le (hw.student _ _)]
  rfl

theorem after_step (w : World σ B R) (hw : w.Regular) (hl : w.Leading) (d0 : Nat) (st0 : St σ R) (ks : List Kind)
    (p : Dict × St σ R) (h : After w d0 st0 ks p) (k : Kind) (hk : match k with
      | .max => True | .min => True | .random i => p.2.draws = d0 + i | .subnet _ => False) :
    After w d0 st0 (ks ++ [k]) (kindStep w p k) ∧ (kindStep w p k).2.draws = (match k with | .random _ => p.2.draws + 1 | _ => p.2.draws)
      ∧ (kindStep w p k).2.net = (match k with | .max => w.maxNet | .min => w.minNet | .random i => w.sample (d0 + i) | .subnet _ => p.2.net)
      ∧ (kindStep w p k).2.file = p.2.file ∧ (kindStep w p k).2.training = false
      ∧ (kindStep w p k).2.stats = w.calibrate (kindStep w p k).2.net p.2.stats := by
  obtain ⟨h1, h2, h3⟩ := h
  have tot : ∀ (f : Kind → Dict), total f (ks ++ [k]) = update (total f ks) (addPrefix (f k) k.prefix) := by
    intro f; unfold total; rw [List.foldl_append]; rfl
  cases k with
  | max =>
    have e : kindStep w p .max = (update p.1 (addPrefix (w.measured w.maxNet) Kind.max.prefix), { p.2 with
        net := w.maxNet, stats := w.calibrate w.maxNet p.2.stats, training := false, results := [],
        events := p.2.events ++ w.iters }) := by
      unfold kindStep
      simp only [evaluateOnce_eq w hw hl { p.2 with net := w.maxNet } h2]
    rw [e]
    refine ⟨⟨?_, rfl, ?_⟩, rfl, rfl, rfl, rfl, rfl⟩
    · rw [tot, ← h1]
      rfl
    · simp [h3, List.replicate_succ']
  | min =>
    have e : kindStep w p .min = (update p.1 (addPrefix (w.measured w.minNet) Kind.min.prefix), { p.2 with
        net := w.minNet, stats := w.calibrate w.minNet p.2.stats, training := false, results := [],
        events := p.2.events ++ w.iters }) := by
      unfold kindStep
      simp only [evaluateOnce_eq w hw hl { p.2 with net := w.minNet } h2]
    rw [e]
    refine ⟨⟨?_, rfl, ?_⟩, rfl, rfl, rfl, rfl, rfl⟩
    · rw [tot, ← h1]
      rfl
    · simp [h3, List.replicate_succ']
  | random i =>
    have e : kindStep w p (.random i) = (update p.1 (addPrefix (w.measured (w.sample p.2.draws)) (Kind.random i).prefix), { p.2 with
        net := w.sample p.2.draws, stats := w.calibrate (w.sample p.2.draws) p.2.stats, training := false, results := [],
        draws := p.2.draws + 1, events := p.2.events ++ w.iters }) := by
      unfold kindStep
      simp only [evaluateOnce_eq w hw hl { p.2 with net := w.sample p.2.draws, draws := p.2.draws + 1 } h2]
    rw [e]
    refine ⟨⟨?_, rfl, ?_⟩, rfl, ?_, rfl, rfl, rfl⟩
    · rw [tot, ← h1]
      simp only at hk ⊢
      rw [hk]
      rfl
    · simp [h3, List.replicate_succ']
    · simp only at hk ⊢
      rw [hk]
  | subnet i => exact hk.elim

theorem after_kinds (w : World σ B R) (hw : w.Regular) (hl : w.Leading) (st : St σ R) (h0 : st.results = []) (n : Nat) :
    let p := (kinds .autoslim n).foldl (kindStep w) ([], st)
    After w st.draws st (kinds .autoslim n) p ∧ p.2.draws = st.draws + n ∧
      p.2.net = (if n = 0 then w.minNet else w.sample (st.draws + (n - 1))) ∧ p.2.training = false ∧ p.2.file = st.file ∧
      ∃ old, p.2.stats = w.calibrate p.2.net old := by
  have a0 : After w st.draws st [] ([], st) := ⟨rfl, h0, by simp⟩
  have a1 := after_step w hw hl _ _ _ _ a0 .max trivial
  have a2 := after_step w hw hl _ _ _ _ a1.1 .min trivial
  have e : ∀ n, kinds .autoslim (n + 1) = kinds .autoslim n ++ [.random n] := by
    intro n
    show Kind.max :: Kind.min :: (List.range (n + 1)).map .random = _
    rw [List.range_succ, List.map_append]
    rfl
  induction n with
  | zero =>
    exact ⟨a2.1, a2.2.1.trans a1.2.1, a2.2.2.1, a2.2.2.2.2.1, a2.2.2.2.1.trans a1.2.2.2.1, _, a2.2.2.2.2.2⟩
  | succ n ih =>
    intro p
    have hp : p = kindStep w ((kinds .autoslim n).foldl (kindStep w) ([], st)) (.random n) := by
      show List.foldl _ _ _ = _
      rw [e, List.foldl_append]; rfl
    obtain ⟨i1, i2, i3, i4, i5, i6⟩ := ih
    have a3 := after_step w hw hl _ _ _ _ i1 (.random n) i2
    rw [hp]
    refine ⟨by rw [e]; exact a3.1, ?_, ?_, a3.2.2.2.2.1, ?_, _, a3.2.2.2.2.2⟩
    · rw [a3.2.1]; simp only; rw [i2]; omega
    · rw [a3.2.2.1]; simp
    · rw [a3.2.2.2.1, i5]

theorem leading_of_early (m : List Bool) (h : ∀ c : ℕ, m[c]? = some true → c < m.count true) : Leading m := by
  set k := m.count true with hk
  have hd : (m.drop k).count true = 0 := by
    rw [List.count_eq_zero]
    intro hm
    obtain ⟨i, hi⟩ := List.mem_iff_getElem?.1 hm
    rw [List.getElem?_drop] at hi
    have := h _ hi
    omega
  have hsum : (m.take k).count true + (m.drop k).count true = k := by
    rw [← List.count_append, List.take_append_drop]
  have hlen : (m.take k).length ≤ k := by rw [List.length_take]; omega
  have hle : (m.take k).count true ≤ (m.take k).length := List.count_le_length
  have h1 : m.take k = List.replicate k true := by
    have hc : (m.take k).count true = (m.take k).length := by omega
    have := List.eq_replicate_of_mem (fun b hb => (List.count_eq_length.1 hc b hb).symm)
    rw [this]
    congr 1
    omega
  have h2 : m.drop k = List.replicate (m.drop k).length false := by
    refine List.eq_replicate_of_mem fun b hb => ?_
    cases b with
    | false => rfl
    | true => exact absurd hb (List.count_eq_zero.1 hd)
  exact ⟨k, _, by conv_lhs => rw [← List.take_append_drop k m, h1, h2]⟩

theorem slimmable_fold (w : World σ B R) (hw : w.Regular) (st0 : St σ R) (l : List σ) : ∀ (k : Nat) (p : Dict × St σ R),
    p.2.results = [] → p.2.stats = st0.stats →
    let q := (l.zipIdx k).foldl (slimmableStep w) p
    q.1 = (List.range' k l.length).foldl (fun d i => update d (addPrefix
      ((l[i - k]?).elim [] fun s => w.quality s (w.read s st0.stats)) (Kind.subnet i).prefix)) p.1 ∧
    q.2.results = [] ∧ q.2.stats = st0.stats ∧ q.2.net = l.getLast?.getD p.2.net ∧ q.2.draws = p.2.draws ∧
    q.2.events = p.2.events ++ (List.replicate l.length (.beforeEpoch :: w.iters)).flatten := by
  induction l with
  | nil => intro k p h1 h2; exact ⟨rfl, h1, h2, rfl, rfl, by simp⟩
  | cons s l ih =>
    intro k p h1 h2
    have e : slimmableStep w p (s, k) = (update p.1 (addPrefix (w.quality s (w.read s st0.stats)) (Kind.subnet k).prefix),
        { p.2 with net := s, training := false, results := [], events := p.2.events ++ .beforeEpoch :: w.iters }) := by
      unfold slimmableStep
      simp only [loop_eq, St.evaluate, St.call, h1, h2, List.nil_append, List.take_of_length_le (hw.student _ _)]
      simp [World.quality]
    obtain ⟨a1, a2, a3, a4, a5, a6⟩ := ih (k + 1) (slimmableStep w p (s, k)) (by rw [e]) (by rw [e]; exact h2)
    rw [List.zipIdx_cons, List.foldl_cons]
    refine ⟨?_, a2, a3, ?_, ?_, ?_⟩
    · rw [a1, List.length_cons, List.range'_succ, List.foldl_cons, e, Nat.sub_self]
      refine List.foldl_ext _ _ _ fun d i hi => ?_
      have : k + 1 ≤ i := by have := List.mem_range'_1.1 hi; omega
      rw [show i - k = (i - (k + 1)) + 1 by omega, List.getElem?_cons_succ]
    · rw [a4, e, List.getLast?_cons]
      rfl
    · rw [a5, e]
    · rw [a6, e]
      simp [List.replicate_succ]

theorem lookup_hit {V : Type} (k : Name) (v : V) (d : List (Name × V)) : ((k, v) :: d).lookup k = some v := by
  simp [List.lookup]

theorem lookup_miss {V : Type} (x k : Name) (v : V) (d : List (Name × V)) (h : x ≠ k) : ((k, v) :: d).lookup x = d.lookup x := by
  have : (x == k) = false := by simpa using h
  simp [List.lookup, this]

theorem lookup_replaced {V : Type} (k : Name) (v : V) (x : Name) : ∀ d : List (Name × V), d.any (·.1 == k) = true →
    (d.map (fun p => if p.1 == k then (k, v) else p)).lookup x = if x = k then some v else d.lookup x
  | [], h => by simp at h
  | (k', v') :: d, h => by
    have step : (List.map (fun p => if (p.1 == k) = true then (k, v) else p) ((k', v') :: d)) =
        (if (k' == k) = true then (k, v) else (k', v')) :: List.map (fun p => if (p.1 == k) = true then (k, v) else p) d := rfl
    rw [step]
    by_cases hp : k' = k
    · subst hp
      rw [if_pos (by simp)]
      by_cases hx : x = k'
      · subst hx; rw [lookup_hit, if_pos rfl]
      · rw [lookup_miss _ _ _ _ hx, if_neg hx, lookup_miss _ _ _ _ hx]
        by_cases hk2 : d.any (·.1 == k') = true
        · rw [lookup_replaced k' v x d hk2, if_neg hx]
        · have : (d.map fun p => if (p.1 == k') = true then (k', v) else p) = d := by
            conv_rhs => rw [← List.map_id d]
            refine List.map_congr_left fun q hq => ?_
            rw [if_neg fun hc => hk2 (List.any_eq_true.2 ⟨q, hq, hc⟩)]
            rfl
          rw [this]
    · have hk2 : d.any (·.1 == k) = true := by
        rw [List.any_cons] at h
        simpa [hp] using h
      rw [if_neg (by simpa using hp)]
      by_cases hx : x = k'
      · subst hx; rw [lookup_hit, if_neg hp, lookup_hit]
      · rw [lookup_miss _ _ _ _ hx, lookup_miss _ _ _ _ hx, lookup_replaced k v x d hk2]

theorem lookup_appended {V : Type} (k : Name) (v : V) (x : Name) : ∀ d : List (Name × V), ¬ d.any (·.1 == k) = true →
    (d ++ [(k, v)]).lookup x = if x = k then some v else d.lookup x
  | [], _ => by
    by_cases hx : x = k
    · subst hx; rw [List.nil_append, lookup_hit, if_pos rfl]
    · rw [List.nil_append, lookup_miss _ _ _ _ hx, if_neg hx]
  | (k', v') :: d, h => by
    rw [List.any_cons, Bool.or_eq_true, not_or] at h
    have hp : k' ≠ k := by simpa using h.1
    rw [List.cons_append]
    by_cases hx : x = k'
    · subst hx; rw [lookup_hit, if_neg hp, lookup_hit]
    · rw [lookup_miss _ _ _ _ hx, lookup_miss _ _ _ _ hx, lookup_appended k v x d h.2]

theorem lookup_put {V : Type} (d : List (Name × V)) (k : Name) (v : V) (x : Name) :
    (put d k v).lookup x = if x = k then some v else d.lookup x := by
  unfold put
  by_cases hk : d.any (·.1 == k) = true
  · rw [if_pos hk]
    exact lookup_replaced k v x d hk
  · rw [if_neg hk]
    exact lookup_appended k v x d hk

theorem lookup_prefix (t : Dict) (p : Name) (ht : (t.map (·.1)).Nodup) : ∀ d : Dict, 
    (∀ k v, t.lookup k = some v → (t.foldl (fun m x => put m (p ++ x.1) x.2) d).lookup (p ++ k) = some v) ∧
    ∀ x, (∀ k ∈ t.map (·.1), x ≠ p ++ k) → (t.foldl (fun m x => put m (p ++ x.1) x.2) d).lookup x = d.lookup x := by
  induction t with
  | nil => intro d; exact ⟨by simp, fun _ _ => rfl⟩
  | cons y t ih =>
    intro d
    obtain ⟨hy, ht'⟩ := List.nodup_cons.1 ht
    obtain ⟨i1, i2⟩ := ih ht' (put d (p ++ y.1) y.2)
    refine ⟨fun k v hk => ?_, fun x hx => ?_⟩
    · rw [List.foldl_cons]
      by_cases he : k = y.1
      · subst he
        rw [show y = (y.1, y.2) from rfl, lookup_hit] at hk
        rw [i2 _ fun k hk' e => hy (show y.1 ∈ _ by rw [List.append_cancel_left e]; exact hk'), lookup_put, if_pos rfl]
        exact hk
      · rw [show y = (y.1, y.2) from rfl, lookup_miss _ _ _ _ he] at hk
        exact i1 k v hk
    · rw [List.foldl_cons, i2 x fun k hk => hx k (List.mem_cons_of_mem _ hk), lookup_put, if_neg (hx _ (by simp))]

end Verif.ValLoops
