import Verif.Spec.Estimator

/-! Helper lemmas for `Verif/Props/Estimator.lean`. -/

namespace Verif.Estimator
open Verif

theorem run_nil (kinds : Nat → Kind) (a : Acc) : run kinds a [] = a := rfl

theorem run_eq (kinds : Nat → Kind) (a : Acc) (calls : List Call) (m : Nat) :
    (run kinds a calls m).1 = (a m).1 + ((calls.filter (·.mod = m)).map fun c => (hook (kinds m) c.inp c.out).1).sum ∧
    (run kinds a calls m).2 = (a m).2 + ((calls.filter (·.mod = m)).map fun c => (hook (kinds m) c.inp c.out).2).sum := by
  induction calls generalizing a with
  | nil => simp [run]
  | cons c cs ih =>
    have hr : run kinds a (c :: cs) = run kinds (a.add c.mod (hook (kinds c.mod) c.inp c.out)) cs := rfl
    rw [hr, (ih _).1, (ih _).2]
    by_cases h : c.mod = m
    · subst h
      simp [Acc.add, add_assoc]
    · have h' : ¬ m = c.mod := fun e => h e.symm
      simp [Acc.add, h, h']

theorem hook_scale (k : Kind) (B : Nat) (i o : Shape) (hu : ∀ p, k ≠ .upsample p) (ho : o.dims ≠ []) :
    hook k ⟨B * i.batch, i.dims⟩ ⟨B * o.batch, o.dims⟩ = ((B : ℚ) * (hook k i o).1, (hook k i o).2) := by
  obtain ⟨ib, id⟩ := i
  obtain ⟨ob, od⟩ := o
  have hl : ∃ x, od.getLast? = some x := by
    cases h : od.getLast? with
    | none => simp at h; exact absurd h ho
    | some x => exact ⟨x, rfl⟩
  obtain ⟨x, hx⟩ := hl
  cases k with
  | upsample p => exact absurd rfl (hu p)
  | conv kk cin cout g b => cases b <;> simp [hook, convHook] <;> ring
  | dynConv kk cin cout g b ai ao => cases b <;> simp [hook, convHook] <;> ring
  | linear p => simp [hook, Shape.numel, hx]; ring
  | norm af p => cases af <;> simp [hook, Shape.numel] <;> ring
  | dmcpNorm af a t => cases af <;> simp [hook] <;> ring
  | act p => simp [hook, Shape.numel]; ring
  | pool p => simp [hook, Shape.numel]; ring
  | deconv kh kw cin cout g b p => cases b <;> simp [hook] <;> ring
  | uncounted => simp [hook]

theorem run_scale (kinds : Nat → Kind) (B : Nat) (calls : List Call) (h : ∀ c ∈ calls, Plain kinds c) (a a' : Acc)
    (ha : ∀ m, (a' m).1 = B * (a m).1 ∧ (a' m).2 = (a m).2) (m : Nat) :
    (run kinds a' (calls.map (Call.scale B)) m).1 = B * (run kinds a calls m).1 ∧
    (run kinds a' (calls.map (Call.scale B)) m).2 = (run kinds a calls m).2 := by
  induction calls generalizing a a' with
  | nil => exact ha m
  | cons c cs ih =>
    have hr : run kinds a (c :: cs) = run kinds (a.add c.mod (hook (kinds c.mod) c.inp c.out)) cs := rfl
    have hr' : run kinds a' ((c :: cs).map (Call.scale B)) =
        run kinds (a'.add c.mod (hook (kinds c.mod) ⟨B * c.inp.batch, c.inp.dims⟩ ⟨B * c.out.batch, c.out.dims⟩))
          (cs.map (Call.scale B)) := rfl
    rw [hr, hr']
    apply ih (fun c' hc' => h c' (by simp [hc']))
    intro j
    have hc := h c (by simp)
    rw [hook_scale _ _ _ _ hc.1 hc.2]
    by_cases hj : j = c.mod
    · subst hj
      simp [Acc.add, ha, mul_add]
    · simp [Acc.add, hj, ha]

theorem sum_mul_map {ι : Type} (l : List ι) (f g : ι → ℚ) (B : ℚ) (h : ∀ i ∈ l, f i = B * g i) :
    (l.map f).sum = B * (l.map g).sum := by
  induction l with
  | nil => simp
  | cons a l ih => simp [h a (by simp), ih (fun i hi => h i (by simp [hi])), mul_add]

theorem hook_params (k : Kind) (i o : Shape) (hv : k.Valid) : (hook k i o).2 = k.numel := by
  cases k with
  | conv kk cin cout g b =>
    obtain ⟨hg, q, rfl⟩ := hv
    have hg' : (g : ℚ) ≠ 0 := by exact_mod_cast hg.ne'
    have e : ((kk.prod : ℚ) * ((g * q : Nat) : ℚ)) * ((cout : ℚ) / g) = ((cout * q * kk.prod : Nat) : ℚ) := by
      push_cast; field_simp
    cases b
    · simp only [hook, convHook, Kind.numel, Bool.false_eq_true, if_false, Nat.mul_div_cancel_left q hg, add_zero]
      rw [e]
      unfold pyInt
      rw [if_pos (by positivity)]
      simp only [Int.floor_natCast]
    · simp only [hook, convHook, Kind.numel, if_true, Nat.mul_div_cancel_left q hg]
      rw [e]
      have e2 : ((cout * q * kk.prod : Nat) : ℚ) + (cout : ℚ) = ((cout * q * kk.prod + cout : Nat) : ℚ) := by push_cast; ring
      rw [e2]
      unfold pyInt
      rw [if_pos (by positivity)]
      simp only [Int.floor_natCast]
  | dynConv _ _ _ _ _ _ _ => exact absurd hv (by simp [Kind.Valid])
  | dmcpNorm af a t => simp [hook, Kind.numel]; ring
  | _ => simp [hook, Kind.numel]

theorem counted_dynamicConv (k : List Nat) (cin cout g : Nat) (b : Bool) (ai ao : Option Nat) :
    (Layer.conv "DynamicConv2d" k cin cout g b ai ao).counted = .dynConv k cin cout g b ai ao := by
  simp only [Layer.counted]
  rw [if_pos (by decide)]

theorem hook_same (l : Layer) (h : l.SameGroups) (i o : Shape) : hook l.counted i o = hook l.exported i o := by
  cases l with
  | conv cls k cin cout g b ai ao =>
    obtain ⟨rfl, h2⟩ := h
    rw [counted_dynamicConv]
    simp only [hook, Layer.exported]
    split
    · rename_i hc; rw [h2 hc]
    · rfl
  | linear _ _ _ _ _ => exact absurd h (by simp [Layer.SameGroups])
  | norm _ _ _ _ => exact absurd h (by simp [Layer.SameGroups])

theorem run_congr (k1 k2 : Nat → Kind) (a : Acc) (calls : List Call) (h : ∀ m i o, hook (k1 m) i o = hook (k2 m) i o) :
    run k1 a calls = run k2 a calls := by
  induction calls generalizing a with
  | nil => rfl
  | cons c cs ih =>
    have hr : ∀ k, run k a (c :: cs) = run k (a.add c.mod (hook (k c.mod) c.inp c.out)) cs := fun _ => rfl
    rw [hr, hr, h, ih]

theorem run_congr_flops (k1 k2 : Nat → Kind) (a a' : Acc) (calls : List Call) (ha : ∀ m, (a m).1 = (a' m).1)
    (h : ∀ m i o, (hook (k1 m) i o).1 = (hook (k2 m) i o).1) (m : Nat) :
    (run k1 a calls m).1 = (run k2 a' calls m).1 := by
  rw [(run_eq _ _ _ _).1, (run_eq _ _ _ _).1, ha m]
  simp only [h]

theorem mem_leavesAll (ts : List Tree) (x : Nat) : x ∈ Tree.leavesAll ts ↔ ∃ c ∈ ts, x ∈ c.leaves := by
  induction ts with
  | nil => simp [Tree.leavesAll]
  | cons t ts ih => simp [Tree.leavesAll, ih]

mutual
theorem leaves_ids (t : Tree) (x : Nat) (h : x ∈ t.leaves) : x ∈ t.ids := by
  match t with
  | .leaf i => simpa [Tree.ids, Tree.leaves] using h
  | .node i cs =>
    simp only [Tree.leaves] at h
    simp [Tree.ids, leavesAll_ids cs x h]
theorem leavesAll_ids (ts : List Tree) (x : Nat) (h : x ∈ Tree.leavesAll ts) : x ∈ Tree.idsAll ts := by
  match ts with
  | [] => simp [Tree.leavesAll] at h
  | t :: ts =>
    simp only [Tree.leavesAll, List.mem_append] at h
    simp only [Tree.idsAll, List.mem_append]
    rcases h with h | h
    · exact .inl (leaves_ids t x h)
    · exact .inr (leavesAll_ids ts x h)
end

theorem below_leaves {m t : Tree} (h : Tree.Below m t) (x : Nat) (hx : x ∈ m.leaves) : x ∈ t.leaves := by
  induction h with
  | refl => exact hx
  | child i cs c m hc _ ih => simp only [Tree.leaves]; exact (mem_leavesAll cs x).2 ⟨c, hc, ih hx⟩

theorem id_mem_ids (t : Tree) : t.id ∈ t.ids := by
  cases t <;> simp [Tree.id, Tree.ids]

theorem mem_idsAll_of {ts : List Tree} {c : Tree} (hc : c ∈ ts) {x : Nat} (hx : x ∈ c.ids) : x ∈ Tree.idsAll ts := by
  induction ts with
  | nil => simp at hc
  | cons t ts ih =>
    simp only [Tree.idsAll, List.mem_append]
    rcases List.mem_cons.1 hc with rfl | hc
    · exact .inl hx
    · exact .inr (ih hc)

theorem below_id {m t : Tree} (h : Tree.Below m t) : m.id ∈ t.ids := by
  induction h with
  | refl t => exact id_mem_ids t
  | child i cs c m hc _ ih => simp only [Tree.ids, List.mem_cons]; exact .inr (mem_idsAll_of hc ih)

mutual
theorem accumulate_eq (b : Nat) (st : Nat → ℚ) (t : Tree) (hn : t.ids.Nodup) :
    accumulate b st t = (t.leaves.map st).sum / b := by
  match t with
  | .leaf i => simp [accumulate, Tree.leaves]
  | .node i cs =>
    simp only [accumulate, Tree.leaves]
    simp only [Tree.ids, List.nodup_cons] at hn
    exact accumulateAll_eq b st [] cs hn.2 (by simp)
theorem accumulateAll_eq (b : Nat) (st : Nat → ℚ) (seen : List Nat) (ts : List Tree) (hn : (Tree.idsAll ts).Nodup)
    (hd : ∀ i ∈ Tree.idsAll ts, i ∉ seen) :
    accumulateAll b st seen ts = ((Tree.leavesAll ts).map st).sum / b := by
  match ts with
  | [] => simp [accumulateAll, Tree.leavesAll]
  | t :: ts =>
    simp only [Tree.idsAll, List.nodup_append] at hn
    obtain ⟨h1, h2, h3⟩ := hn
    simp only [accumulateAll, Tree.leavesAll]
    rw [if_neg (hd _ (by simp [Tree.idsAll, id_mem_ids])), accumulate_eq b st t h1,
      accumulateAll_eq b st (t.id :: seen) ts h2 (by
        intro i hi
        simp only [List.mem_cons, not_or]
        exact ⟨fun e => h3 _ (id_mem_ids t) i hi e.symm, hd i (by simp [Tree.idsAll, hi])⟩)]
    rw [List.map_append, List.sum_append, add_div]
end

mutual
theorem modules_fresh (t : Tree) (memo : List Nat) (hn : t.ids.Nodup) (hd : ∀ i ∈ t.ids, i ∉ memo) :
    (∀ i, i ∈ (modules memo t).2 ↔ i ∈ t.ids ∨ i ∈ memo) ∧
    ∀ (conv : ℚ → ℚ) (b : Nat) (st : Nat → ℚ),
      (∀ j, j ∉ t.ids → (modules memo t).1.foldl (storeSum conv b) st j = st j) ∧
      (∀ m, Tree.Below m t → (modules memo t).1.foldl (storeSum conv b) st m.id = conv ((m.leaves.map st).sum / b)) := by
  match t with
  | .leaf i =>
    have hi : i ∉ memo := hd i (by simp [Tree.ids])
    simp only [modules, hi, if_false]
    refine ⟨by simp [Tree.ids], ?_⟩
    intro conv b st
    refine ⟨?_, ?_⟩
    · intro j hj
      simp [Tree.ids] at hj
      simp [storeSum, Tree.id, hj]
    · intro m hm
      cases hm
      simp [storeSum, Tree.id, accumulate, Tree.leaves]
  | .node i cs =>
    have hi : i ∉ memo := hd i (by simp [Tree.ids])
    have hn' := hn
    simp only [Tree.ids, List.nodup_cons] at hn
    obtain ⟨hA, hB⟩ := modulesAll_fresh cs (i :: memo) hn.2 (by
      intro j hj
      simp only [List.mem_cons, not_or]
      exact ⟨fun e => hn.1 (e ▸ hj), hd j (by simp [Tree.ids, hj])⟩)
    simp only [modules, hi, if_false]
    refine ⟨?_, ?_⟩
    · intro j
      rw [hA j]
      simp only [Tree.ids, List.mem_cons]
      tauto
    · intro conv b st
      obtain ⟨h1, h2⟩ := hB conv b (storeSum conv b st (.node i cs))
      refine ⟨?_, ?_⟩
      · intro j hj
        simp only [Tree.ids, List.mem_cons, not_or] at hj
        rw [List.foldl_cons, h1 j hj.2]
        simp [storeSum, Tree.id, hj.1]
      · intro m hm
        rw [List.foldl_cons]
        cases hm with
        | refl =>
          rw [h1 _ (by simpa [Tree.id] using hn.1)]
          simp only [storeSum, if_true]
          rw [accumulate_eq b st _ hn']
        | child i cs c m hc hb =>
          rw [h2 c hc m hb]
          congr 3
          apply List.map_congr_left
          intro x hx
          have hx' : x ∈ Tree.idsAll cs := mem_idsAll_of hc (leaves_ids c x (below_leaves hb x hx))
          have : x ≠ i := fun e => hn.1 (e ▸ hx')
          simp [storeSum, Tree.id, this]
theorem modulesAll_fresh (ts : List Tree) (memo : List Nat) (hn : (Tree.idsAll ts).Nodup) (hd : ∀ i ∈ Tree.idsAll ts, i ∉ memo) :
    (∀ i, i ∈ (modulesAll memo ts).2 ↔ i ∈ Tree.idsAll ts ∨ i ∈ memo) ∧
    ∀ (conv : ℚ → ℚ) (b : Nat) (st : Nat → ℚ),
      (∀ j, j ∉ Tree.idsAll ts → (modulesAll memo ts).1.foldl (storeSum conv b) st j = st j) ∧
      (∀ c ∈ ts, ∀ m, Tree.Below m c →
        (modulesAll memo ts).1.foldl (storeSum conv b) st m.id = conv ((m.leaves.map st).sum / b)) := by
  match ts with
  | [] => simp [modulesAll, Tree.idsAll]
  | t :: ts =>
    simp only [Tree.idsAll, List.nodup_append] at hn
    obtain ⟨hn1, hn2, hn3⟩ := hn
    obtain ⟨hA, hB⟩ := modules_fresh t memo hn1 (fun i hi => hd i (by simp [Tree.idsAll, hi]))
    obtain ⟨hC, hD⟩ := modulesAll_fresh ts (modules memo t).2 hn2 (by
      intro i hi h
      rcases (hA i).1 h with h | h
      · exact hn3 i h i hi rfl
      · exact hd i (by simp [Tree.idsAll, hi]) h)
    simp only [modulesAll]
    refine ⟨?_, ?_⟩
    · intro i
      rw [hC i, hA i]
      simp only [Tree.idsAll, List.mem_append]
      tauto
    · intro conv b st
      obtain ⟨h1, h2⟩ := hB conv b st
      obtain ⟨h3, h4⟩ := hD conv b ((modules memo t).1.foldl (storeSum conv b) st)
      rw [List.foldl_append]
      refine ⟨?_, ?_⟩
      · intro j hj
        simp only [Tree.idsAll, List.mem_append, not_or] at hj
        rw [h3 j hj.2, h1 j hj.1]
      · intro c hc m hm
        rcases List.mem_cons.1 hc with rfl | hc
        · rw [h3 _ (fun h => hn3 _ (below_id hm) _ h rfl), h2 m hm]
        · rw [h4 c hc m hm]
          congr 3
          apply List.map_congr_left
          intro x hx
          apply h1
          intro hx'
          exact hn3 x hx' x (mem_idsAll_of hc (leaves_ids c x (below_leaves hm x hx))) rfl
end

theorem roundHalfEven_near (n d : Nat) (hd : 0 < d) : |(roundHalfEven n d : ℚ) - n / d| ≤ 1 / 2 := by
  have hm := Nat.div_add_mod n d
  have hr : n % d < d := Nat.mod_lt _ hd
  have hd' : (0 : ℚ) < d := by exact_mod_cast hd
  have hq : (n : ℚ) / d = (n / d : Nat) + ((n % d : Nat) : ℚ) / d := by
    field_simp
    have : (d : ℚ) * ((n / d : Nat) : ℚ) + ((n % d : Nat) : ℚ) = n := by exact_mod_cast hm
    linarith
  rw [hq]
  have hr1 : ((n % d : Nat) : ℚ) / d < 1 := by rw [div_lt_one hd']; exact_mod_cast hr
  have hr0 : (0 : ℚ) ≤ ((n % d : Nat) : ℚ) / d := by positivity
  unfold roundHalfEven
  simp only []
  rw [abs_le]
  split
  · rename_i h
    have : ((n % d : Nat) : ℚ) / d ≤ 1 / 2 := by
      rw [div_le_iff₀ hd']; have : (2 * (n % d : Nat) : ℚ) < d := by exact_mod_cast h
      linarith
    constructor <;> linarith
  · split
    · rename_i h
      have : (1 : ℚ) / 2 ≤ ((n % d : Nat) : ℚ) / d := by
        rw [le_div_iff₀ hd']; have : (d : ℚ) < 2 * (n % d : Nat) := by exact_mod_cast h
        linarith
      push_cast
      constructor <;> linarith
    · have h : 2 * (n % d) = d := by omega
      have : ((n % d : Nat) : ℚ) / d = 1 / 2 := by
        rw [div_eq_iff hd'.ne']; have : (2 * (n % d : Nat) : ℚ) = d := by exact_mod_cast h
        linarith
      split
      · constructor <;> linarith
      · push_cast
        constructor <;> linarith

theorem hook_work (k : Kind) (i o : Shape) (h : k.Fits i o) : (hook k i o).1 = k.work i o := by
  cases k with
  | conv kk cin cout g b =>
    obtain ⟨hg, ⟨q, rfl⟩, hb, ho⟩ := h
    obtain ⟨ob, od⟩ := o
    cases od with
    | nil => simp at ho
    | cons c sp =>
      simp at ho
      subst ho
      have hg' : (g : ℚ) ≠ 0 := by exact_mod_cast hg.ne'
      simp only [hook, convHook, Kind.work, Shape.numel, hb, List.drop_succ_cons, List.drop_zero, List.prod_cons,
        Nat.mul_div_cancel_left _ hg]
      cases b <;> (push_cast; field_simp; ring_nf; try simp)
  | linear p =>
    obtain ⟨d, fi, fo, rfl, ho⟩ := h
    simp only [hook, Kind.work, Shape.numel, ho, List.getLast?_append, List.getLast?_singleton, Option.some_or,
      Option.getD_some, List.prod_append, List.prod_singleton]
    push_cast; ring
  | norm a p => cases a <;> simp [hook, Kind.work, two_mul]
  | act p => simp [hook, Kind.work]
  | pool p => simp [hook, Kind.work]
  | upsample p =>
    have h' : o.batch = 1 := h
    simp [hook, Kind.work, Shape.numel, h']
  | deconv kh kw cin cout g b p =>
    obtain ⟨h1, w1, h2, w2, rfl, ho, hb⟩ := h
    cases b with
    | false =>
      simp [hook, Kind.work, Shape.numel]
      ring
    | true =>
      obtain rfl := hb rfl
      simp [hook, Kind.work, Shape.numel, ho]
      ring
  | _ => exact absurd h (by simp [Kind.Fits])

theorem sum_by_mod (mods : List Nat) (hn : mods.Nodup) (calls : List Call) (f : Call → ℚ) (h : ∀ c ∈ calls, c.mod ∈ mods) :
    (mods.map fun m => ((calls.filter (·.mod = m)).map f).sum).sum = (calls.map f).sum := by
  induction calls with
  | nil => simp
  | cons c cs ih =>
    have ih' := ih (fun x hx => h x (by simp [hx]))
    have hc := h c (by simp)
    have e : ∀ m, (((c :: cs).filter (·.mod = m)).map f).sum = (if c.mod = m then f c else 0) + ((cs.filter (·.mod = m)).map f).sum := by
      intro m
      by_cases hm : c.mod = m <;> simp [List.filter_cons, hm]
    simp only [e, List.sum_map_add, ih', List.map_cons, List.sum_cons]
    congr 1
    clear ih ih' h e
    induction mods with
    | nil => simp at hc
    | cons m ms ihm =>
      simp only [List.map_cons, List.sum_cons]
      rw [List.nodup_cons] at hn
      by_cases hm : c.mod = m
      · have : (ms.map fun x => if c.mod = x then f c else 0).sum = 0 := by
          apply List.sum_eq_zero
          intro x hx
          obtain ⟨y, hy, rfl⟩ := List.mem_map.1 hx
          rw [if_neg (by rintro rfl; exact hn.1 (hm ▸ hy))]
        rw [this, if_pos hm, add_zero]
      · rw [if_neg hm, zero_add]
        exact ihm hn.2 (by simpa [hm] using hc)

end Verif.Estimator
