import Verif.Spec.DynamicOps

/-! Helper lemmas for `Verif/Props/DynamicOps.lean`. -/

namespace Verif.DynamicOps
open Verif

variable {W X Y B : Type}

theorem select_eq_active {α : Type} (m : List Bool) (xs : List α) : select m xs = active m xs := by
  induction m generalizing xs with
  | nil => cases xs <;> simp [select, active]
  | cons b m ih =>
    cases xs with
    | nil => cases b <;> simp [select, active]
    | cons x xs =>
      cases b
      · simpa [select, active] using ih xs
      · simpa [select, active] using ih xs

theorem select_length {α : Type} (m : List Bool) (xs : List α) (h : m.length = xs.length) :
    (select m xs).length = count m := by
  induction m generalizing xs with
  | nil => cases xs <;> simp [select, count]
  | cons b m ih =>
    cases xs with
    | nil => simp at h
    | cons x xs =>
      have := ih xs (by simpa using h)
      cases b <;> simp_all [select, count]

theorem select_true {α : Type} (xs : List α) : select (List.replicate xs.length true) xs = xs := by
  induction xs with
  | nil => rfl
  | cons x xs ih => simp [List.replicate_succ, select, ih]

theorem count_true (n : Nat) : count (List.replicate n true) = n := by
  induction n with
  | zero => rfl
  | succ n ih => simp [count] at ih ⊢

theorem select_map {α β : Type} (f : α → β) (m : List Bool) (xs : List α) :
    select m (xs.map f) = (select m xs).map f := by
  induction m generalizing xs with
  | nil => cases xs <;> simp [select]
  | cons b m ih => cases xs with
    | nil => cases b <;> simp [select]
    | cons x xs => cases b <;> simp [select, ih]

theorem select_zipWith {α β γ : Type} (f : α → β → γ) (m : List Bool) (xs : List α) (ys : List β)
    (h1 : m.length = xs.length) (h2 : m.length = ys.length) :
    List.zipWith f (select m xs) (select m ys) = select m (List.zipWith f xs ys) := by
  induction m generalizing xs ys with
  | nil => cases xs <;> cases ys <;> simp [select]
  | cons b m ih =>
    cases xs with
    | nil => simp at h1
    | cons x xs => cases ys with
      | nil => simp at h2
      | cons y ys =>
        have := ih xs ys (by simpa using h1) (by simpa using h2)
        cases b <;> simp [select, this]

theorem select_append {α : Type} (m1 m2 : List Bool) (x1 x2 : List α) (h : m1.length = x1.length) :
    select (m1 ++ m2) (x1 ++ x2) = select m1 x1 ++ select m2 x2 := by
  induction m1 generalizing x1 with
  | nil => cases x1 with
    | nil => simp [select]
    | cons _ _ => simp at h
  | cons b m ih =>
    cases x1 with
    | nil => simp at h
    | cons x xs =>
      have := ih xs (by simpa using h)
      cases b <;> simp [select, this]

theorem select_subset {α : Type} (m : List Bool) (xs : List α) : ∀ x ∈ select m xs, x ∈ xs := by
  induction m generalizing xs with
  | nil => cases xs <;> simp [select]
  | cons b m ih => cases xs with
    | nil => cases b <;> simp [select]
    | cons y ys =>
      intro x hx
      cases b
      · simp only [select] at hx
        exact List.mem_cons_of_mem _ (ih ys x hx)
      · simp only [select, List.mem_cons] at hx
        rcases hx with rfl | hx
        · simp
        · exact List.mem_cons_of_mem _ (ih ys x hx)

theorem dot_select [Zero X] [AddCommMonoid Y] (corr : W → X → Y) (h0 : ∀ w, corr w 0 = 0) (m : List Bool)
    (xs : List X) (row : List W) (h1 : m.length = xs.length) (h2 : row.length = xs.length) :
    dot corr (select m xs) (select m row) = dot corr (zeroOff m xs) row := by
  unfold dot zeroOff
  induction m generalizing xs row with
  | nil => cases xs <;> cases row <;> simp_all [select]
  | cons b m ih =>
    cases xs with
    | nil => simp at h1
    | cons x xs => cases row with
      | nil => simp at h2
      | cons w ws =>
        have := ih xs ws (by simpa using h1) (by simpa using h2)
        cases b <;> simp [select, this, h0]

theorem zeroOff_length [Zero X] (m : List Bool) (xs : List X) (h : m.length = xs.length) :
    (zeroOff m xs).length = xs.length := by simp [zeroOff, h]

theorem chunks_flatten {α : Type} (k : Nat) (L : List (List α)) (h : ∀ l ∈ L, l.length = k) :
    chunks L.length k L.flatten = L := by
  induction L with
  | nil => simp [chunks]
  | cons l L ih =>
    have hl : l.length = k := h l (by simp)
    have ih := ih (fun l hl => h l (by simp [hl]))
    simp only [chunks, List.length_cons, List.range_succ_eq_map, List.map_cons, List.map_map, List.flatten_cons] at ih ⊢
    congr 1
    · simp [hl]
    · conv_rhs => rw [← ih]
      apply List.map_congr_left
      intro r _
      simp only [Function.comp]
      congr 1
      rw [← hl, List.drop_append]
      have : (r.succ) * l.length = l.length + r * l.length := by rw [Nat.succ_mul]; omega
      rw [this]
      simp

theorem flatten_chunks {α : Type} (n k : Nat) (xs : List α) (h : xs.length = n * k) :
    (chunks n k xs).flatten = xs := by
  induction n generalizing xs with
  | zero => simp at h; simp [chunks, h]
  | succ n ih =>
    have := ih (xs.drop k) (by simp [h, Nat.succ_mul])
    simp only [chunks, List.range_succ_eq_map, List.map_cons, List.map_map, List.flatten_cons] at this ⊢
    simp only [Nat.zero_mul, List.drop_zero]
    conv_rhs => rw [← List.take_append_drop k xs, ← this]
    congr 2
    apply List.map_congr_left
    intro r _
    simp only [Function.comp, List.drop_drop]
    congr 2
    rw [Nat.succ_mul]; omega

theorem chunks_len {α : Type} (n k : Nat) (xs : List α) (h : xs.length = n * k) :
    ∀ l ∈ chunks n k xs, l.length = k := by
  intro l hl
  simp only [chunks, List.mem_map, List.mem_range] at hl
  obtain ⟨r, hr, rfl⟩ := hl
  simp only [List.length_take, List.length_drop, h]
  have : (r + 1) * k ≤ n * k := Nat.mul_le_mul_right k hr
  rw [Nat.succ_mul] at this
  omega

theorem chunks_length {α : Type} (n k : Nat) (xs : List α) : (chunks n k xs).length = n := by simp [chunks]

theorem chunks_exists {α : Type} (n k : Nat) (xs : List α) (h : xs.length = n * k) :
    ∃ L : List (List α), xs = L.flatten ∧ L.length = n ∧ (∀ l ∈ L, l.length = k) ∧ chunks n k xs = L :=
  ⟨chunks n k xs, (flatten_chunks n k xs h).symm, chunks_length n k xs, chunks_len n k xs h, rfl⟩

theorem maskIndex_ok {α : Type} (m : List Bool) (xs : List α) (h : m.length = xs.length) :
    maskIndex m xs = .ok (select m xs) := by simp [maskIndex, h]

theorem biasIndex_ok (m : List Bool) (b : Option (List B)) (h : ∀ bs, b = some bs → bs.length = m.length) :
    biasIndex m b = .ok (b.map (select m)) := by
  cases b with
  | none => rfl
  | some bs => simp [biasIndex, maskIndex, h bs rfl, bind, Except.bind, pure, Except.pure]

theorem mapM_maskIndex {α : Type} (m : List Bool) (rows : List (List α)) (h : ∀ r ∈ rows, r.length = m.length) :
    rows.mapM (maskIndex m) = .ok (rows.map (select m)) := by
  induction rows with
  | nil => rfl
  | cons r rows ih =>
    rw [List.mapM_cons, ih (fun r hr => h r (by simp [hr])), maskIndex_ok m r (h r (by simp)).symm]
    rfl

theorem addBias_select [AddCommMonoid Y] (bc : B → Y) (m : List Bool) (b : Option (List B)) (ys : List Y)
    (h : m.length = ys.length) (hb : ∀ bs, b = some bs → bs.length = m.length) :
    addBias bc (b.map (select m)) (select m ys) = select m (addBias bc b ys) := by
  cases b with
  | none => rfl
  | some bs => exact select_zipWith _ m bs ys (hb bs rfl).symm h

theorem convFn_ok [AddCommMonoid Y] (corr : W → X → Y) (bc : B → Y) (x : List X) (w : Weight W) (b : Option (List B))
    (groups : Nat) (h1 : 0 < groups) (h2 : w.rows.length % groups = 0) (h3 : x.length = w.cols * groups)
    (h4 : ∀ bs, b = some bs → bs.length = w.rows.length) :
    convFn corr bc x w b groups = .ok (addBias bc b ((List.zipWith (fun rows xs => rows.map (dot corr xs))
      (chunks groups (w.rows.length / groups) w.rows) (chunks groups w.cols x)).flatten)) := by
  unfold convFn
  rw [if_neg]
  rintro (h | h | h | ⟨bs, hb, h⟩)
  · omega
  · exact h h2
  · exact h h3
  · exact h (h4 bs hb)

theorem chunks_one {α : Type} (xs : List α) : chunks 1 xs.length xs = [xs] := by simp [chunks]

theorem dense_conv [AddCommMonoid Y] (corr : W → X → Y) (bc : B → Y) (x : List X) (w : List (List W)) (k : Nat)
    (b : Option (List B)) (hx : x.length = k) (hb : ∀ bs, b = some bs → bs.length = w.length) :
    convFn corr bc x ⟨w, k⟩ b 1 = .ok (addBias bc b (w.map (dot corr x))) := by
  rw [convFn_ok _ _ _ _ _ _ (by norm_num) (by simp [Nat.mod_one]) (by simpa using hx) hb]
  have h1 : chunks 1 (w.length / 1) w = [w] := by rw [Nat.div_one]; exact chunks_one w
  have h2 : chunks 1 k x = [x] := by rw [← hx]; exact chunks_one x
  simp only [h1, h2]
  simp

theorem count_pos {m : List Bool} (h : true ∈ m) : 0 < count m := by
  unfold count
  apply List.length_pos_of_mem (a := true)
  simp [h]

theorem count_le (m : List Bool) : count m ≤ m.length := List.length_filter_le _ _

theorem dense_main [Zero X] [AddCommMonoid Y] (corr : W → X → Y) (h0 : ∀ w, corr w 0 = 0) (bc : B → Y)
    (inM outM : List Bool) (w : List (List W)) (b : Option (List B)) (x : List X)
    (hin : inM.length = x.length) (hout : outM.length = w.length) (hr : ∀ r ∈ w, r.length = x.length)
    (hb : ∀ bs, b = some bs → bs.length = w.length) :
    (dense inM outM w b >>= fun p => convFn corr bc (select inM x) p.1 p.2 1) =
      .ok (select outM (addBias bc b (w.map (dot corr (zeroOff inM x))))) := by
  have hs : (select outM w).length = count outM := select_length outM w hout
  unfold dense
  rw [maskIndex_ok _ _ hout]
  simp only [bind, Except.bind]
  rw [mapM_maskIndex _ _ (fun r hr' => by rw [hin]; exact hr r (select_subset _ _ r hr'))]
  simp only []
  rw [biasIndex_ok _ _ (fun bs h => by rw [hout]; exact hb bs h)]
  simp only [pure, Except.pure]
  rw [dense_conv _ _ _ _ _ _ (select_length _ _ hin) (by
    intro bs h
    cases b with
    | none => simp at h
    | some b0 =>
      simp at h; subst h
      rw [List.length_map, hs, select_length _ _ (by rw [hout]; exact (hb b0 rfl).symm)])]
  rw [← addBias_select _ _ _ _ (by simpa using hout) (fun bs h => by rw [hout]; exact hb bs h)]
  rw [select_map, List.map_map]
  congr 2
  apply List.map_congr_left
  intro r hr'
  exact dot_select corr h0 inM x r hin (hr r (select_subset _ _ r hr'))

theorem inM_length {c : Conv W B} (h : c.WF) : c.inM.length = c.inC := by
  unfold Conv.inM
  cases hm : c.inMask with
  | none => simp
  | some m => simpa using h.inSize m hm

theorem outM_length {c : Conv W B} (h : c.WF) : c.outM.length = c.outC := by
  unfold Conv.outM
  cases hm : c.outMask with
  | none => simp
  | some m => simpa using h.outSize m hm

theorem map_ok {ε α β : Type} (f : α → β) (a : α) : (Except.ok a : Except ε α).map f = .ok (f a) := rfl

theorem zeroOff_true [Zero X] (x : List X) : zeroOff (List.replicate x.length true) x = x := by
  induction x with
  | nil => rfl
  | cons a x ih => simpa [zeroOff, List.replicate_succ] using ih

theorem flatten_singletons {α : Type} (xs : List α) : (xs.map fun x => [x]).flatten = xs := by
  induction xs with
  | nil => rfl
  | cons x xs ih => simp [ih]

theorem chunks_singletons {α : Type} (xs : List α) : chunks xs.length 1 xs = xs.map ([·]) := by
  have := chunks_flatten 1 (xs.map ([·])) (by simp)
  rw [flatten_singletons, List.length_map] at this
  exact this

theorem select_zeroOff [Zero X] {V : Type} (f : List W → X → V) (m : List Bool) (w : List (List W)) (x : List X) :
    m.length = x.length → m.length = w.length →
    select m (List.zipWith f w x) = select m (List.zipWith f w (zeroOff m x)) := by
  induction m generalizing x w with
  | nil => intro _ _; cases w <;> cases x <;> simp [select]
  | cons b m ih =>
    intro hxl hwl
    cases x with
    | nil => simp at hxl
    | cons a x => cases w with
      | nil => simp at hwl
      | cons r w =>
        have := ih w x (by simpa using hxl) (by simpa using hwl)
        cases b
        · simpa [select, zeroOff] using this
        · simpa [select, zeroOff] using this

/-- A depthwise convolution on all its channels. -/
theorem depthwise_conv [AddCommMonoid Y] (corr : W → X → Y) (bc : B → Y) (x : List X) (w : List (List W))
    (b : Option (List B)) (hx : x.length = w.length) (hpos : 0 < w.length)
    (hb : ∀ bs, b = some bs → bs.length = w.length) :
    convFn corr bc x ⟨w, 1⟩ b w.length = .ok (addBias bc b (List.zipWith (fun r a => dot corr [a] r) w x)) := by
  rw [convFn_ok _ _ _ _ _ _ hpos (by simp) (by simpa using hx) hb]
  have h1 : chunks w.length (w.length / w.length) w = w.map ([·]) := by
    rw [Nat.div_self hpos]; exact chunks_singletons w
  have h2 : chunks w.length 1 x = x.map ([·]) := by rw [← hx]; exact chunks_singletons x
  simp only [h1, h2]
  rw [List.zipWith_map]
  simp only [List.map_cons, List.map_nil]
  congr 2
  have : List.zipWith (fun a b => [dot corr [b] a]) w x = (List.zipWith (fun r a => dot corr [a] r) w x).map ([·]) := by
    rw [List.map_zipWith]
  rw [this]
  exact flatten_singletons _

theorem select_false {α : Type} (i : List Bool) (r : List α) : select (i.map (false && ·)) r = [] := by
  induction i generalizing r with
  | nil => cases r <;> simp [select]
  | cons b i ih => cases r with
    | nil => simp [select]
    | cons a r => simpa [select] using ih r

theorem select_block {α : Type} (o i : List Bool) (rows : List (List α)) (h1 : o.length = rows.length)
    (h2 : ∀ r ∈ rows, r.length = i.length) :
    select ((o.map fun a => i.map (a && ·)).flatten) rows.flatten = ((select o rows).map (select i)).flatten := by
  induction o generalizing rows with
  | nil => cases rows <;> simp [select]
  | cons a o ih =>
    cases rows with
    | nil => simp at h1
    | cons r rows =>
      have hr := h2 r (by simp)
      have ih := ih rows (by simpa using h1) (fun r hr => h2 r (by simp [hr]))
      simp only [List.map_cons, List.flatten_cons]
      rw [select_append _ _ _ _ (by simp [hr]), ih]
      cases a
      · rw [select_false]; simp [select]
      · simp [select]

theorem select_flatten {α : Type} (Ms : List (List Bool)) (Xs : List (List α)) (k : Nat) (h : Ms.length = Xs.length)
    (h1 : ∀ m ∈ Ms, m.length = k) (h2 : ∀ x ∈ Xs, x.length = k) :
    select Ms.flatten Xs.flatten = (List.zipWith select Ms Xs).flatten := by
  induction Ms generalizing Xs with
  | nil => cases Xs <;> simp [select]
  | cons m Ms ih =>
    cases Xs with
    | nil => simp at h
    | cons x Xs =>
      have ih := ih Xs (by simpa using h) (fun m hm => h1 m (by simp [hm])) (fun x hx => h2 x (by simp [hx]))
      simp only [List.flatten_cons, List.zipWith_cons_cons]
      rw [select_append _ _ _ _ (by rw [h1 m (by simp), h2 x (by simp)]), ih]

theorem zeroOff_flatten [Zero X] (Ms : List (List Bool)) (Xs : List (List X)) (k : Nat) (h : Ms.length = Xs.length)
    (h1 : ∀ m ∈ Ms, m.length = k) (h2 : ∀ x ∈ Xs, x.length = k) :
    zeroOff Ms.flatten Xs.flatten = (List.zipWith zeroOff Ms Xs).flatten := by
  induction Ms generalizing Xs with
  | nil => cases Xs <;> simp [zeroOff]
  | cons m Ms ih =>
    cases Xs with
    | nil => simp at h
    | cons x Xs =>
      have ih := ih Xs (by simpa using h) (fun m hm => h1 m (by simp [hm])) (fun x hx => h2 x (by simp [hx]))
      simp only [List.flatten_cons, List.zipWith_cons_cons]
      rw [← ih]
      unfold zeroOff
      rw [List.zipWith_append (by rw [h1 m (by simp), h2 x (by simp)])]

theorem select_keep {α : Type} (Mo Mi : List (List Bool)) (Wb : List (List (List α))) (a b : Nat)
    (h1 : Mo.length = Wb.length) (h2 : Mi.length = Wb.length) (h3 : ∀ m ∈ Mo, m.length = a)
    (h4 : ∀ m ∈ Mi, m.length = b) (h5 : ∀ w ∈ Wb, w.length = a ∧ ∀ r ∈ w, r.length = b) :
    select ((List.zipWith (fun (o i : List Bool) => (o.map fun a => i.map (a && ·)).flatten) Mo Mi).flatten)
      Wb.flatten.flatten = (keep Mo Mi Wb).flatten.flatten := by
  induction Wb generalizing Mo Mi with
  | nil =>
    simp at h1 h2
    subst h1; subst h2
    simp [select, keep]
  | cons w Wb ih =>
    cases Mo with
    | nil => simp at h1
    | cons o Mo => cases Mi with
      | nil => simp at h2
      | cons i Mi =>
        have ih := ih Mo Mi (by simpa using h1) (by simpa using h2) (fun m hm => h3 m (by simp [hm]))
          (fun m hm => h4 m (by simp [hm])) (fun m hm => h5 m (by simp [hm]))
        obtain ⟨hw, hr⟩ := h5 w (by simp)
        have ho := h3 o (by simp)
        have hi := h4 i (by simp)
        simp only [List.zipWith_cons_cons, List.flatten_cons, List.flatten_append, keep]
        rw [select_append _ _ _ _ (by
          simp only [List.length_flatten, List.map_map, Function.comp_def, List.length_map]
          rw [List.map_congr_left (g := fun _ => b) (l := w) (fun r hr' => hr r hr')]
          simp [ho, hi, hw]), ih, select_block _ _ _ (by omega) (fun r hr' => by rw [hr r hr', hi])]

theorem keep_length {α : Type} (Mo Mi : List (List Bool)) (Wb : List (List (List α)))
    (h1 : Mo.length = Wb.length) (h2 : Mi.length = Wb.length) : (keep Mo Mi Wb).length = Wb.length := by
  induction Wb generalizing Mo Mi with
  | nil => simp at h1; subst h1; simp [keep]
  | cons w Wb ih =>
    cases Mo with
    | nil => simp at h1
    | cons o Mo => cases Mi with
      | nil => simp at h2
      | cons i Mi => simp [keep, ih Mo Mi (by simpa using h1) (by simpa using h2)]

theorem keep_sizes {α : Type} (Mo Mi : List (List Bool)) (Wb : List (List (List α))) (a b ca cb : Nat)
    (h3 : ∀ m ∈ Mo, m.length = a ∧ count m = ca)
    (h4 : ∀ m ∈ Mi, m.length = b ∧ count m = cb) (h5 : ∀ w ∈ Wb, w.length = a ∧ ∀ r ∈ w, r.length = b) :
    ∀ k ∈ keep Mo Mi Wb, k.length = ca ∧ ∀ r ∈ k, r.length = cb := by
  induction Wb generalizing Mo Mi with
  | nil => cases Mo <;> cases Mi <;> simp [keep]
  | cons w Wb ih =>
    cases Mo with
    | nil => simp [keep]
    | cons o Mo => cases Mi with
      | nil => simp [keep]
      | cons i Mi =>
        intro k hk
        simp only [keep, List.mem_cons] at hk
        obtain ⟨hw, hr⟩ := h5 w (by simp)
        have ho := h3 o (by simp)
        have hi := h4 i (by simp)
        rcases hk with rfl | hk
        · refine ⟨by rw [List.length_map, select_length _ _ (by omega), ho.2], ?_⟩
          intro r hr'
          obtain ⟨r0, hr0, rfl⟩ := List.mem_map.1 hr'
          rw [select_length _ _ (by rw [hi.1, hr r0 (select_subset _ _ _ hr0)]), hi.2]
        · exact ih Mo Mi (fun m hm => h3 m (by simp [hm]))
            (fun m hm => h4 m (by simp [hm])) (fun m hm => h5 m (by simp [hm])) k hk

theorem keep_conv [Zero X] [AddCommMonoid Y] (corr : W → X → Y) (h0 : ∀ w, corr w 0 = 0)
    (Mo Mi : List (List Bool)) (Wb : List (List (List W))) (Xb : List (List X)) (a b : Nat)
    (h1 : Mo.length = Wb.length) (h2 : Mi.length = Wb.length) (h6 : Xb.length = Wb.length) (h3 : ∀ m ∈ Mo, m.length = a)
    (h4 : ∀ m ∈ Mi, m.length = b) (h5 : ∀ w ∈ Wb, w.length = a ∧ ∀ r ∈ w, r.length = b) (h7 : ∀ x ∈ Xb, x.length = b) :
    (List.zipWith (fun rows xs => rows.map (dot corr xs)) (keep Mo Mi Wb) (List.zipWith select Mi Xb)).flatten =
      select Mo.flatten ((List.zipWith (fun rows xs => rows.map (dot corr xs)) Wb (List.zipWith zeroOff Mi Xb)).flatten) := by
  induction Wb generalizing Mo Mi Xb with
  | nil =>
    simp at h1 h2
    subst h1; subst h2
    simp [select, keep]
  | cons w Wb ih =>
    cases Mo with
    | nil => simp at h1
    | cons o Mo => cases Mi with
      | nil => simp at h2
      | cons i Mi => cases Xb with
        | nil => simp at h6
        | cons x Xb =>
          have ih := ih Mo Mi Xb (by simpa using h1) (by simpa using h2) (by simpa using h6) (fun m hm => h3 m (by simp [hm]))
            (fun m hm => h4 m (by simp [hm])) (fun m hm => h5 m (by simp [hm])) (fun m hm => h7 m (by simp [hm]))
          obtain ⟨hw, hr⟩ := h5 w (by simp)
          have ho := h3 o (by simp)
          have hi := h4 i (by simp)
          have hx := h7 x (by simp)
          simp only [List.zipWith_cons_cons, List.flatten_cons, keep]
          rw [select_append _ _ _ _ (by rw [List.length_map]; omega), ih, select_map, List.map_map]
          congr 1
          apply List.map_congr_left
          intro r hr'
          exact dot_select corr h0 i x r (by omega) (by rw [hr r (select_subset _ _ _ hr'), hx])

theorem sum_const {α : Type} (f : α → Nat) (k : Nat) (l : List α) (h : ∀ a ∈ l, f a = k) : (l.map f).sum = l.length * k := by
  rw [List.map_congr_left (g := fun _ => k) h]; simp

theorem keep_true {α : Type} (Mo Mi : List (List Bool)) (Wb : List (List (List α))) (a b : Nat)
    (h1 : Mo.length = Wb.length) (h2 : Mi.length = Wb.length) (h3 : ∀ m ∈ Mo, m = List.replicate a true)
    (h4 : ∀ m ∈ Mi, m = List.replicate b true) (h5 : ∀ w ∈ Wb, w.length = a ∧ ∀ r ∈ w, r.length = b) :
    keep Mo Mi Wb = Wb := by
  induction Wb generalizing Mo Mi with
  | nil => simp at h1; subst h1; simp [keep]
  | cons w Wb ih =>
    cases Mo with
    | nil => simp at h1
    | cons o Mo => cases Mi with
      | nil => simp at h2
      | cons i Mi =>
        have ih := ih Mo Mi (by simpa using h1) (by simpa using h2) (fun m hm => h3 m (by simp [hm]))
          (fun m hm => h4 m (by simp [hm])) (fun m hm => h5 m (by simp [hm]))
        obtain ⟨hw, hr⟩ := h5 w (by simp)
        have ho := h3 o (by simp)
        have hi := h4 i (by simp)
        simp only [keep, ih]
        congr 1
        rw [ho, ← hw, select_true]
        conv_rhs => rw [← List.map_id w]
        apply List.map_congr_left
        intro r hr'
        rw [hi, ← hr r hr', select_true]; rfl

theorem mask_length (Mo Mi : List (List Bool)) (a b : Nat) (h : Mo.length = Mi.length) (h3 : ∀ m ∈ Mo, m.length = a)
    (h4 : ∀ m ∈ Mi, m.length = b) :
    ((List.zipWith (fun (o i : List Bool) => (o.map fun a => i.map (a && ·)).flatten) Mo Mi).flatten).length =
      Mo.length * (a * b) := by
  rw [List.length_flatten, sum_const _ (a * b)]
  · simp [h]
  · intro l hl
    obtain ⟨n, hn, rfl⟩ := List.getElem_of_mem hl
    simp only [List.length_zipWith] at hn
    rw [List.getElem_zipWith, List.length_flatten, List.map_map, sum_const _ b]
    · rw [h3 _ (List.getElem_mem _)]
    · intro x _
      simp [h4 _ (List.getElem_mem _)]

theorem even_chunks {groups size : Nat} {m : List Bool} (hpos : 0 < groups) (h : Even groups size m) :
    ∀ l ∈ chunks groups size m, count l = count ((chunks groups size m).headD []) := by
  intro l hl
  simp only [chunks, List.mem_map, List.mem_range] at hl
  obtain ⟨r, hr, rfl⟩ := hl
  obtain ⟨n, rfl⟩ : ∃ n, groups = n + 1 := ⟨groups - 1, by omega⟩
  simp only [chunks, List.range_succ_eq_map, List.map_cons, List.headD_cons]
  exact h r hr 0 (by omega)

theorem uneven_chunks {groups size : Nat} {m : List Bool} (hpos : 0 < groups) (h : ¬ Even groups size m) :
    ∃ l ∈ chunks groups size m, count l ≠ count ((chunks groups size m).headD []) := by
  by_contra hc
  push Not at hc
  apply h
  intro g hg g' hg'
  have hmem : ∀ r < groups, (m.drop (r * size)).take size ∈ chunks groups size m := fun r hr =>
    List.mem_map.2 ⟨r, List.mem_range.2 hr, rfl⟩
  rw [hc _ (hmem g hg), hc _ (hmem g' hg')]

theorem grouped_rows {α : Type} {groups a b : Nat} {w : List (List α)} (h : w.length = groups * a)
    (hc : ∀ r ∈ w, r.length = b) {Wb : List (List (List α))} (hW : w = Wb.flatten) (hl : ∀ l ∈ Wb, l.length = a) :
    ∀ l ∈ Wb, l.length = a ∧ ∀ r ∈ l, r.length = b := fun l hl' =>
  ⟨hl l hl', fun r hr => hc r (by rw [hW]; exact List.mem_flatten.2 ⟨l, hl', hr⟩)⟩

theorem params_cols_indep {c : Conv W B} {w : Weight W} {b : Option (List B)} (_h : c.params = .ok (w, b)) (g : Nat)
    (hg : 0 < g) : w.cols * g / g = w.cols := Nat.mul_div_cancel _ hg

theorem dense_ok (inM outM : List Bool) (w : List (List W)) (b : Option (List B))
    (hout : outM.length = w.length) (hr : ∀ r ∈ w, r.length = inM.length)
    (hb : ∀ bs, b = some bs → bs.length = w.length) :
    dense inM outM w b = .ok (⟨(select outM w).map (select inM), count inM⟩, b.map (select outM)) := by
  unfold dense
  rw [maskIndex_ok _ _ hout]
  simp only [bind, Except.bind]
  rw [mapM_maskIndex _ _ (fun r hr' => hr r (select_subset _ _ r hr'))]
  simp only []
  rw [biasIndex_ok _ _ (fun bs h => by rw [hout]; exact hb bs h)]
  rfl

theorem lin_inM_length {l : Linear W B} (h : l.WF) : l.inM.length = l.inF := by
  unfold Linear.inM
  cases hm : l.inMask with
  | none => simp
  | some m => simpa using h.inSize m hm

theorem lin_outM_length {l : Linear W B} (h : l.WF) : l.outM.length = l.outF := by
  unfold Linear.outM
  cases hm : l.outMask with
  | none => simp
  | some m => simpa using h.outSize m hm

theorem select_zeroOff_id [Zero X] (m : List Bool) (x : List X) : select m (zeroOff m x) = select m x := by
  induction m generalizing x with
  | nil => cases x <;> simp [select, zeroOff]
  | cons b m ih => cases x with
    | nil => cases b <;> simp [select, zeroOff]
    | cons a x =>
      have := ih x
      cases b <;> simpa [select, zeroOff] using this

theorem zeroOff_idem [Zero X] (m : List Bool) (x : List X) : zeroOff m (zeroOff m x) = zeroOff m x := by
  induction m generalizing x with
  | nil => cases x <;> simp [zeroOff]
  | cons b m ih => cases x with
    | nil => simp [zeroOff]
    | cons a x =>
      have := ih x
      simp only [zeroOff, List.zipWith_cons_cons, List.cons.injEq] at this ⊢
      exact ⟨by split <;> rfl, this⟩

theorem full_length [AddCommMonoid Y] (corr : W → X → Y) (bc : B → Y) (c : Conv W B) (h : c.WF) (hg : c.groups = 1)
    (x : List X) (hx : x.length = c.inC) :
    ∃ y, c.full.staticForward corr bc x = .ok y ∧ y.length = c.outC := by
  have hbias : ∀ bs, c.bias = some bs → bs.length = c.weight.length := fun bs hb => by rw [h.bias bs hb, h.rows]
  unfold Conv.staticForward Conv.full
  simp only [hg, Nat.div_one]
  refine ⟨_, dense_conv _ _ _ _ _ _ hx hbias, ?_⟩
  cases hb : c.bias with
  | none => simp [addBias, h.rows]
  | some bs => simp [addBias, hbias bs hb, h.rows]

theorem g1_wf : g1.WF := by
  refine ⟨by decide, by decide, by decide, by decide, by decide, ?_, ?_, ?_⟩ <;>
  · intro m hm; simp [g1] at hm; subst hm; decide

theorem g1'_wf : g1'.WF := by
  refine ⟨by decide, by decide, by decide, by decide, by decide, ?_, ?_, ?_⟩
  · intro m hm; simp [g1'] at hm
  · intro m hm; simp [g1'] at hm; subst hm; decide
  · intro m hm; simp [g1'] at hm

end Verif.DynamicOps
