import Verif.Lemmas.Sandwich

namespace Verif.Sandwich
open Verif

variable {N B W O : Type} [AddCommGroup W] [Module ℚ W]

/-- C55: when the gradients of as many losses are accumulated as subnets are trained, every
iteration is one optimizer step with the mean of the gradients of all subnets, all taken at
the same weights and on the same batch, with the outputs of the largest subnet at these
weights as the teacher. -/
theorem C55_run (t : Task N B W O) (xs : List ((Kind → N) × B)) (it : Nat) (w : W) (o : O)
    (h0 : 0 < t.size) (ha : t.acc = t.size) (hit : it + xs.length ≤ t.maxIters) :
    ∃ s, (fresh t it w o).run t it xs = .ok s ∧ (s.o, s.w) = xs.foldl (meanStep t) (o, w) ∧ s.g = 0 ∧
      s.log = allForwards t xs (o, w) := by
  have key : ∀ (xs : List ((Kind → N) × B)) (it : Nat) (s : St N B W O), it + xs.length ≤ t.maxIters → Counted t it s → s.g = 0 →
      ∃ s', s.run t it xs = .ok s' ∧ (s'.o, s'.w) = xs.foldl (meanStep t) (s.o, s.w) ∧ s'.g = 0 ∧
        s'.log = s.log ++ allForwards t xs (s.o, s.w) := by
    intro xs
    induction xs with
    | nil => intro it s _ _ hg; exact ⟨s, rfl, rfl, hg, by simp [allForwards]⟩
    | cons x xs ih =>
      intro it s hit hc hg
      simp only [List.length_cons] at hit
      have hlt : (it + 1) * t.size ≤ t.maxIters * t.size := Nat.mul_le_mul_right _ (by omega)
      have hsum : (it + 1) * t.size = it * t.size + t.size := by ring
      obtain ⟨s', e0, e1, e2, e3⟩ := step_spec t it x.1 x.2 s t.size true h0 hc
        (by
          intro j hj
          rw [ha]
          apply factor_inside _ _ _ h0
          rw [Nat.mul_mod_left]
          omega)
        (by
          intro j hj hj'
          unfold Counter.shouldUpdate
          rw [ha]
          have : (it * t.size + j) % t.size = j := by
            rw [Nat.mul_comm, Nat.mul_add_mod, Nat.mod_eq_of_lt hj']
          simp only [this]
          rw [Bool.or_eq_false_iff]
          constructor
          · simpa using hj.ne'
          · simp only [beq_eq_false_iff_ne]; omega)
        (by unfold Counter.shouldUpdate; rw [ha]; simp)
      obtain ⟨s'', f0, f1, f2, f3⟩ := ih (it + 1) s' (by omega) e1 e3.2
      have hm : (s'.o, s'.w) = meanStep t (s.o, s.w) x := by
        rw [e3.1, hg, zero_add]; rfl
      refine ⟨s'', ?_, ?_, f2, ?_⟩
      · obtain ⟨pick, b⟩ := x
        rw [St.run, e0]
        exact f0
      · rw [f1, hm, List.foldl_cons]
      · rw [f3, e2, hm, allForwards, List.append_assoc]
  obtain ⟨s, a, b, c, d⟩ := key xs it (fresh t it w o) hit (Or.inl rfl) rfl
  exact ⟨s, a, b, c, by simpa [fresh] using d⟩

/-- C55: a run that is interrupted after any number of iterations and resumed in a new
process with the saved weights and optimizer state ends like the uninterrupted one. -/
theorem C55_resume (t : Task N B W O) (xs ys : List ((Kind → N) × B)) (w : W) (o : O)
    (h0 : 0 < t.size) (ha : t.acc = t.size) (hit : xs.length + ys.length ≤ t.maxIters) :
    ∃ a b s, (fresh t 0 w o).run t 0 xs = .ok a ∧ (fresh t xs.length a.w a.o).run t xs.length ys = .ok b ∧
      (fresh t 0 w o).run t 0 (xs ++ ys) = .ok s ∧ b.w = s.w ∧ b.o = s.o ∧ s.log = a.log ++ b.log := by
  obtain ⟨a, a0, a1, _, a3⟩ := C55_run t xs 0 w o h0 ha (by omega)
  obtain ⟨b, b0, b1, _, b3⟩ := C55_run t ys xs.length a.w a.o h0 ha hit
  obtain ⟨s, s0, s1, _, s3⟩ := C55_run t (xs ++ ys) 0 w o h0 ha (by simpa using hit)
  have hh : (b.o, b.w) = (s.o, s.w) := by rw [b1, s1, List.foldl_append, a1]
  refine ⟨a, b, s, a0, b0, s0, congrArg Prod.snd hh, congrArg Prod.fst hh, ?_⟩
  have happ : ∀ (xs ys : List ((Kind → N) × B)) (p : O × W),
      allForwards t (xs ++ ys) p = allForwards t xs p ++ allForwards t ys (xs.foldl (meanStep t) p) := by
    intro xs
    induction xs with
    | nil => intro ys p; rfl
    | cons x xs ih => intro ys p; simp [allForwards, ih]
  rw [s3, a3, b3, happ, a1]

/-- C55: with the gradients of `m` iterations accumulated, the first `m` iterations of a
window leave weights and optimizer as they are until the end, where one step is taken with
the mean over all their losses. -/
theorem C55_window (t : Task N B W O) (m : Nat) (xs : List ((Kind → N) × B)) (it : Nat) (w : W) (o : O)
    (h0 : 0 < t.size) (ha : t.acc = m * t.size) (hx : xs.length = m) (hm : 0 < m) (hd : m ∣ it) (hit : it + m ≤ t.maxIters) :
    ∃ s, (fresh t it w o).run t it xs = .ok s ∧ s.g = 0 ∧
      (s.o, s.w) = t.opt o w ((1 / ((m * t.size : Nat) : ℚ)) • (xs.map (batchGrad t w)).sum) ∧
      s.log = xs.flatMap (forwards t w) := by
  have hacc : 0 < t.acc := by rw [ha]; exact Nat.mul_pos hm h0
  obtain ⟨q, rfl⟩ := hd
  have key : ∀ (xs : List ((Kind → N) × B)) (k : Nat) (s : St N B W O), xs ≠ [] → k + xs.length = m → Counted t (m * q + k) s →
      ∃ s', s.run t (m * q + k) xs = .ok s' ∧ s'.g = 0 ∧
        (s'.o, s'.w) = t.opt s.o s.w (s.g + (1 / ((m * t.size : Nat) : ℚ)) • (xs.map (batchGrad t s.w)).sum) ∧
        s'.log = s.log ++ xs.flatMap (forwards t s.w) := by
    intro xs
    induction xs with
    | nil => intro k s h; exact absurd rfl h
    | cons x xs ih =>
      intro k s _ hk hc
      simp only [List.length_cons] at hk
      have hin : ∀ j < t.size, Counter.factor ⟨t.acc, (m * q + k) * t.size + j, t.maxIters * t.size⟩ = .ok (m * t.size) := by
        intro j hj
        rw [← ha]
        apply factor_inside _ _ _ hacc
        have h1 : (m * q + k) * t.size + j < (m * q + m) * t.size := by
          have : (m * q + k) * t.size + t.size ≤ (m * q + m) * t.size := by
            rw [← Nat.succ_mul]
            exact Nat.mul_le_mul_right _ (by omega)
          omega
        have h2 : (m * q + m) * t.size ≤ t.maxIters * t.size := Nat.mul_le_mul_right _ hit
        have h3 : (m * q + m) * t.size = t.acc * (q + 1) := by rw [ha]; ring
        have h4 : t.maxIters * t.size - t.maxIters * t.size % t.acc = t.acc * (t.maxIters * t.size / t.acc) := by
          have := Nat.div_add_mod (t.maxIters * t.size) t.acc
          omega
        rw [h4]
        have h5 : q + 1 ≤ t.maxIters * t.size / t.acc := by
          rw [Nat.le_div_iff_mul_le hacc, Nat.mul_comm, ← h3]
          exact h2
        calc (m * q + k) * t.size + j < t.acc * (q + 1) := by rw [← h3]; exact h1
          _ ≤ _ := Nat.mul_le_mul_left _ h5
      have hmod : ∀ r, r < m * t.size → (m * q * t.size + r) % t.acc = r := by
        intro r hr
        rw [show m * q * t.size + r = t.acc * q + r by rw [ha]; ring, Nat.mul_add_mod, ha, Nat.mod_eq_of_lt hr]
      have hquiet : ∀ j, 0 < k * t.size + j → k * t.size + j < m * t.size →
          Counter.shouldUpdate ⟨t.acc, (m * q + k) * t.size + j, t.maxIters * t.size⟩ = false := by
        intro j hj0 hj
        unfold Counter.shouldUpdate
        dsimp only
        have e : (m * q + k) * t.size + j = m * q * t.size + (k * t.size + j) := by ring
        have h2 : (m * q + m) * t.size ≤ t.maxIters * t.size := Nat.mul_le_mul_right _ hit
        rw [e, hmod _ hj, Bool.or_eq_false_iff]
        constructor
        · simp only [beq_eq_false_iff_ne]; omega
        · simp only [beq_eq_false_iff_ne]
          rw [Nat.add_mul] at h2
          omega
      have hks : k * t.size + t.size ≤ m * t.size := by
        rw [← Nat.succ_mul]; exact Nat.mul_le_mul_right _ (by omega)
      cases xs with
      | nil =>
        simp only [List.length_nil] at hk
        obtain ⟨s', e0, e1, e2, e3⟩ := step_spec t (m * q + k) x.1 x.2 s (m * t.size) true h0 hc hin
          (fun j hj hj' => hquiet j (by omega) (by omega))
          (by
            unfold Counter.shouldUpdate
            dsimp only
            rw [show (m * q + k + 1) * t.size = t.acc * (q + 1) by rw [ha, ← hk]; ring]
            simp)
        obtain ⟨pick, b⟩ := x
        refine ⟨s', ?_, e3.2, ?_, ?_⟩
        · rw [St.run, e0]; rfl
        · rw [e3.1]; simp
        · rw [e2]; simp
      | cons y ys =>
        obtain ⟨s', e0, e1, e2, e3⟩ := step_spec t (m * q + k) x.1 x.2 s (m * t.size) false h0 hc hin
          (fun j hj hj' => hquiet j (by omega) (by omega))
          (by
            have h1 : k + 1 < m := by simp at hk; omega
            have h2 : k * t.size + t.size < m * t.size := by
              rw [← Nat.succ_mul]; exact Nat.mul_lt_mul_of_pos_right h1 h0
            have := hquiet t.size (by omega) h2
            rw [show (m * q + k) * t.size + t.size = (m * q + k + 1) * t.size by ring] at this
            exact this)
        dsimp only at e3
        rw [if_neg (by simp)] at e3
        obtain ⟨o1, o2, o3⟩ := e3
        obtain ⟨s'', f0, f1, f2, f3⟩ := ih (k + 1) s' (by simp) (by omega) e1
        obtain ⟨pick, b⟩ := x
        refine ⟨s'', ?_, f1, ?_, ?_⟩
        · rw [St.run, e0]; exact f0
        · rw [f2, o1, o2, o3, List.map_cons (l := y :: ys), List.sum_cons, smul_add, add_assoc]
        · rw [f3, e2, o2]; simp
  obtain ⟨s, a, b, c, d⟩ := key xs 0 (fresh t (m * q) w o) (by intro h; subst h; simp at hx; omega) (by omega) (Or.inl rfl)
  refine ⟨s, a, b, ?_, by simpa [fresh] using d⟩
  rw [c]
  simp [fresh]

/-- C55: however many losses are accumulated, no run within the number of iterations fails,
every kind of every iteration is trained once, in order, on the batch of that iteration, and
after the last iteration no gradient is left over. -/
theorem C55_total (t : Task N B W O) (xs : List ((Kind → N) × B)) (it : Nat) (w : W) (o : O)
    (h0 : 0 < t.size) (ha : 0 < t.acc) (hit : it + xs.length ≤ t.maxIters) :
    ∃ s, (fresh t it w o).run t it xs = .ok s ∧
      s.log.map (fun r => (r.1, r.2.1)) = xs.flatMap (fun x => (expected t.algo t.num x.1).map fun n => (n, x.2)) ∧
      (xs ≠ [] → it + xs.length = t.maxIters → s.g = 0) := by
  have key : ∀ (xs : List ((Kind → N) × B)) (it : Nat) (s : St N B W O), it + xs.length ≤ t.maxIters → Counted t it s →
      ∃ s', s.run t it xs = .ok s' ∧
        s'.log.map (fun r => (r.1, r.2.1)) = s.log.map (fun r => (r.1, r.2.1)) ++
          xs.flatMap (fun x => (kinds t.algo t.num).map fun k => (x.1 k, x.2)) ∧
        (xs ≠ [] → it + xs.length = t.maxIters → s'.g = 0) := by
    intro xs
    induction xs with
    | nil => intro it s _ _; exact ⟨s, rfl, by simp, by simp⟩
    | cons x xs ih =>
      intro it s hit hc
      simp only [List.length_cons] at hit
      obtain ⟨r, er, r1, r2, r3, r4, r5, r6⟩ := reinit_spec t it s hc
      have hlen : (kinds t.algo t.num).length = t.size := rfl
      have hne : kinds t.algo t.num ≠ [] := by intro he; rw [he] at hlen; simp at hlen; omega
      have hle : it * t.size + t.size ≤ t.maxIters * t.size := by
        rw [← Nat.succ_mul]; exact Nat.mul_le_mul_right _ (by omega)
      obtain ⟨s1, e0, e1, e2, e3, e4⟩ := loop_total t x.1 x.2 (kinds t.algo t.num) r
        (by
          cases t.algo with
          | slimmable =>
            right
            intro k hk
            obtain ⟨i, _, rfl⟩ := List.mem_map.1 hk
            exact Or.inl trivial
          | autoslim => exact Or.inl ⟨_, rfl⟩
          | bignas => exact Or.inl ⟨_, rfl⟩)
        (by rw [r2]; exact ha) (by rw [r2]; exact hle)
      obtain ⟨s', f0, f1, f2⟩ := ih (it + 1) s1 (by omega)
        (by
          right
          rw [e1, r2, hlen]
          dsimp only
          congr 1
          ring)
      obtain ⟨pick, b⟩ := x
      refine ⟨s', ?_, ?_, ?_⟩
      · rw [St.run]
        have : s.step t it pick b = .ok s1 := by unfold St.step; rw [er]; exact e0
        rw [this]
        exact f0
      · rw [f1, e3, r6]; simp
      · intro _ hm
        simp only [List.length_cons] at hm
        cases xs with
        | nil =>
          have : s' = s1 := (Except.ok.inj f0).symm
          rw [this]
          apply e4 hne
          rw [r2, hlen]
          dsimp only
          rw [← hm]
          simp only [List.length_nil]
          ring
        | cons y ys => exact f2 (by simp) (by omega)
  obtain ⟨s, a, b, c⟩ := key xs it (fresh t it w o) hit (Or.inl rfl)
  refine ⟨s, a, ?_, c⟩
  rw [b]
  simp only [fresh, List.map_nil, List.nil_append]
  congr 1
  funext x
  cases t.algo <;> simp [kinds, expected, Function.comp_def]

/-- C55: a whole training run with any accumulation count: the passes, in order, are cut into
windows of that many passes (the last one may be shorter), and every window is one optimizer
step with the mean gradient over the window. -/
theorem C55_windows (t : Task N B W O) (xs : List ((Kind → N) × B)) (w : W) (o : O) (ha : 0 < t.acc)
    (hx : xs.length = t.maxIters) (cs : List (List (Kind × (Kind → N) × B))) (last : List (Kind × (Kind → N) × B))
    (hcut : passes t xs = cs.flatten ++ last) (hcs : ∀ c ∈ cs, c.length = t.acc) (hl : 0 < last.length) (hl' : last.length ≤ t.acc) :
    ∃ s, (fresh t 0 w o).run t 0 xs = .ok s ∧
      (s.o, s.w) = ((cs ++ [last]).foldl (windowStep t) ((o, w), none)).1 := by
  have hlen : (passes t xs).length = t.maxIters * t.size := by
    unfold passes Task.size
    rw [← hx]
    clear hcut hx
    induction xs with
    | nil => simp
    | cons x xs ih => rw [List.flatMap_cons, List.length_append, ih, List.length_map, List.length_cons]; ring
  have hm : t.maxIters * t.size = (0 + cs.length) * t.acc + last.length := by
    rw [← hlen, hcut, List.length_append, Nat.zero_add]
    congr 1
    clear hcut
    induction cs with
    | nil => simp
    | cons c cs ih =>
      rw [List.flatten_cons, List.length_append, hcs c (by simp), ih (fun c hc => hcs c (by simp [hc])), List.length_cons]
      ring
  have h0 : 0 < t.size := Nat.pos_of_ne_zero (by intro h; rw [h] at hm; omega)
  obtain ⟨s, hs, _, _⟩ := C55_total t xs 0 w o h0 ha (by omega)
  refine ⟨s, hs, ?_⟩
  have hr : ((fresh t 0 w o).reinit t 0).run t 0 xs = .ok s := by
    cases xs with
    | nil => simp [passes] at hlen; simp at hx; rw [← hx] at hm; omega
    | cons x xs =>
      obtain ⟨pick, b⟩ := x
      exact hs
  have := run_passes t xs 0 _ s rfl hr
  rw [hcut] at this
  exact windows t cs last t.acc (t.maxIters * t.size) 0 ((fresh t 0 w o).reinit t 0) s ha hcs hl hl' (by simp [St.reinit, fresh, Task.size]) hm rfl this

example : ∃ (cs : List (List (Kind × (Kind → Kind) × Unit))) (last : List (Kind × (Kind → Kind) × Unit)), passes (sample 3) (List.replicate 4 (id, ())) = cs.flatten ++ last ∧ (∀ c ∈ cs, c.length = (sample 3).acc) ∧
    0 < last.length ∧ last.length < (sample 3).acc :=
  ⟨[[(.max, id, ()), (.min, id, ()), (.max, id, ())], [(.min, id, ()), (.max, id, ()), (.min, id, ())]],
    [(.max, id, ()), (.min, id, ())], rfl, by decide, by decide, by decide⟩

/-- With the default of the optimizer wrapper (no accumulation) the subnets of an iteration
are not trained at the same weights: the optimizer has already taken a step for the largest
subnet when the smallest is trained, against outputs of the old weights. -/
theorem C55_default_violated (t : Task N B W O) (x : (Kind → N) × B) (it : Nat) (w : W) (o : O)
    (ha : t.acc = 1) (hs : t.algo ≠ .slimmable) (hit : it < t.maxIters) :
    ∃ s r, (fresh t it w o).run t it [x] = .ok s ∧
      s.log = (x.1 .max, x.2, w) :: (x.1 .min, x.2, (t.opt o w (t.hard (x.1 .max) x.2 w)).2) :: r := by
  have hk : kinds t.algo t.num = .max :: .min :: (List.range t.num).map .random := by
    cases h : t.algo with
    | slimmable => exact absurd h hs
    | autoslim => rfl
    | bignas => rfl
  obtain ⟨s, e, _, _⟩ := C55_total t [x] it w o (by unfold Task.size; rw [hk]; simp) (by omega) hit
  obtain ⟨pick, b⟩ := x
  have hstep : (fresh t it w o).step t it pick b = .ok s := by
    rw [St.run] at e
    cases hh : (fresh t it w o).step t it pick b with
    | error e' => rw [hh] at e; cases e
    | ok s1 => rw [hh] at e; exact e
  unfold St.step at hstep
  rw [hk, List.foldlM_cons] at hstep
  cases h1 : St.train t pick b ((fresh t it w o).reinit t it) .max with
  | error e' => rw [h1] at hstep; cases hstep
  | ok s1 =>
    rw [h1] at hstep
    have hw : s1.w = (t.opt o w (t.hard (pick .max) b w)).2 := by
      have hr : (fresh t it w o).reinit t it = { fresh t it w o with ready := true, c := ⟨t.acc, it * (kinds t.algo t.num).length, t.maxIters * (kinds t.algo t.num).length⟩ } := rfl
      rw [hr, ha] at h1
      unfold St.train at h1
      rw [update_last t _ _ 1 (by simp [Counter.factor]) (by simp [Counter.shouldUpdate, Nat.mod_one])] at h1
      cases h1
      simp [fresh]
    have hl := train_log t pick b _ _ _ h1
    change List.foldlM (St.train t pick b) s1 (.min :: (List.range t.num).map .random) = .ok s at hstep
    rw [List.foldlM_cons] at hstep
    cases h2 : St.train t pick b s1 .min with
    | error e' => rw [h2] at hstep; cases hstep
    | ok s2 =>
      rw [h2] at hstep
      have hl2 := train_log t pick b _ _ _ h2
      obtain ⟨r, hr⟩ := loop_log t pick b _ s2 s hstep
      refine ⟨s, r, e, ?_⟩
      rw [← hr, hl2, hl, hw]
      rfl

/-- Interrupting in the middle of a window of accumulated iterations loses the gradients
accumulated so far: the resumed run ends with other weights. -/
theorem C55_resume_window_violated :
    let w (r : Except Err (St Kind Unit ℚ Unit)) : Option ℚ := r.toOption.map (·.w)
    w ((fresh (sample 4) 0 0 ()).run (sample 4) 0 [(id, ()), (id, ())]) = some (-2) ∧
    w ((fresh (sample 4) 0 0 ()).run (sample 4) 0 [(id, ())]) = some 0 ∧
    w ((fresh (sample 4) 1 0 ()).run (sample 4) 1 [(id, ())]) = some (-1) := by
  refine ⟨by decide +kernel, by decide +kernel, by decide +kernel⟩

example : (sample 2).acc = (sample 2).size ∧
    ((fresh (sample 2) 0 0 ()).run (sample 2) 0 [(id, ()), (id, ())]).toOption.map (fun s => (s.w, s.log)) =
      some (-4, [(.max, (), 0), (.min, (), 0), (.max, (), -2), (.min, (), -2)]) := by
  refine ⟨by decide, by decide +kernel⟩

/-! ### The reported losses -/

/-- C55: every loss of every subnet is reported, under a name of its own: none overwrites
another, whatever the losses are called. -/
theorem C55_reported {V : Type} (a : Algo) (n : Nat) (losses : Kind → List (Name × V))
    (h : ∀ k, ((losses k).map (·.1)).Nodup) :
    total losses (kinds a n) = (kinds a n).flatMap fun k => (losses k).map fun x => (k.prefix ++ '.' :: x.1, x.2) :=
  total_eq _ (kinds_nodup a n) losses h

example : (total (fun _ => [("loss".toList, (1 : Nat)), ("loss_cls".toList, 2)]) (kinds .autoslim 1)).map (fun x => String.ofList x.1) =
    ["max_subnet.loss", "max_subnet.loss_cls", "min_subnet.loss", "min_subnet.loss_cls", "random0_subnet.loss",
      "random0_subnet.loss_cls"] := by decide +kernel

/-! ### Stochastic depth -/

/-- C55: a block of a selected stage gets the rate times the fraction of the network in front
of it (blocks of the class in earlier layers, and its place in its own layer); every other
block keeps its rate. -/
theorem C55_drop (stages : List Nat) (rate : ℚ) (layers : List (List Block)) (i j : Nat) (layer : List Block) (b : Block)
    (hi : layers[i]? = some layer) (hj : layer[j]? = some b) :
    ∃ layer', (setDropout stages rate layers)[i]? = some layer' ∧ layer'[j]? = some
      ⟨b.isMb, if i + 1 ∈ stages ∧ b.isMb = true then rate * (((mbCount (layers.take i) + j : Nat) : ℚ) / mbCount layers) else b.rate⟩ := by
  have key : ∀ (layers : List (List Block)) (i idx visited total : Nat), layers[i]? = some layer →
      ∃ layer', (dropLayers stages rate total idx visited layers)[i]? = some layer' ∧ layer'[j]? = some
        ⟨b.isMb, if idx + i ∈ stages ∧ b.isMb = true then rate * (((visited + mbCount (layers.take i) + j : Nat) : ℚ) / total) else b.rate⟩ := by
    intro layers
    induction layers with
    | nil => intro i idx visited total h; simp at h
    | cons l ls ih =>
      intro i idx visited total h
      cases i with
      | zero =>
        simp only [List.getElem?_cons_zero, Option.some.injEq] at h
        subst h
        refine ⟨_, rfl, ?_⟩
        by_cases hs : idx ∈ stages
        · rw [if_pos hs]
          unfold dropLayer
          rw [List.getElem?_mapIdx, hj]
          cases hm : b.isMb with
          | true => simp [hs, hm, mbCount]
          | false =>
            obtain ⟨mb, r⟩ := b
            dsimp only at hm
            subst hm
            simp
        · rw [if_neg hs, hj]
          obtain ⟨mb, r⟩ := b
          simp [hs]
      | succ i =>
        simp only [List.getElem?_cons_succ] at h
        obtain ⟨layer', e1, e2⟩ := ih i (idx + 1) (visited + l.countP (·.isMb)) total h
        refine ⟨layer', by simpa [dropLayers] using e1, ?_⟩
        rw [e2]
        have h1 : idx + 1 + i = idx + (i + 1) := by omega
        have h2 : visited + l.countP (·.isMb) + mbCount (ls.take i) = visited + mbCount ((l :: ls).take (i + 1)) := by
          simp [mbCount, Nat.add_assoc]
        rw [h1, h2]
  obtain ⟨layer', e1, e2⟩ := key layers i 1 0 (mbCount layers) hi
  refine ⟨layer', e1, ?_⟩
  rw [e2, Nat.add_comm 1 i, Nat.zero_add]

/-- C55: if the layers consist of such blocks only, every rate set is at least zero and below
the given one; it is zero for all kinds but the largest subnet. Missing: blocks of other classes, see `C55_drop_violated`. -/
theorem C55_drop_partial (stages : List Nat) (rate : ℚ) (k : Kind) (layers : List (List Block)) (i j : Nat) (layer : List Block)
    (b : Block) (hr : 0 < rate) (hb : ∀ l ∈ layers, ∀ b ∈ l, b.isMb = true) (hi : layers[i]? = some layer)
    (hj : layer[j]? = some b) (hs : i + 1 ∈ stages) :
    ∃ layer' b', (setDropout stages (k.rate rate) layers)[i]? = some layer' ∧ layer'[j]? = some b' ∧
      0 ≤ b'.rate ∧ b'.rate < rate ∧ (k ≠ .max → b'.rate = 0) := by
  have hmem : layer ∈ layers := List.mem_of_getElem? hi
  have hbm : b.isMb = true := hb layer hmem b (List.mem_of_getElem? hj)
  obtain ⟨layer', e1, e2⟩ := C55_drop stages (k.rate rate) layers i j layer b hi hj
  refine ⟨layer', _, e1, e2, ?_⟩
  rw [if_pos ⟨hs, hbm⟩]
  by_cases hk : k = .max
  · subst hk
    dsimp only [Kind.rate]
    obtain ⟨hil, rfl⟩ := List.getElem?_eq_some_iff.1 hi
    obtain ⟨hjl, rfl⟩ := List.getElem?_eq_some_iff.1 hj
    have hlt : mbCount (layers.take i) + j < mbCount layers := by
      have h1 : layers = layers.take i ++ layers[i] :: layers.drop (i + 1) := by
        rw [List.cons_getElem_drop_succ, List.take_append_drop]
      have h2 : layers[i].countP (·.isMb) = layers[i].length := by
        rw [List.countP_eq_length]
        exact fun b hb' => hb _ hmem b hb'
      have h3 : mbCount layers = mbCount (layers.take i) + (layers[i].length + mbCount (layers.drop (i + 1))) := by
        have h4 : ∀ (a c : List (List Block)) (l : List Block), mbCount (a ++ l :: c) = mbCount a + (l.countP (·.isMb) + mbCount c) := by
          intro a c l
          simp [mbCount]
        calc mbCount layers = mbCount (layers.take i ++ layers[i] :: layers.drop (i + 1)) := congrArg mbCount h1
          _ = _ := by rw [h4, h2]
      omega
    have hp : (0 : ℚ) < mbCount layers := by exact_mod_cast (by omega : 0 < mbCount layers)
    have hq : ((mbCount (layers.take i) + j : Nat) : ℚ) / mbCount layers < 1 := by
      rw [div_lt_one hp]; exact_mod_cast hlt
    have hn : 0 ≤ ((mbCount (layers.take i) + j : Nat) : ℚ) / mbCount layers := by positivity
    refine ⟨mul_nonneg hr.le hn, by nlinarith, fun h => absurd rfl h⟩
  · have h0 : k.rate rate = 0 := by cases k <;> first | exact absurd rfl hk | rfl
    rw [h0]
    simp [hr]

/-- Blocks of other classes in a layer are counted as places but not in the total: the rate
can exceed the given one. -/
theorem C55_drop_violated : setDropout [1] (1 / 5) [[⟨false, 0⟩, ⟨false, 0⟩, ⟨true, 0⟩]] =
    [[⟨false, 0⟩, ⟨false, 0⟩, ⟨true, 2 / 5⟩]] := by decide +kernel

example : setDropout [2] (1 / 5) [[⟨true, 0⟩], [⟨true, 0⟩, ⟨true, 0⟩, ⟨true, 0⟩]] =
    [[⟨true, 0⟩], [⟨true, 1 / 20⟩, ⟨true, 1 / 10⟩, ⟨true, 3 / 20⟩]] := by decide +kernel

/-- C55: an entry written to the reported losses is what is reported under its name, whether or not
the name was there before, and no other entry changes. -/
theorem C55_entry {V : Type} (d : List (Name × V)) (k k' : Name) (v : V) :
    (put d k v).lookup k' = if k' = k then some v else d.lookup k' := by
  have h1 : ∀ d : List (Name × V), (d.map fun p => if p.1 == k then (k, v) else p).lookup k'
      = if k' = k then (if d.any (·.1 == k) then some v else none) else d.lookup k' := by
    intro d
    induction d with
    | nil => simp
    | cons p d ih =>
      obtain ⟨a, w⟩ := p
      rw [List.map_cons, List.any_cons]
      by_cases ha : a = k
      · subst ha
        by_cases hk : k' = a
        · subst hk; simp
        · rw [if_neg hk] at ih ⊢
          have : (k' == a) = false := by simpa using hk
          simp [List.lookup_cons, this] at ih ⊢
          exact ih
      · have h0 : (a == k) = false := by simpa using ha
        rw [h0]
        by_cases hk : k' = k
        · rw [if_pos hk] at ih ⊢
          have : (k' == a) = false := by
            rw [hk]; simpa using fun e => ha e.symm
          simp only [Bool.false_eq_true, if_false, List.lookup_cons, this, Bool.false_or]
          exact ih
        · rw [if_neg hk] at ih ⊢
          simp only [Bool.false_eq_true, if_false, List.lookup_cons, ih]
  have h2 : ∀ d : List (Name × V), (d ++ [(k, v)]).lookup k'
      = (d.lookup k').or (if k' = k then some v else none) := by
    intro d
    induction d with
    | nil =>
      by_cases hk : k' = k
      · simp [hk]
      · have : (k' == k) = false := by simpa using hk
        simp [List.lookup_cons, this, hk]
    | cons p d ih =>
      rw [List.cons_append, List.lookup_cons, List.lookup_cons, ih]
      cases (k' == p.1) <;> simp
  have h3 : ∀ d : List (Name × V), d.any (·.1 == k) = false → d.lookup k = none := by
    intro d hd
    induction d with
    | nil => rfl
    | cons p d ih =>
      rw [List.any_cons, Bool.or_eq_false_iff] at hd
      have : (k == p.1) = false := by
        have := hd.1
        simp at this ⊢
        exact fun e => this e.symm
      rw [List.lookup_cons, this]
      exact ih hd.2
  unfold put
  by_cases hd : d.any (·.1 == k) = true
  · rw [if_pos hd, h1, if_pos hd]
  · rw [if_neg hd, h2]
    by_cases hk : k' = k
    · subst hk
      rw [h3 d (Bool.eq_false_iff.2 hd)]
      simp
    · rw [if_neg hk, if_neg hk, Option.or_none]

example : put [("a".toList, 1), ("b".toList, 2)] "a".toList 3 = [("a".toList, 3), ("b".toList, 2)] := by
  decide +kernel

/-- The number the loss is divided by: one without accumulation, the size of the window it
belongs to otherwise; after the last planned pass of a number of passes that is a multiple
of the window there is no window, and the step is refused. -/
theorem C55_factor (c : Counter) :
    (c.acc = 1 → c.factor = .ok 1) ∧
    (c.acc ≠ 1 → 0 < c.acc → c.inner < c.max - c.max % c.acc → c.factor = .ok c.acc) ∧
    (c.acc ≠ 1 → c.max - c.max % c.acc ≤ c.inner → 0 < c.max % c.acc → c.factor = .ok (c.max % c.acc)) ∧
    (c.acc ≠ 1 → c.acc ∣ c.max → c.max ≤ c.inner → c.factor = .error .assertion) := by
  unfold Counter.factor
  refine ⟨fun h => if_pos h, fun h h0 h1 => ?_, fun h h1 h2 => ?_, fun h h1 h2 => ?_⟩
  · rw [if_neg h]; simp only [if_pos h1, if_pos h0]
  · rw [if_neg h]; simp only [if_neg (show ¬ c.inner < c.max - c.max % c.acc by omega), if_pos h2]
  · have : c.max % c.acc = 0 := Nat.mod_eq_zero_of_dvd h1
    rw [if_neg h]
    simp [this, show ¬ c.inner < c.max by omega]

example : (⟨4, 8, 8⟩ : Counter).factor = .error .assertion ∧ (⟨4, 8, 10⟩ : Counter).factor = .ok 2 := by decide

end Verif.Sandwich
