import Verif.Spec.AutoNet
import Verif.Lemmas.SeqChannel
import Verif.Lemmas.Derived
import Mathlib.Tactic.Linarith

/-! Helper lemmas for `Verif/Props/AutoNet.lean`. -/

namespace Verif.AutoNet
open Verif SeqChannel Derived

theorem prefix_firsts (n k : ℕ) : prefixMask n (k : ℤ) = firsts n (min k n) := by
  unfold prefixMask firsts
  rw [if_neg (by omega), Int.toNat_natCast]

theorem popcount_firsts (n k : ℕ) : popcount (firsts n k) = k := by
  unfold popcount firsts
  simp [List.countP_append, List.countP_replicate]

theorem length_firsts {n k : ℕ} (h : k ≤ n) : (firsts n k).length = n := by
  unfold firsts; simp; omega

theorem count_firsts (n k : ℕ) : (firsts n k).count true = k := by
  unfold firsts; simp [List.count_replicate]

theorem firsts_self (n : ℕ) : firsts n n = List.replicate n true := by simp [firsts]

theorem getLast_of_sorted {α : Type} [LinearOrder α] {l : List α} (hs : l.Pairwise (· ≤ ·)) {m : α} (hm : m ∈ l)
    (hx : ∀ a ∈ l, a ≤ m) : l.getLast? = some m := by
  induction l with
  | nil => cases hm
  | cons a t ih =>
    rw [List.pairwise_cons] at hs
    cases t with
    | nil => rw [List.mem_singleton] at hm; rw [hm]; rfl
    | cons b t =>
      rw [List.getLast?_cons_cons]
      refine ih hs.2 ?_ fun x h => hx x (List.mem_cons_of_mem _ h)
      rcases List.mem_cons.1 hm with rfl | h
      · have h1 := hs.1 b List.mem_cons_self
        have h2 := hx b (by simp)
        have : b = m := le_antisymm h2 h1
        rw [this]; exact List.mem_cons_self
      · exact h

theorem maxOf_eq {α : Type} [LinearOrder α] {l : List α} {m : α} (hm : m ∈ l) (hx : ∀ a ∈ l, a ≤ m) : maxOf l = some m := by
  unfold maxOf
  apply getLast_of_sorted
  · have := sortBy_sorted (le := fun a b : α => decide (a ≤ b)) (by intro a b c; simp only [decide_eq_true_eq]; exact le_trans)
      (by intro a b; simp only [decide_eq_true_eq]; exact le_total a b) l
    exact this.imp (by intro a b h; simpa using h)
  · exact mem_sortBy.2 hm
  · intro a ha; exact hx a (mem_sortBy.1 ha)

/-- A container of `n` channels with one mutable up to `k`. -/
def one (n k : ℕ) (e : Expr) : Port := ⟨n, [((0, (k : ℤ)), .reg e)]⟩

theorem mask_one {σ : Store} {n k : ℕ} {e : Expr} {m : List Bool} (hk : 0 < k) (hn : k ≤ n) (hm : evalMask σ e = .ok m) :
    (one n k e).mask σ = .ok (m ++ List.replicate (n - k) true) := by
  unfold one Port.mask Container.currentMask
  have h0 : (0 : ℤ) < k := by omega
  have hfill : Container.fill (n : ℤ) [((0, (k : ℤ)), Container.Chan.reg e)] =
      .ok (if k < n then [((0, (k : ℤ)), .reg e), (((k : ℤ), (n : ℤ)), .simple (n - k))] else [((0, (k : ℤ)), .reg e)]) := by
    unfold Container.fill Container.copyDict
    have h1 : Container.setItem ([] : Container.Dict Expr) (0, (k : ℤ)) (.reg e) = .ok [((0, (k : ℤ)), .reg e)] := by
      unfold Container.setItem
      rw [if_pos h0]
      rfl
    simp only [List.foldlM_cons, List.foldlM_nil, h1, bind, Except.bind, pure, Except.pure, List.map_cons, List.map_nil,
      Container.fillLoop, lt_irrefl, if_false]
    by_cases hlt : k < n
    · rw [if_pos (by omega), if_pos hlt]
      unfold Container.mkSimple
      rw [if_neg (by omega)]
      dsimp only
      unfold Container.setItem
      rw [if_pos (by dsimp only; omega)]
      have hc : Container.contains [((0, (k : ℤ)), Container.Chan.reg e)] ((k : ℤ), (n : ℤ)) = false := by
        unfold Container.contains Container.hits
        simp
        omega
      rw [hc]
      have hs : Container.sortItems ([((0, (k : ℤ)), Container.Chan.reg e)] ++ [(((k : ℤ), (n : ℤ)), .simple ((n : ℤ) - k).toNat)])
          = [((0, (k : ℤ)), .reg e), (((k : ℤ), (n : ℤ)), .simple (n - k))] := by
        unfold Container.sortItems
        rw [show ((n : ℤ) - k).toNat = n - k by omega]
        apply sortBy_of_sorted
        simp [Container.keyLe]
        omega
      simp only [Bool.false_eq_true, if_false]
      rw [hs]
    · rw [if_neg (by omega), if_neg hlt]
  rw [hfill]
  simp only [List.isEmpty_cons, Bool.false_eq_true, if_false]
  by_cases hlt : k < n
  · rw [if_pos hlt]
    simp only [List.map_cons, List.map_nil, Container.validFrom, decide_true, Bool.and_true, if_true, List.flatMap_cons,
      List.flatMap_nil, Container.maskOf, hm, List.append_nil]
  · rw [if_neg hlt]
    have : k = n := by omega
    subst this
    simp only [List.map_cons, List.map_nil, Container.validFrom, decide_true, Bool.and_true, if_true, List.flatMap_cons,
      List.flatMap_nil, Container.maskOf, hm, List.append_nil, Nat.sub_self, List.replicate_zero]

theorem port_one {σ : Store} {n k : ℕ} {e : Expr} (hk : 0 < k) (h : evalChoice σ e = .ok (k : ℤ)) :
    port σ n e = .ok (one n k e) := by
  unfold port
  rw [h]
  dsimp only
  unfold Container.setItem
  rw [if_pos (by dsimp only; omega)]
  rfl

theorem pyInt_floor {q : ℚ} (h : 0 ≤ q) : pyInt q = ((⌊q⌋₊ : ℕ) : ℤ) := by
  unfold pyInt
  rw [if_pos h, Int.natCast_floor_eq_floor h]

/-- The hidden features of a layer. -/
def hid (E : ℕ) (R : ℚ) : ℕ := ⌊(E : ℚ) * R⌋₊

/-- The containers of layer `i` after the construction. -/
def layerOf (E hl H : ℕ) (rl R : ℚ) (i : ℕ) : Layer where
  heads := H
  norm1 := one E E embedE
  attnIn := one E E embedE
  attnOut := one (H * 64) (64 * hl) (qE i)
  relK := one 64 64 baseE
  relV := one 64 64 baseE
  norm2 := one E E embedE
  fc1In := one E E embedE
  fc1Out := one (hid E R) (hid E rl) (midE i)
  fc2In := one (hid E R) (hid E rl) (midE i)
  fc2Out := one E E embedE

/-- The network with the choices `c` made after the construction. -/
structure Rel (s : Setting) (E hl H : ℕ) (rl R : ℚ) (D : ℕ) (fn : Bool) (n : Net) (c : Sub) : Prop where
  embedN : n.embedN = E
  setting : n.setting = s
  count : n.count = D
  c0 : n.store.chan 0 = ⟨E, firsts E (min c.embed E), false, false⟩
  c1 : n.store.chan 1 = SeqChannel.init 64 false
  vh : ∀ i, n.store.val (2 * i) = ⟨(c.head i : ℕ), (H : ℕ), false⟩
  vr : ∀ i, n.store.val (2 * i + 1) = ⟨c.ratio i, R, false⟩
  depth : n.depth = c.depth
  patch : n.patch = one E E embedE
  layers : n.layers = (List.range D).map (layerOf E hl H rl R)
  norm : n.norm = if fn then some (one E E embedE) else none
  hh : ∀ i, c.head i ∈ s.heads
  hr : ∀ i, c.ratio i ∈ s.ratios
  hd : c.depth ∈ s.depths

theorem mem_of_getLast? {α : Type} {l : List α} {a : α} (h : l.getLast? = some a) : a ∈ l := by
  rw [List.getLast?_eq_some_iff] at h
  obtain ⟨t, rfl⟩ := h
  simp

theorem build_rel {s : Setting} {E hl H : ℕ} {rl R : ℚ} {D : ℕ} (hs : Listed s E hl H rl R D) (fn : Bool) :
    ∃ n, build s fn = .ok n ∧ Rel s E hl H rl R D fn n ⟨E, fun _ => hl, fun _ => rl, D⟩ := by
  have hhl := mem_of_getLast? hs.head
  have hrl := mem_of_getLast? hs.ratio
  have hD := mem_of_getLast? hs.depth
  have hl0 := hs.headPos hl hhl
  have e1 : evalChoice (store E hl H rl R) embedE = .ok (E : ℤ) := by
    simp [embedE, evalChoice, store, SeqChannel.init, popcount, List.countP_replicate]
  have e2 : evalChoice (store E hl H rl R) baseE = .ok ((64 : ℕ) : ℤ) := by
    simp [baseE, evalChoice, store, SeqChannel.init, popcount, List.countP_replicate]
  have e3 : ∀ i, evalChoice (store E hl H rl R) (qE i) = .ok ((64 * hl : ℕ) : ℤ) := by
    intro i
    have : pyInt ((64 : ℚ) * (hl : ℚ)) = ((64 * hl : ℕ) : ℤ) := by
      rw [pyInt_floor (by positivity)]
      congr 1
      rw [show (64 : ℚ) * (hl : ℚ) = ((64 * hl : ℕ) : ℚ) by push_cast; ring, Nat.floor_natCast]
    simp [qE, evalChoice, store, SeqChannel.init, popcount, List.countP_replicate, this]
  have e4 : ∀ i, evalChoice (store E hl H rl R) (midE i) = .ok ((hid E rl : ℕ) : ℤ) := by
    intro i
    have : pyInt ((E : ℚ) * rl) = ((hid E rl : ℕ) : ℤ) := pyInt_floor (by linarith [hs.midPos])
    have h2 : (2 * i + 1) % 2 = 1 := by omega
    simp [midE, evalChoice, store, SeqChannel.init, popcount, List.countP_replicate, this]
  have hmid : 0 < hid E rl := Nat.floor_pos.2 hs.midPos
  have hER : 0 ≤ (E : ℚ) * R := mul_nonneg (by positivity) (hs.ratioPos R hs.ratioMax.1)
  have hlayer : ∀ i, mkLayer (store E hl H rl R) E H R i = .ok (layerOf E hl H rl R i) := by
    intro i
    unfold mkLayer
    rw [pyInt_floor hER]
    rw [if_neg (by omega)]
    rw [port_one hs.embedPos e1, port_one (by omega) (e3 i), port_one (by omega) e2, Int.toNat_natCast, port_one hmid (e4 i)]
    rfl
  have hlayers : mkLayers (store E hl H rl R) E H R D D = .ok ((List.range D).map (layerOf E hl H rl R)) := by
    unfold mkLayers
    have : ∀ l : List ℕ, (∀ i ∈ l, i < D) → l.mapM (fun i => if i < D then mkLayer (store E hl H rl R) E H R i else .error .index)
        = .ok (l.map (layerOf E hl H rl R)) := by
      intro l
      induction l with
      | nil => intro _; rfl
      | cons a t ih =>
        intro h
        rw [List.mapM_cons, if_pos (h a (by simp)), hlayer, ih fun i hi => h i (by simp [hi])]
        rfl
    exact this _ fun i hi => List.mem_range.1 hi
  have hp := port_one (σ := store E hl H rl R) (n := E) hs.embedPos e1
  refine ⟨⟨E, s, D, store E hl H rl R, D, one E E embedE, (List.range D).map (layerOf E hl H rl R),
    if fn then some (one E E embedE) else none⟩, ?_, ?_⟩
  · unfold build
    rw [hs.depth, maxOf_eq hD hs.depthMax, hs.embed, hs.head, maxOf_eq hs.headMax.1 hs.headMax.2, hs.ratio,
      maxOf_eq hs.ratioMax.1 hs.ratioMax.2]
    dsimp only
    rw [hlayers, hp]
    cases fn <;> rfl
  · refine ⟨rfl, rfl, rfl, ?_, ?_, ?_, ?_, rfl, rfl, rfl, rfl, fun _ => hhl, fun _ => hrl, hD⟩
    · simp [store, SeqChannel.init, firsts_self]
    · simp [store]
    · intro i; simp [store]
    · intro i; simp [store]

theorem pick_rel {s : Setting} {E hl H : ℕ} {rl R : ℚ} {D : ℕ} {fn : Bool} {n : Net} {c : Sub}
    (h : Rel s E hl H rl R D fn n c) (p : Pick) (hp : Allowed s D p) :
    ∃ n', n.pick p = .ok n' ∧ Rel s E hl H rl R D fn n' (c.pick p) := by
  cases p with
  | embed e =>
    refine ⟨{ n with store := setChan n.store 0 (setChoice (n.store.chan 0) (.num e)) }, ?_, ?_⟩
    · unfold Net.pick; dsimp only; rw [h.setting]; exact if_pos hp
    · refine ⟨h.embedN, h.setting, h.count, ?_, ?_, h.vh, h.vr, h.depth, h.patch, h.layers, h.norm, h.hh, h.hr, h.hd⟩
      · simp [setChan, setChoice, h.c0, Sub.pick, prefix_firsts]
      · simp [setChan, h.c1]
  | head i x =>
    refine ⟨{ n with store := setVal n.store (2 * i) x }, ?_, ?_⟩
    · unfold Net.pick; dsimp only; rw [h.count, if_neg (by have := hp.1; omega), h.setting, if_pos hp.2]
    · refine ⟨h.embedN, h.setting, h.count, h.c0, h.c1, ?_, ?_, h.depth, h.patch, h.layers, h.norm, ?_, h.hr, h.hd⟩
      · intro j
        simp only [setVal, Sub.pick, Function.update_apply]
        by_cases hj : j = i
        · subst hj; simp [h.vh]
        · rw [if_neg (by omega), if_neg hj]; exact h.vh j
      · intro j
        simp only [setVal, Sub.pick, Function.update_apply]
        rw [if_neg (by omega)]; exact h.vr j
      · intro j
        simp only [Sub.pick, Function.update_apply]
        split
        · exact hp.2
        · exact h.hh j
  | ratio i x =>
    refine ⟨{ n with store := setVal n.store (2 * i + 1) x }, ?_, ?_⟩
    · unfold Net.pick; dsimp only; rw [h.count, if_neg (by have := hp.1; omega), h.setting, if_pos hp.2]
    · refine ⟨h.embedN, h.setting, h.count, h.c0, h.c1, ?_, ?_, h.depth, h.patch, h.layers, h.norm, h.hh, ?_, h.hd⟩
      · intro j
        simp only [setVal, Sub.pick, Function.update_apply]
        rw [if_neg (by omega)]; exact h.vh j
      · intro j
        simp only [setVal, Sub.pick, Function.update_apply]
        by_cases hj : j = i
        · subst hj; simp [h.vr]
        · rw [if_neg (by omega), if_neg hj]; exact h.vr j
      · intro j
        simp only [Sub.pick, Function.update_apply]
        split
        · exact hp.2
        · exact h.hr j
  | depth d =>
    refine ⟨{ n with depth := d }, ?_, ?_⟩
    · unfold Net.pick; dsimp only; rw [h.setting]; exact if_pos hp
    · exact ⟨h.embedN, h.setting, h.count, h.c0, h.c1, h.vh, h.vr, rfl, h.patch, h.layers, h.norm, h.hh, h.hr, hp⟩

theorem picks_rel {s : Setting} {E hl H : ℕ} {rl R : ℚ} {D : ℕ} {fn : Bool} : ∀ (l : List Pick) {n : Net} {c : Sub},
    Rel s E hl H rl R D fn n c → (∀ p ∈ l, Allowed s D p) →
    ∃ n', n.picks l = .ok n' ∧ Rel s E hl H rl R D fn n' (l.foldl Sub.pick c)
  | [], n, c, h, _ => ⟨n, rfl, h⟩
  | p :: l, n, c, h, ha => by
    obtain ⟨n1, h1, h2⟩ := pick_rel h p (ha p (by simp))
    obtain ⟨n2, h3, h4⟩ := picks_rel l h2 fun q hq => ha q (by simp [hq])
    refine ⟨n2, ?_, h4⟩
    unfold Net.picks
    rw [List.foldlM_cons, h1]
    exact h3

theorem mid_le {s : Setting} {E hl H : ℕ} {rl R : ℚ} {D : ℕ} (hs : Listed s E hl H rl R D) {e : ℕ} (he : e ≤ E) {r : ℚ}
    (hr : r ∈ s.ratios) : hid e r ≤ hid E R := by
  apply Nat.floor_le_floor
  have h1 := hs.ratioPos r hr
  have h2 := hs.ratioMax.2 r hr
  have h3 : (e : ℚ) ≤ E := by exact_mod_cast he
  have h4 : (0 : ℚ) ≤ e := by positivity
  nlinarith

section
variable {s : Setting} {E hl H : ℕ} {rl R : ℚ} {D : ℕ} {fn : Bool} {n : Net} {c : Sub}

theorem mask_embed (h : Rel s E hl H rl R D fn n c) : evalMask n.store embedE = .ok (firsts E (min c.embed E)) := by
  simp [embedE, evalMask, h.c0]

theorem mask_base (h : Rel s E hl H rl R D fn n c) : evalMask n.store baseE = .ok (firsts 64 64) := by
  simp [baseE, evalMask, h.c1, SeqChannel.init, firsts_self]

theorem mask_q (hs : Listed s E hl H rl R D) (h : Rel s E hl H rl R D fn n c) (i : ℕ) :
    evalMask n.store (qE i) = .ok (firsts (64 * H) (64 * c.head i)) := by
  have key : ∀ a : ℕ, pyInt ((64 : ℚ) * (a : ℚ)) = ((64 * a : ℕ) : ℤ) := by
    intro a
    rw [pyInt_floor (by positivity)]
    congr 1
    rw [show (64 : ℚ) * (a : ℚ) = ((64 * a : ℕ) : ℚ) by push_cast; ring, Nat.floor_natCast]
  have hle := hs.headMax.2 _ (h.hh i)
  have hp : popcount (List.replicate 64 true) = 64 := by decide
  unfold qE evalMask
  rw [h.c1, h.vh i]
  simp only [SeqChannel.init, List.length_replicate, hp, Nat.cast_ofNat, key]
  unfold zerosPrefix
  rw [if_neg (by omega), Int.toNat_natCast, prefix_firsts, Nat.min_eq_left (by omega)]

theorem mask_mid (hs : Listed s E hl H rl R D) (h : Rel s E hl H rl R D fn n c) (i : ℕ) :
    evalMask n.store (midE i) = .ok (firsts (hid E R) (hid (min c.embed E) (c.ratio i))) := by
  have hle := mid_le hs (Nat.min_le_right c.embed E) (h.hr i)
  have h1 := hs.ratioPos _ (h.hr i)
  have h2 := hs.ratioPos _ hs.ratioMax.1
  unfold midE evalMask
  rw [h.c0, h.vr i]
  simp only [popcount_firsts, length_firsts (Nat.min_le_right c.embed E)]
  rw [pyInt_floor (mul_nonneg (by positivity) h2), pyInt_floor (mul_nonneg (by positivity) h1)]
  unfold zerosPrefix
  rw [if_neg (by omega), Int.toNat_natCast, prefix_firsts]
  change Except.ok (firsts (hid E R) (min (hid (min c.embed E) (c.ratio i)) (hid E R))) = _
  rw [Nat.min_eq_left hle]

theorem select_one {σ : Store} {m : ℕ} {e : Expr} {k : ℕ} (h0 : 0 < m) (hk : k ≤ m) (hm : evalMask σ e = .ok (firsts m k)) :
    (one m m e).select σ = .ok (firsts m k) := by
  unfold Port.select
  rw [mask_one h0 (Nat.le_refl m) hm, Nat.sub_self, List.replicate_zero, List.append_nil]
  dsimp only
  exact if_pos (length_firsts hk)

theorem active_one {σ : Store} {m l : ℕ} {e : Expr} {k : ℕ} (h0 : 0 < l) (hl : l ≤ m) (hm : evalMask σ e = .ok (firsts m k)) :
    (one m l e).active σ = .ok (k + (m - l)) := by
  unfold Port.active
  rw [mask_one h0 hl hm]
  simp only [Except.map]
  rw [show popcount (firsts m k ++ List.replicate (m - l) true) = popcount (firsts m k) + (m - l) by
    unfold popcount; simp [List.countP_append, List.countP_replicate]]
  rw [popcount_firsts]

theorem normW_one {σ : Store} {m : ℕ} {e : Expr} {k : ℕ} (h0 : 0 < m) (hk : k ≤ m) (hm : evalMask σ e = .ok (firsts m k)) :
    normW σ (one m m e) k = .ok (firsts m k) := by
  unfold normW
  rw [select_one h0 hk hm]
  simp only [bind, Except.bind]
  exact if_pos (popcount_firsts m k)

theorem head_of (h : Rel s E hl H rl R D fn n c) (i : ℕ) : headOf n.store i = c.head i := by
  unfold headOf
  rw [h.vh i]
  simp

theorem attn_ok (hs : Listed s E H H rl R D) (h : Rel s E H H rl R D fn n c) (i : ℕ) :
    attnW n.store (layerOf E H H rl R i) (c.head i) (min c.embed E)
      = .ok ⟨c.head i, 64, min c.embed E, 64 * c.head i, min c.embed E⟩ := by
  have h1 := hs.headPos _ (h.hh i)
  have h2 := hs.headMax.2 _ (h.hh i)
  unfold attnW layerOf
  dsimp only
  rw [Nat.mul_comm H 64, active_one (by omega) (Nat.le_refl _) (mask_q hs h i), active_one hs.embedPos (Nat.le_refl _) (mask_embed h),
    active_one (by omega) (Nat.le_refl _) (mask_base h)]
  have hd : 64 * c.head i / c.head i = 64 := Nat.mul_div_cancel _ h1
  simp only [bind, Except.bind, one, Nat.sub_self, Nat.add_zero, hd]
  rw [if_neg (by simp), if_neg (by omega), if_neg (by rw [Nat.min_eq_left (by omega)]; omega), if_neg (by simp)]
  rw [Nat.min_eq_left (by omega : 64 * c.head i ≤ 64 * H), Nat.min_eq_left (Nat.min_le_right c.embed E)]

theorem attn_fails (hs : Listed s E hl H rl R D) (h : Rel s E hl H rl R D fn n c) (hlt : hl < H) (hb : ∀ x ∈ s.heads, x ≤ 64) (i : ℕ) :
    attnW n.store (layerOf E hl H rl R i) (c.head i) (min c.embed E) = .error .runtime := by
  have h1 := hs.headPos _ (h.hh i)
  have h2 := hs.headMax.2 _ (h.hh i)
  have h3 := hs.headPos _ (mem_of_getLast? hs.head)
  have h4 := hb _ (h.hh i)
  unfold attnW layerOf
  dsimp only
  rw [Nat.mul_comm H 64, active_one (by omega) (by omega) (mask_q hs h i), active_one hs.embedPos (Nat.le_refl _) (mask_embed h),
    active_one (by omega) (Nat.le_refl _) (mask_base h)]
  simp only [bind, Except.bind, one, Nat.sub_self, Nat.add_zero]
  have hq : 65 ≤ (64 * c.head i + (64 * H - 64 * hl)) / c.head i := by
    rw [Nat.le_div_iff_mul_le h1]; omega
  rw [if_neg (by simp), if_neg (by omega)]
  split
  · rfl
  · rw [if_pos (Or.inl (by omega))]

theorem linear_in (hs : Listed s E hl H rl R D) (h : Rel s E hl H rl R D fn n c) (hm : hid E rl = hid E R) (i : ℕ) :
    linearW n.store (one E E embedE) (one (hid E R) (hid E rl) (midE i)) (min c.embed E)
      = .ok (firsts E (min c.embed E), firsts (hid E R) (hid (min c.embed E) (c.ratio i))) := by
  have hp : 0 < hid E rl := Nat.floor_pos.2 hs.midPos
  unfold linearW
  rw [hm, select_one (by omega) (mid_le hs (Nat.min_le_right c.embed E) (h.hr i)) (mask_mid hs h i),
    select_one hs.embedPos (Nat.min_le_right c.embed E) (mask_embed h)]
  simp only [bind, Except.bind]
  exact if_pos (popcount_firsts _ _)

theorem linear_out (hs : Listed s E hl H rl R D) (h : Rel s E hl H rl R D fn n c) (hm : hid E rl = hid E R) (i : ℕ) :
    linearW n.store (one (hid E R) (hid E rl) (midE i)) (one E E embedE) (hid (min c.embed E) (c.ratio i))
      = .ok (firsts (hid E R) (hid (min c.embed E) (c.ratio i)), firsts E (min c.embed E)) := by
  have hp : 0 < hid E rl := Nat.floor_pos.2 hs.midPos
  unfold linearW
  rw [hm, select_one (by omega) (mid_le hs (Nat.min_le_right c.embed E) (h.hr i)) (mask_mid hs h i),
    select_one hs.embedPos (Nat.min_le_right c.embed E) (mask_embed h)]
  simp only [bind, Except.bind]
  exact if_pos (popcount_firsts _ _)

theorem linear_fails (hs : Listed s E hl H rl R D) (h : Rel s E hl H rl R D fn n c) (hm : hid E rl < hid E R) (i w : ℕ) :
    linearW n.store (one E E embedE) (one (hid E R) (hid E rl) (midE i)) w = .error .index := by
  have hp : 0 < hid E rl := Nat.floor_pos.2 hs.midPos
  have hle := mid_le hs (Nat.min_le_right c.embed E) (h.hr i)
  unfold linearW Port.select
  rw [mask_one hp hm.le (mask_mid hs h i)]
  dsimp only
  rw [if_neg]
  · rfl
  · rw [List.length_append, length_firsts hle, List.length_replicate]
    change _ ≠ hid E R
    omega

theorem addW_self (a : ℕ) : addW a a = .ok a := if_pos rfl

theorem layer_ok (hs : Listed s E H H rl R D) (h : Rel s E H H rl R D fn n c) (hm : hid E rl = hid E R) (i : ℕ) :
    layerW n.store (layerOf E H H rl R i) (headOf n.store i) (min c.embed E)
      = .ok (layerShape E R (min c.embed E) (c.head i) (c.ratio i), min c.embed E) := by
  unfold layerW
  rw [head_of h, attn_ok hs h i]
  unfold layerOf
  dsimp only
  rw [normW_one hs.embedPos (Nat.min_le_right c.embed E) (mask_embed h)]
  simp only [bind, Except.bind, addW_self]
  rw [normW_one hs.embedPos (Nat.min_le_right c.embed E) (mask_embed h)]
  dsimp only
  rw [linear_in hs h hm]
  dsimp only
  rw [popcount_firsts, linear_out hs h hm]
  dsimp only
  rw [popcount_firsts, addW_self]
  rfl

theorem layer_heads (hs : Listed s E hl H rl R D) (h : Rel s E hl H rl R D fn n c) (hlt : hl < H) (hb : ∀ x ∈ s.heads, x ≤ 64) (i : ℕ) :
    layerW n.store (layerOf E hl H rl R i) (headOf n.store i) (min c.embed E) = .error .runtime := by
  unfold layerW
  rw [head_of h, attn_fails hs h hlt hb i]
  unfold layerOf
  dsimp only
  rw [normW_one hs.embedPos (Nat.min_le_right c.embed E) (mask_embed h)]
  rfl

theorem layer_ratios (hs : Listed s E H H rl R D) (h : Rel s E H H rl R D fn n c) (hm : hid E rl < hid E R) (i : ℕ) :
    layerW n.store (layerOf E H H rl R i) (headOf n.store i) (min c.embed E) = .error .index := by
  unfold layerW
  rw [head_of h, attn_ok hs h i]
  unfold layerOf
  dsimp only
  rw [normW_one hs.embedPos (Nat.min_le_right c.embed E) (mask_embed h)]
  simp only [bind, Except.bind, addW_self]
  rw [normW_one hs.embedPos (Nat.min_le_right c.embed E) (mask_embed h)]
  dsimp only
  rw [linear_fails hs h hm]

theorem layers_ok (hs : Listed s E H H rl R D) (h : Rel s E H H rl R D fn n c) (hm : hid E rl = hid E R) : ∀ (k i : ℕ),
    layersW n.store i ((List.range' i k).map (layerOf E H H rl R)) (min c.embed E)
      = .ok ((List.range' i k).map fun (j : ℕ) => layerShape E R (min c.embed E) (c.head j) (c.ratio j), min c.embed E)
  | 0, i => rfl
  | k + 1, i => by
    rw [List.range'_succ, List.map_cons, List.map_cons]
    unfold layersW
    rw [layer_ok hs h hm i]
    simp only [bind, Except.bind]
    rw [layers_ok hs h hm k (i + 1)]

theorem take_layers (h : Rel s E hl H rl R D fn n c) (hs : Listed s E hl H rl R D) :
    n.layers.take n.depth = (List.range' 0 c.depth).map (layerOf E hl H rl R) := by
  have := hs.depthMax _ h.hd
  rw [h.layers, h.depth, ← List.map_take, List.take_range, Nat.min_eq_left this, List.range_eq_range']

theorem forward_start (hs : Listed s E hl H rl R D) (h : Rel s E hl H rl R D fn n c) :
    n.forward = ((layersW n.store 0 ((List.range' 0 c.depth).map (layerOf E hl H rl R)) (min c.embed E)).bind fun r =>
      (match n.norm with
      | none => Except.ok none
      | some q => (normW n.store q r.2).map some).bind fun norm =>
        .ok ⟨firsts E (min c.embed E), min c.embed E, r.1, norm, r.2⟩) := by
  have he : min (min c.embed E) E = min c.embed E := by omega
  unfold Net.forward
  rw [h.patch, select_one hs.embedPos (Nat.min_le_right c.embed E) (mask_embed h), take_layers h hs, h.embedN, h.c0]
  simp only [bind, Except.bind, popcount_firsts, he, addW_self, ne_eq, not_true_eq_false, if_false]
  cases layersW n.store 0 (List.map (layerOf E hl H rl R) (List.range' 0 c.depth)) (min c.embed E) with
  | error e => rfl
  | ok v => cases n.norm <;> rfl

theorem forward_ok (hs : Listed s E H H rl R D) (h : Rel s E H H rl R D fn n c) (hm : hid E rl = hid E R) :
    n.forward = .ok (netShape E R fn { c with embed := min c.embed E }) := by
  rw [forward_start hs h, layers_ok hs h hm, h.norm]
  unfold netShape
  cases fn
  · simp only [Except.bind, List.range_eq_range']
    rfl
  · simp only [Except.bind, if_true, normW_one hs.embedPos (Nat.min_le_right c.embed E) (mask_embed h), Except.map, List.range_eq_range']

theorem forward_fails (hs : Listed s E hl H rl R D) (h : Rel s E hl H rl R D fn n c) {x : Err} (hd : 0 < c.depth)
    (hx : layerW n.store (layerOf E hl H rl R 0) (headOf n.store 0) (min c.embed E) = .error x) : n.forward = .error x := by
  rw [forward_start hs h]
  obtain ⟨k, hk⟩ : ∃ k, c.depth = k + 1 := ⟨c.depth - 1, by omega⟩
  rw [hk, List.range'_succ, List.map_cons]
  unfold layersW
  rw [hx]
  rfl

end

/-- The whole history of a network: its construction and the choices made, each accepted. -/
theorem history {s : Setting} {E hl H : ℕ} {rl R : ℚ} {D : ℕ} (hs : Listed s E hl H rl R D) (fn : Bool) (l : List Pick)
    (hl' : ∀ p ∈ l, Allowed s D p) :
    ∃ n n', build s fn = .ok n ∧ n.picks l = .ok n' ∧ Rel s E hl H rl R D fn n' (l.foldl Sub.pick ⟨E, fun _ => hl, fun _ => rl, D⟩) := by
  obtain ⟨n, h1, h2⟩ := build_rel hs fn
  obtain ⟨n', h3, h4⟩ := picks_rel l h2 hl'
  exact ⟨n, n', h1, h3, h4⟩

theorem exListed : Listed exSetting 8 2 2 (5 / 2) (5 / 2) 2 where
  embed := rfl
  head := rfl
  headMax := by decide
  ratio := rfl
  ratioMax := by decide +kernel
  depth := rfl
  depthMax := by decide
  embedPos := by decide
  headPos := by decide
  ratioPos := by decide +kernel
  midPos := by norm_num

theorem exListed_widths : Listed exWidths 5 2 2 (5 / 2) (5 / 2) 2 where
  embed := rfl
  head := rfl
  headMax := by decide
  ratio := rfl
  ratioMax := by decide +kernel
  depth := rfl
  depthMax := by decide
  embedPos := by decide
  headPos := by decide
  ratioPos := by decide +kernel
  midPos := by norm_num

theorem exListed_heads : Listed exHeads 8 1 2 (5 / 2) (5 / 2) 2 where
  embed := rfl
  head := rfl
  headMax := by decide
  ratio := rfl
  ratioMax := by decide +kernel
  depth := rfl
  depthMax := by decide
  embedPos := by decide
  headPos := by decide
  ratioPos := by decide +kernel
  midPos := by norm_num

theorem exListed_ratios : Listed exRatios 8 2 2 1 (5 / 2) 2 where
  embed := rfl
  head := rfl
  headMax := by decide
  ratio := rfl
  ratioMax := by decide +kernel
  depth := rfl
  depthMax := by decide
  embedPos := by decide
  headPos := by decide
  ratioPos := by decide +kernel
  midPos := by norm_num

end Verif.AutoNet
