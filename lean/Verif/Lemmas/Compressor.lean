import Verif.Spec.Compressor
import Verif.Lemmas.Calibration

/-! Helper lemmas for `Verif/Props/Compressor.lean`. -/

namespace Verif.Compressor
open Verif

/-! ## helpers for replacing -/

def taken (c : Cfg) (v : Slot) : Bool := wants c v.obj.kind && !skips c v.path

def upd (g : Obj → Obj) (i : Nat) (o' : Obj) : Obj → Obj := fun o => if o.id = i then o' else g o

def assign (c : Cfg) : List Slot → Nat → (Obj → Obj) → Obj → Obj
  | [], _, g => g
  | v :: vs, n, g =>
    if taken c v then
      match convert c v.obj.kind with
      | .error _ => g
      | .ok .same => assign c vs n (upd g v.obj.id v.obj)
      | .ok (.fresh k) => assign c vs (n + 1) (upd g v.obj.id ⟨n, k, v.obj.weight⟩)
    else assign c vs n g

def put (g : Obj → Obj) (s : Slot) : Slot := { s with obj := g s.obj }

/-- What is required of an entry of the log. -/
def Good (hs : List Nat) (ts : List Tree) (e : Nat × Place) : Prop :=
  e.2 e.1 = true ∧ ∃ u ∈ subsIn ts, u.id ∈ hs ∧ ∀ j, e.2 j = true ↔ j ∈ u.ids

theorem wants_other (c : Cfg) (k : Kind) (h : wants c k = true) : k ≠ .other := by
  rintro rfl
  cases c <;> simp [wants] at h

theorem setAttr_put (m : Net) (hs : m.Sound) (ho : m.Once) (g : Obj → Obj) (v : Slot) (hv : v ∈ m.slots)
    (hk : v.obj.kind ≠ .other) (o' : Obj) :
    setAttr (m.slots.map (put g)) v.owner v.name o' = m.slots.map (put (upd g v.obj.id o')) := by
  unfold setAttr
  rw [if_pos, List.map_map]
  · apply List.map_congr_left
    intro s hsm
    show (if (put g s).owner = v.owner ∧ (put g s).name = v.name then _ else _) = _
    by_cases h : s.obj.id = v.obj.id
    · obtain ⟨h1, h2⟩ := ho v hv s hsm hk h.symm
      rw [if_pos ⟨h1.symm, h2.symm⟩]
      unfold put upd
      dsimp only
      rw [if_pos h]
    · rw [if_neg]
      · unfold put upd
        rw [if_neg h]
      · rintro ⟨h1, h2⟩
        exact h (congrArg Obj.id (hs.attr s hsm v hv h1 h2))
  · rw [List.any_eq_true]
    exact ⟨put g v, List.mem_map_of_mem hv, by simp [put]⟩

theorem replaceAll_eq (c : Cfg) (m : Net) (hs : m.Sound) (ho : m.Once) :
    ∀ (vs : List Slot) (n : Nat) (g : Obj → Obj), (∀ v ∈ vs, taken c v = true → v ∈ m.slots) →
      (replaceAll c vs (m.slots.map (put g)) n).2 = none →
      (replaceAll c vs (m.slots.map (put g)) n).1 = m.slots.map (put (assign c vs n g)) := by
  intro vs
  induction vs with
  | nil => intro n g _ _; rfl
  | cons v vs ih =>
    intro n g hv h
    have ht : taken c v = (wants c v.obj.kind && !skips c v.path) := rfl
    rw [replaceAll] at h ⊢
    rw [assign]
    rw [← ht] at h ⊢
    by_cases hc : taken c v = true
    · rw [if_pos hc] at h ⊢
      rw [if_pos hc]
      have hmem := hv v (by simp) hc
      have hk : v.obj.kind ≠ .other := wants_other c _ (by rw [ht] at hc; exact (Bool.and_eq_true_iff.1 hc).1)
      cases hcv : convert c v.obj.kind with
      | error e => simp [hcv] at h
      | ok r =>
        rw [hcv] at h
        cases r with
        | same =>
          dsimp only at h ⊢
          rw [setAttr_put m hs ho g v hmem hk] at h ⊢
          exact ih n _ (fun v hv' => hv v (by simp [hv'])) h
        | fresh k =>
          dsimp only at h ⊢
          rw [setAttr_put m hs ho g v hmem hk] at h ⊢
          exact ih (n + 1) _ (fun v hv' => hv v (by simp [hv'])) h
    · rw [if_neg hc] at h ⊢
      rw [if_neg hc]
      exact ih n g (fun v hv' => hv v (by simp [hv'])) h

theorem assign_out (c : Cfg) : ∀ (vs : List Slot) (n : Nat) (g : Obj → Obj) (o : Obj),
    (∀ v ∈ vs, taken c v = true → v.obj.id ≠ o.id) → assign c vs n g o = g o := by
  intro vs
  induction vs with
  | nil => intro n g o _; rfl
  | cons v vs ih =>
    intro n g o h
    rw [assign]
    by_cases hc : taken c v = true
    · rw [if_pos hc]
      have hne : ¬ o.id = v.obj.id := fun e => h v (by simp) hc e.symm
      cases hcv : convert c v.obj.kind with
      | error e => rfl
      | ok r =>
        cases r with
        | same => dsimp only; rw [ih _ _ _ (fun v hv' => h v (by simp [hv']))]; unfold upd; rw [if_neg hne]
        | fresh k => dsimp only; rw [ih _ _ _ (fun v hv' => h v (by simp [hv']))]; unfold upd; rw [if_neg hne]
    · rw [if_neg hc]
      exact ih _ _ _ (fun v hv' => h v (by simp [hv']))

theorem assign_in (c : Cfg) : ∀ (vs : List Slot) (n : Nat) (g : Obj → Obj) (ss : List Slot),
    (replaceAll c vs ss n).2 = none → (vs.map fun v => v.obj.id).Nodup → ∀ v ∈ vs, taken c v = true → ∀ o : Obj, o.id = v.obj.id →
      (convert c v.obj.kind = .ok .same ∧ assign c vs n g o = v.obj) ∨
      ∃ k i, convert c v.obj.kind = .ok (.fresh k) ∧ assign c vs n g o = ⟨i, k, v.obj.weight⟩ := by
  intro vs
  induction vs with
  | nil => intro n g ss _ _ v hv; simp at hv
  | cons u vs ih =>
    intro n g ss h hnd v hv hc o ho
    rw [List.map_cons, List.nodup_cons] at hnd
    have ht : taken c u = (wants c u.obj.kind && !skips c u.path) := rfl
    rw [replaceAll, ← ht] at h
    rw [assign]
    rcases List.mem_cons.1 hv with rfl | hv
    · rw [if_pos hc] at h ⊢
      have hout : ∀ u ∈ vs, taken c u = true → u.obj.id ≠ o.id := by
        intro u hu _ e
        exact hnd.1 (List.mem_map.2 ⟨u, hu, by rw [e, ho]⟩)
      cases hcv : convert c v.obj.kind with
      | error e => simp [hcv] at h
      | ok r =>
        cases r with
        | same =>
          left
          refine ⟨rfl, ?_⟩
          dsimp only
          rw [assign_out c vs _ _ o hout]
          unfold upd
          rw [if_pos ho]
        | fresh k =>
          right
          refine ⟨k, n, rfl, ?_⟩
          dsimp only
          rw [assign_out c vs _ _ o hout]
          unfold upd
          rw [if_pos ho]
    · by_cases hu : taken c u = true
      · rw [if_pos hu] at h ⊢
        cases hcv : convert c u.obj.kind with
        | error e => simp [hcv] at h
        | ok r =>
          rw [hcv] at h
          cases r with
          | same => exact ih _ _ _ h hnd.2 v hv hc o ho
          | fresh k => exact ih _ _ _ h hnd.2 v hv hc o ho
      · rw [if_neg hu] at h ⊢
        exact ih _ _ _ h hnd.2 v hv hc o ho

/-- New numbers do not collide. -/
theorem assign_inj (c : Cfg) (P : Obj → Prop) (n0 : Nat) (hP : ∀ o, P o → o.id < n0) :
    ∀ (vs : List Slot) (n : Nat) (g : Obj → Obj), n0 ≤ n → (∀ v ∈ vs, taken c v = true → P v.obj) →
      (∀ o, P o → (g o).id = o.id ∨ (n0 ≤ (g o).id ∧ (g o).id < n)) →
      (∀ o o', P o → P o' → (g o).id = (g o').id → o.id = o'.id) →
      ∀ o o', P o → P o' → (assign c vs n g o).id = (assign c vs n g o').id → o.id = o'.id := by
  intro vs
  induction vs with
  | nil => intro n g _ _ _ h2 o o' ho ho' e; exact h2 o o' ho ho' e
  | cons v vs ih =>
    intro n g hn hv h1 h2 o o' ho ho' e
    rw [assign] at e
    by_cases hc : taken c v = true
    · have hvP := hv v (by simp) hc
      have hv0 := hP _ hvP
      rw [if_pos hc] at e
      cases hcv : convert c v.obj.kind with
      | error x => rw [hcv] at e; exact h2 o o' ho ho' e
      | ok r =>
        rw [hcv] at e
        cases r with
        | same =>
          refine ih n _ hn (fun v hv' => hv v (by simp [hv'])) ?_ ?_ o o' ho ho' e
          · intro o ho
            unfold upd
            by_cases hi : o.id = v.obj.id
            · rw [if_pos hi]; exact .inl hi.symm
            · rw [if_neg hi]; exact h1 o ho
          · intro o o' ho ho'
            unfold upd
            by_cases hi : o.id = v.obj.id <;> by_cases hi' : o'.id = v.obj.id
            · intro _; rw [hi, hi']
            · rw [if_pos hi, if_neg hi']
              intro e
              rcases h1 o' ho' with h | h
              · rw [h] at e; rw [hi, e]
              · omega
            · rw [if_neg hi, if_pos hi']
              intro e
              rcases h1 o ho with h | h
              · rw [h] at e; rw [hi', e]
              · omega
            · rw [if_neg hi, if_neg hi']; exact h2 o o' ho ho'
        | fresh k =>
          refine ih (n + 1) _ (by omega) (fun v hv' => hv v (by simp [hv'])) ?_ ?_ o o' ho ho' e
          · intro o ho
            unfold upd
            by_cases hi : o.id = v.obj.id
            · rw [if_pos hi]; exact .inr ⟨hn, Nat.lt_succ_self n⟩
            · rw [if_neg hi]
              rcases h1 o ho with h | h
              · exact .inl h
              · exact .inr ⟨h.1, by omega⟩
          · intro o o' ho ho'
            unfold upd
            by_cases hi : o.id = v.obj.id <;> by_cases hi' : o'.id = v.obj.id
            · intro _; rw [hi, hi']
            · rw [if_pos hi, if_neg hi']
              intro e
              have e : n = (g o').id := e
              have := hP o' ho'
              rcases h1 o' ho' with h | h <;> omega
            · rw [if_neg hi, if_pos hi']
              intro e
              have e : (g o).id = n := e
              have := hP o ho
              rcases h1 o ho with h | h <;> omega
            · rw [if_neg hi, if_neg hi']; exact h2 o o' ho ho'
    · rw [if_neg hc] at e
      exact ih n g hn (fun v hv' => hv v (by simp [hv'])) h1 h2 o o' ho ho' e

theorem firsts_mem : ∀ (ss : List Slot) (seen : List Nat) (v : Slot), v ∈ firsts seen ss →
    v ∈ ss ∧ v.obj.id ∉ seen ∧ ss.find? (fun s => s.obj.id == v.obj.id) = some v := by
  intro ss
  induction ss with
  | nil => intro seen v h; simp [firsts] at h
  | cons s ss ih =>
    intro seen v h
    rw [firsts] at h
    by_cases hs : s.obj.id ∈ seen
    · rw [if_pos hs] at h
      obtain ⟨h1, h2, h3⟩ := ih seen v h
      refine ⟨List.mem_cons_of_mem _ h1, h2, ?_⟩
      rw [List.find?_cons_of_neg, h3]
      intro e
      rw [beq_iff_eq] at e
      exact h2 (e ▸ hs)
    · rw [if_neg hs] at h
      rcases List.mem_cons.1 h with rfl | h
      · exact ⟨by simp, hs, by simp⟩
      · obtain ⟨h1, h2, h3⟩ := ih _ v h
        rw [List.mem_cons, not_or] at h2
        refine ⟨List.mem_cons_of_mem _ h1, h2.2, ?_⟩
        rw [List.find?_cons_of_neg, h3]
        intro e
        rw [beq_iff_eq] at e
        exact h2.1 e.symm

theorem firsts_nodup : ∀ (ss : List Slot) (seen : List Nat), ((firsts seen ss).map fun v => v.obj.id).Nodup := by
  intro ss
  induction ss with
  | nil => intro seen; simp [firsts]
  | cons s ss ih =>
    intro seen
    rw [firsts]
    by_cases hs : s.obj.id ∈ seen
    · rw [if_pos hs]; exact ih seen
    · rw [if_neg hs, List.map_cons, List.nodup_cons]
      refine ⟨?_, ih _⟩
      intro h
      obtain ⟨v, hv, e⟩ := List.mem_map.1 h
      exact (firsts_mem ss _ v hv).2.1 (by simp [e])

theorem firsts_all : ∀ (ss : List Slot) (seen : List Nat) (s : Slot), s ∈ ss → s.obj.id ∉ seen →
    ∃ v ∈ firsts seen ss, v.obj.id = s.obj.id := by
  intro ss
  induction ss with
  | nil => intro seen s h; simp at h
  | cons u ss ih =>
    intro seen s h hs
    rw [firsts]
    by_cases hu : u.obj.id ∈ seen
    · rw [if_pos hu]
      rcases List.mem_cons.1 h with rfl | h
      · exact absurd hu hs
      · exact ih seen s h hs
    · rw [if_neg hu]
      by_cases e : u.obj.id = s.obj.id
      · exact ⟨u, by simp, e⟩
      · rcases List.mem_cons.1 h with rfl | h
        · exact absurd rfl e
        · obtain ⟨v, hv, e'⟩ := ih (u.obj.id :: seen) s h (by simp [hs, Ne.symm e])
          exact ⟨v, by simp [hv], e'⟩

theorem fresh_bound (ss : List Slot) : ∀ a, a ≤ ss.foldl (fun a s => max a (s.obj.id + 1)) a ∧
    ∀ s ∈ ss, s.obj.id < ss.foldl (fun a s => max a (s.obj.id + 1)) a := by
  induction ss with
  | nil => intro a; simp
  | cons u ss ih =>
    intro a
    rw [List.foldl_cons]
    obtain ⟨h1, h2⟩ := ih (max a (u.obj.id + 1))
    refine ⟨by omega, ?_⟩
    intro s hs
    rcases List.mem_cons.1 hs with rfl | hs
    · omega
    · exact h2 s hs

theorem convert_target (c : Cfg) (k : Kind) (hw : wants c k = true) :
    (convert c k = .ok .same → target c k = none) ∧ (∀ k', convert c k = .ok (.fresh k') → target c k = some k') := by
  cases c with
  | sparse a b =>
    cases k <;> simp [wants, target] at hw ⊢
    · subst hw; simp [convert]
    · rename_i i o
      subst hw
      by_cases h : o < i
      · simp [convert, h, Nat.not_le.2 h]
      · simp [convert, h, Nat.not_lt.1 h]
  | gptq a b t sk bits group aq =>
    cases k <;> simp [wants] at hw
    · subst hw; simp [convert, target]
    · rename_i i o
      subst hw
      cases t
      · have e : target (.gptq a true false sk bits group aq) (.linear i o) = some .gptqLinear := by cases a <;> rfl
        rw [e]
        show (makeGptqLinear bits group = _ → _) ∧ ∀ k', makeGptqLinear bits group = _ → _
        unfold makeGptqLinear
        split_ifs <;> simp
      · have e : target (.gptq a true true sk bits group aq) (.linear i o) = some (.tritonLinear (bits.getD 0)) := by cases a <;> rfl
        rw [e]
        show (makeTriton bits group aq i = _ → _) ∧ ∀ k', makeTriton bits group aq i = _ → _
        unfold makeTriton
        cases aq
        · cases bits <;> cases group <;> simp
          rename_i x y
          generalize (if y = -1 then (i : ℤ) else y) = z
          refine ⟨?_, fun k' => ?_⟩
          · split_ifs <;> simp
          · split_ifs <;> simp
        · simp

theorem target_wants (c : Cfg) (k : Kind) (hw : wants c k = false) : target c k = none := by
  cases c with
  | sparse a b => cases k <;> simp_all [wants, target]
  | gptq a b t sk bits group aq => cases k <;> simp_all [wants, target]

theorem skips_iff (c : Cfg) (p : List String) : skips c p = true ↔ p ∈ skippedPaths c := by
  cases c <;> simp [skips, skippedPaths]

theorem put_id (ss : List Slot) : ss = ss.map (put id) := by
  have : put id = id := by funext s; rfl
  rw [this, List.map_id]

theorem prepare_spec (c : Cfg) (m : Net) (hs : m.Sound) (ho : m.Once) (hr : m.root.kind = .other)
    (hok : (prepare c m).2 = none) :
    ∃ f : Obj → Obj, (prepare c m).1 = ⟨m.root, m.slots.map fun s => { s with obj := f s.obj }⟩ ∧
      (∀ s ∈ m.slots, ∀ t ∈ m.slots, (f s.obj).id = (f t.obj).id → s.obj.id = t.obj.id) ∧
      ∀ s ∈ m.slots, match target c s.obj.kind with
        | none => f s.obj = s.obj
        | some k => if m.firstPath s.obj.id ∈ skippedPaths c then f s.obj = s.obj
            else (f s.obj).kind = k ∧ (f s.obj).weight = s.obj.weight := by
  have hvis : m.visits = ⟨[], m.root.id, "", m.root⟩ :: firsts [m.root.id] m.slots := by
    unfold Net.visits
    rw [firsts, if_neg (by simp)]
  have hnd : (m.visits.map fun v => v.obj.id).Nodup := firsts_nodup _ _
  have hroot : taken c ⟨[], m.root.id, "", m.root⟩ = false := by
    unfold taken
    dsimp only
    rw [hr]
    cases c <;> rfl
  have hin : ∀ v ∈ m.visits, taken c v = true → v ∈ m.slots := by
    intro v hv ht
    rw [hvis] at hv
    rcases List.mem_cons.1 hv with rfl | hv
    · rw [hroot] at ht; simp at ht
    · exact (firsts_mem _ _ v hv).1
  have hok' : (replaceAll c m.visits m.slots m.fresh).2 = none := hok
  have hrep := replaceAll_eq c m hs ho m.visits m.fresh id hin (by rw [← put_id]; exact hok')
  rw [← put_id] at hrep
  refine ⟨assign c m.visits m.fresh id, ?_, ?_, ?_⟩
  · unfold prepare
    dsimp only
    rw [hrep]
    rfl
  · have hb := fresh_bound m.slots (m.root.id + 1)
    intro s hsm t htm e
    refine assign_inj c (fun o => ∃ s ∈ m.slots, s.obj = o) m.fresh ?_ m.visits m.fresh id (Nat.le_refl _) ?_ ?_ ?_
      s.obj t.obj ⟨s, hsm, rfl⟩ ⟨t, htm, rfl⟩ e
    · rintro o ⟨s, hsm, rfl⟩; exact hb.2 s hsm
    · intro v hv ht; exact ⟨v, hin v hv ht, rfl⟩
    · intro o _; exact .inl rfl
    · intro o o' _ _ e; exact e
  · intro s hsm
    obtain ⟨v, hv, e⟩ := firsts_all m.slots [m.root.id] s hsm (by simpa using hs.root s hsm)
    obtain ⟨hv1, _, hv3⟩ := firsts_mem _ _ v hv
    have hobj : v.obj = s.obj := hs.object v hv1 s hsm e
    have hvv : v ∈ m.visits := by rw [hvis]; exact List.mem_cons_of_mem _ hv
    have hfp : m.firstPath s.obj.id = v.path := by
      unfold Net.firstPath
      rw [← e, hv3]
      rfl
    have hnot : taken c v = false → assign c m.visits m.fresh id s.obj = s.obj := by
      intro hf
      rw [assign_out]
      · rfl
      · intro u hu ht e'
        have : u = v := List.inj_on_of_nodup_map hnd hu hvv (by rw [e', e])
        rw [this, hf] at ht
        simp at ht
    cases hw : wants c s.obj.kind with
    | false =>
      rw [target_wants c _ hw]
      dsimp only
      apply hnot
      unfold taken
      rw [hobj, hw]
      rfl
    | true =>
      obtain ⟨t1, t2⟩ := convert_target c s.obj.kind hw
      by_cases hsk : v.path ∈ skippedPaths c
      · have hf : assign c m.visits m.fresh id s.obj = s.obj := by
          apply hnot
          unfold taken
          rw [(skips_iff c v.path).2 hsk]
          simp
        cases target c s.obj.kind with
        | none => exact hf
        | some k =>
          dsimp only
          rw [hfp, if_pos hsk]
          exact hf
      · have htk : taken c v = true := by
          unfold taken
          rw [hobj, hw]
          have : skips c v.path = false := by
            cases h : skips c v.path with
            | false => rfl
            | true => exact absurd ((skips_iff c v.path).1 h) hsk
          rw [this]
          rfl
        rcases assign_in c m.visits m.fresh id m.slots hok' hnd v hvv htk s.obj e.symm with ⟨h1, h2⟩ | ⟨k, i, h1, h2⟩
        · rw [hobj] at h1 h2
          rw [t1 h1]
          exact h2
        · rw [hobj] at h1 h2
          rw [t2 k h1]
          dsimp only
          rw [hfp, if_neg hsk, h2]
          exact ⟨rfl, rfl⟩

theorem shared_sound : shared.Sound := by
  constructor <;> decide

theorem shared_once : shared.Once := by
  unfold Net.Once
  decide

theorem replaceAll_ok (c : Cfg) (h : ∀ k, wants c k = true → ∃ r, convert c k = .ok r) :
    ∀ (vs ss : List Slot) (n : Nat), (replaceAll c vs ss n).2 = none := by
  intro vs
  induction vs with
  | nil => intro ss n; rfl
  | cons v vs ih =>
    intro ss n
    rw [replaceAll]
    by_cases hc : (wants c v.obj.kind && !skips c v.path) = true
    · rw [if_pos hc]
      obtain ⟨r, hr⟩ := h _ (Bool.and_eq_true_iff.1 hc).1
      rw [hr]
      cases r <;> exact ih _ _
    · rw [if_neg hc]; exact ih _ _

theorem replaceAll_error (c : Cfg) (e : Err) (h : ∀ k e', convert c k = .error e' → e' = e) :
    ∀ (vs ss : List Slot) (n : Nat), (∃ v ∈ vs, taken c v = true ∧ convert c v.obj.kind = .error e) →
      (replaceAll c vs ss n).2 = some e := by
  intro vs
  induction vs with
  | nil => rintro ss n ⟨v, hv, _⟩; simp at hv
  | cons u vs ih =>
    rintro ss n ⟨v, hv, hv2, hv3⟩
    have ht : taken c u = (wants c u.obj.kind && !skips c u.path) := rfl
    rw [replaceAll, ← ht]
    rcases List.mem_cons.1 hv with rfl | hv
    · rw [if_pos hv2, hv3]
    · by_cases hc : taken c u = true
      · rw [if_pos hc]
        cases hu : convert c u.obj.kind with
        | error e' => rw [h _ _ hu]
        | ok r => cases r <;> exact ih _ _ ⟨v, hv, hv2, hv3⟩
      · rw [if_neg hc]; exact ih _ _ ⟨v, hv, hv2, hv3⟩

theorem sparse_convert (a b : Bool) (k : Kind) : ∃ r, convert (.sparse a b) k = .ok r := by
  cases k with
  | linear i o =>
    by_cases h : o < i
    · exact ⟨.same, by simp [convert, h]⟩
    · exact ⟨.fresh .sparseLinear, by simp [convert, h]⟩
  | conv => exact ⟨_, rfl⟩
  | gptqConv => exact ⟨_, rfl⟩
  | gptqLinear => exact ⟨_, rfl⟩
  | tritonLinear b => exact ⟨_, rfl⟩
  | sparseConv => exact ⟨_, rfl⟩
  | sparseLinear => exact ⟨_, rfl⟩
  | other => exact ⟨_, rfl⟩

theorem default_type (m : Net) (hs : m.Sound) (a aq : Bool) (s : Slot) (h : s ∈ m.slots) (i o : Nat) (hk : s.obj.kind = .linear i o) :
    (prepare (.gptq a true true [] none none aq) m).2 = some .type := by
  refine replaceAll_error _ .type ?_ _ _ _ ?_
  · intro k e' h
    cases k with
    | linear i o =>
      have h : makeTriton none none aq i = .error e' := h
      unfold makeTriton at h
      cases aq <;> simp at h <;> exact h.symm
    | conv => cases h
    | gptqConv => cases h
    | gptqLinear => cases h
    | tritonLinear b => cases h
    | sparseConv => cases h
    | sparseLinear => cases h
    | other => cases h
  · obtain ⟨v, hv, e⟩ := firsts_all (⟨[], m.root.id, "", m.root⟩ :: m.slots) [] s (List.mem_cons_of_mem _ h) (by simp)
    refine ⟨v, hv, ?_⟩
    obtain ⟨hv1, _, _⟩ := firsts_mem _ _ v hv
    have hobj : v.obj = s.obj := by
      rcases List.mem_cons.1 hv1 with rfl | hv1
      · exact absurd e.symm (hs.root s h)
      · exact hs.object v hv1 s h e
    unfold taken
    rw [hobj, hk]
    refine ⟨rfl, ?_⟩
    show makeTriton none none aq i = _
    unfold makeTriton
    cases aq <;> rfl

theorem narrow_same (m : Net) (hs : m.Sound) (ho : m.Once) (hr : m.root.kind = .other)
    (h : ∀ s ∈ m.slots, s.obj.kind = .other ∨ ∃ i o, o < i ∧ s.obj.kind = .linear i o) (a b : Bool) :
    prepare (.sparse a b) m = (m, none) := by
  have hok : (prepare (.sparse a b) m).2 = none := replaceAll_ok _ (fun k _ => sparse_convert a b k) _ _ _
  obtain ⟨f, h1, _, h3⟩ := prepare_spec (.sparse a b) m hs ho hr hok
  refine Prod.ext ?_ hok
  rw [h1]
  have : (m.slots.map fun s => { s with obj := f s.obj }) = m.slots := by
    conv_rhs => rw [← List.map_id m.slots]
    apply List.map_congr_left
    intro s hsm
    have e : f s.obj = s.obj := by
      have h3 := h3 s hsm
      have ht : target (.sparse a b) s.obj.kind = none := by
        rcases h s hsm with e | ⟨i, o, hio, e⟩
        · rw [e]; cases a <;> cases b <;> rfl
        · rw [e]; cases a <;> cases b <;> simp [target, hio]
      rw [ht] at h3
      exact h3
    rw [e]
    rfl
  rw [this]

section Layers
variable {W D : Type}

theorem hookRun_eq (x : Calibration.Input) : ∀ (k : Nat) (l : Lay W D) (h : Option (Nat → Nat → ℚ)) (s : Calibration.St),
    l.mat = some h → Calibration.run ⟨h, l.n⟩ (List.replicate k x) = .ok s →
    l.hookRun k [x] = .ok { l with mat := some s.h, n := s.n } := by
  intro k
  induction k with
  | zero =>
    intro l h s hl hr
    have hr : Except.ok (⟨h, l.n⟩ : Calibration.St) = Except.ok s := hr
    cases hr
    rw [Lay.hookRun, ← hl]
  | succ k ih =>
    intro l h s hl hr
    rw [List.replicate_succ, Calibration.run] at hr
    rw [Lay.hookRun]
    unfold Lay.update
    rw [hl]
    dsimp only
    cases hu : Calibration.update ⟨h, l.n⟩ x with
    | error e => rw [hu] at hr; cases hr
    | ok s' =>
      rw [hu] at hr
      dsimp only
      exact ih _ s'.h s rfl hr

theorem run_append (xs ys : List Calibration.Input) : ∀ (s t : Calibration.St), Calibration.run s (xs ++ ys) = .ok t →
    ∃ u, Calibration.run s xs = .ok u ∧ Calibration.run u ys = .ok t := by
  induction xs with
  | nil => intro s t h; exact ⟨s, rfl, h⟩
  | cons x xs ih =>
    intro s t h
    rw [List.cons_append, Calibration.run] at h
    rw [Calibration.run]
    cases hu : Calibration.update s x with
    | error e => rw [hu] at h; cases h
    | ok s' =>
      rw [hu] at h
      obtain ⟨u, h1, h2⟩ := ih s' t h
      exact ⟨u, h1, h2⟩

theorem forwards_eq (a : Algo W) : ∀ (xs : List Calibration.Input) (l : Lay W D) (h : Option (Nat → Nat → ℚ)) (s : Calibration.St),
    l.mat = some h → Calibration.run ⟨h, l.n⟩ (xs.flatMap fun x => List.replicate l.hooks x) = .ok s →
    l.runs a (xs.map fun x => .forward [x]) = .ok { l with mat := some s.h, n := s.n } := by
  intro xs
  induction xs with
  | nil =>
    intro l h s hl hr
    have hr : Except.ok (⟨h, l.n⟩ : Calibration.St) = Except.ok s := hr
    cases hr
    rw [List.map_nil, Lay.runs, ← hl]
  | cons x xs ih =>
    intro l h s hl hr
    rw [List.flatMap_cons] at hr
    obtain ⟨u, h1, h2⟩ := run_append _ _ _ _ hr
    rw [List.map_cons, Lay.runs, Lay.step, hookRun_eq x l.hooks l h u hl h1]
    exact ih _ u.h s rfl h2

theorem runs_append (a : Algo W) (os ps : List (Op D)) : ∀ (l l' : Lay W D), l.runs a os = .ok l' →
    l.runs a (os ++ ps) = l'.runs a ps := by
  induction os with
  | nil => intro l l' h; cases h; rfl
  | cons o os ih =>
    intro l l' h
    rw [Lay.runs] at h
    rw [List.cons_append, Lay.runs]
    cases hs : l.step a o with
    | error e => rw [hs] at h; cases h
    | ok l1 => rw [hs] at h; exact ih l1 l' h

theorem registers (a : Algo W) : ∀ (k : Nat) (l : Lay W D),
    l.runs a (List.replicate k .register) = .ok { l with hooks := l.hooks + k } := by
  intro k
  induction k with
  | zero => intro l; rfl
  | succ k ih =>
    intro l
    rw [List.replicate_succ, Lay.runs]
    show Lay.runs a { l with hooks := l.hooks + 1 } _ = _
    rw [ih]
    dsimp only
    rw [Nat.add_assoc, Nat.add_comm 1 k]

theorem idle (a : Algo W) : ∀ (ys : List (List Calibration.Input)) (l : Lay W D), l.hooks = 0 →
    l.runs a (ys.map .forward) = .ok l := by
  intro ys
  induction ys with
  | nil => intro l _; rfl
  | cons y ys ih =>
    intro l h
    rw [List.map_cons, Lay.runs, Lay.step, h, Lay.hookRun]
    exact ih l h

theorem moment_replicate (k : Nat) (xs : List Calibration.Input) (i j : Nat) :
    Calibration.moment ((xs.flatMap fun x => List.replicate k x).flatMap Calibration.allRows) i j =
      k * Calibration.moment (xs.flatMap Calibration.allRows) i j := by
  have one : ∀ (k : Nat) (x : Calibration.Input), Calibration.moment ((List.replicate k x).flatMap Calibration.allRows) i j =
      k * Calibration.moment (Calibration.allRows x) i j := by
    intro k x
    induction k with
    | zero => simp [Calibration.moment]
    | succ k ih =>
      rw [List.replicate_succ, List.flatMap_cons, Calibration.moment_append, ih]
      push_cast
      ring
  induction xs with
  | nil => simp [Calibration.moment]
  | cons x xs ih =>
    rw [List.flatMap_cons, List.flatMap_append, Calibration.moment_append, ih, one, List.flatMap_cons, Calibration.moment_append]
    ring

theorem counted_replicate (k : Nat) (xs : List Calibration.Input) :
    ((xs.flatMap fun x => List.replicate k x).map Calibration.counted).sum = k * (xs.map Calibration.counted).sum := by
  induction xs with
  | nil => simp
  | cons x xs ih =>
    rw [List.flatMap_cons, List.map_append, List.sum_append, ih, List.map_cons, List.sum_cons, List.map_replicate, List.sum_replicate]
    simp [Nat.mul_add]

theorem calibrated (a : Algo W) (l : Lay W D) (xs : List Calibration.Input) (hl : l.mat = some (some fun _ _ => 0))
    (hx : ∀ x ∈ xs, x ≠ Calibration.Input.other) (hc : ∀ x ∈ xs, 0 < Calibration.counted x) (hne : xs ≠ []) (hk : 0 < l.hooks) :
    ∃ h, l.runs a (xs.map fun x => .forward [x]) = .ok { l with mat := some (some h), n := l.n + l.hooks * (xs.map Calibration.counted).sum } ∧
      ∀ i j, h i j = 2 * l.hooks * Calibration.moment (xs.flatMap Calibration.allRows) i j /
        (l.n + l.hooks * (xs.map Calibration.counted).sum : Nat) := by
  obtain ⟨s', h', r1, r2, r3, r4⟩ := Calibration.run_spec (xs.flatMap fun x => List.replicate l.hooks x)
    (by intro y hy; obtain ⟨x, hxm, hy⟩ := List.mem_flatMap.1 hy; rw [List.eq_of_mem_replicate hy]; exact hx x hxm)
    (by intro y hy; obtain ⟨x, hxm, hy⟩ := List.mem_flatMap.1 hy; rw [List.eq_of_mem_replicate hy]; exact hc x hxm)
    ⟨some fun _ _ => 0, l.n⟩ (fun _ _ => 0) rfl
  rw [counted_replicate] at r3
  refine ⟨h', ?_, ?_⟩
  · rw [forwards_eq a xs l _ s' hl r1, r2, r3]
  · intro i j
    have h4 := r4 i j
    rw [moment_replicate, r3] at h4
    dsimp only at h4
    have hpos : 0 < (xs.map Calibration.counted).sum := by
      cases xs with
      | nil => exact absurd rfl hne
      | cons x xs =>
        have := hc x (by simp)
        simp
        omega
    have hq : ((l.n + l.hooks * (xs.map Calibration.counted).sum : Nat) : ℚ) ≠ 0 := by
      have : 0 < l.hooks * (xs.map Calibration.counted).sum := Nat.mul_pos hk hpos
      exact_mod_cast (by omega : l.n + l.hooks * (xs.map Calibration.counted).sum ≠ 0)
    rw [eq_div_iff hq, h4]
    ring

end Layers

theorem ids_of_mem {t : Tree} {ts : List Tree} (h : t ∈ ts) : ∀ i ∈ t.ids, i ∈ idsIn ts := by
  induction ts with
  | nil => simp at h
  | cons u ts ih =>
    intro i hi
    rw [idsIn, List.mem_append]
    rcases List.mem_cons.1 h with rfl | h
    · exact .inl hi
    · exact .inr (ih h i hi)

theorem subs_of_mem {t : Tree} {ts : List Tree} (h : t ∈ ts) : ∀ u ∈ t.subs, u ∈ subsIn ts := by
  induction ts with
  | nil => simp at h
  | cons v ts ih =>
    intro u hu
    rw [subsIn, List.mem_append]
    rcases List.mem_cons.1 h with rfl | h
    · exact .inl hu
    · exact .inr (ih h u hu)

theorem id_mem (t : Tree) : t.id ∈ t.ids := by
  cases t with
  | node i w o cs => rw [Tree.ids]; exact List.mem_cons_self

theorem self_mem (t : Tree) : t ∈ t.subs := by
  cases t with
  | node i w o cs => rw [Tree.subs]; exact List.mem_cons_self

theorem children_ids (t : Tree) : ∀ i ∈ idsIn t.children, i ∈ t.ids := by
  cases t with
  | node i w o cs => intro j hj; rw [Tree.ids]; exact List.mem_cons_of_mem _ hj

theorem children_subs (t : Tree) : ∀ u ∈ subsIn t.children, u ∈ t.subs := by
  cases t with
  | node i w o cs => intro j hj; rw [Tree.subs]; exact List.mem_cons_of_mem _ hj

mutual
theorem hooked_ids : ∀ (t : Tree), ∀ i ∈ t.hooked, i ∈ t.ids
  | .node j w o cs => by
    intro i hi
    rw [Tree.hooked] at hi
    rw [Tree.ids]
    by_cases h : (w || o) = true
    · rw [if_pos h] at hi
      rw [List.mem_singleton] at hi
      rw [hi]
      exact List.mem_cons_self
    · rw [if_neg h] at hi
      exact List.mem_cons_of_mem _ (hookedIn_ids cs i hi)
theorem hookedIn_ids : ∀ (ts : List Tree), ∀ i ∈ hookedIn ts, i ∈ idsIn ts
  | [] => by intro i hi; simp [hookedIn] at hi
  | t :: ts => by
    intro i hi
    rw [hookedIn, List.mem_append] at hi
    rw [idsIn, List.mem_append]
    exact hi.imp (hooked_ids t i) (hookedIn_ids ts i)
end

/-- Among children without common modules the hooks inside a child are its own. -/
theorem hooked_child {t : Tree} {ts : List Tree} (h : t ∈ ts) (hn : (idsIn ts).Nodup) :
    t.ids.Nodup ∧ ∀ i ∈ t.ids, (i ∈ hookedIn ts ↔ i ∈ t.hooked) := by
  induction ts with
  | nil => simp at h
  | cons u ts ih =>
    rw [idsIn, List.nodup_append] at hn
    rcases List.mem_cons.1 h with rfl | h
    · refine ⟨hn.1, ?_⟩
      intro i hi
      rw [hookedIn, List.mem_append]
      refine ⟨?_, .inl⟩
      rintro (h | h)
      · exact h
      · exact absurd rfl (hn.2.2 i hi i (hookedIn_ids ts i h))
    · obtain ⟨h1, h2⟩ := ih h hn.2.1
      refine ⟨h1, ?_⟩
      intro i hi
      rw [hookedIn, List.mem_append, ← h2 i hi]
      refine ⟨?_, .inr⟩
      rintro (h' | h')
      · exact absurd rfl (hn.2.2 i (hooked_ids u i h') i (ids_of_mem h i hi))
      · exact h'

mutual
/-- Below a module without hooks inside nothing is moved. -/
theorem exec_quiet (hs : List Nat) : ∀ (c : Call) (t : Tree) (p : Place), c.Ok t → (∀ i ∈ idsIn t.children, i ∉ hs) →
    (c.exec hs p).2 = p ∧ ∀ e ∈ (c.exec hs p).1, e.2 = p ∧ e.1 ∈ t.ids
  | .use i, t, p => by
    intro h _
    rw [Call.Ok] at h
    rw [Call.exec]
    refine ⟨rfl, ?_⟩
    intro e he
    rw [List.mem_singleton] at he
    rw [he]
    exact ⟨rfl, h.1 ▸ id_mem t⟩
  | .mk t' body, t, p => by
    intro h hq
    rw [Call.Ok] at h
    have hno : t'.id ∉ hs := hq _ (ids_of_mem h.1 _ (id_mem t'))
    obtain ⟨h1, h2⟩ := execIn_quiet hs body t' p h.2 (fun i hi => hq i (ids_of_mem h.1 i (children_ids t' i hi)))
    rw [Call.exec]
    dsimp only
    rw [if_neg hno, if_neg hno]
    refine ⟨h1, ?_⟩
    intro e he
    exact ⟨(h2 e he).1, children_ids t _ (ids_of_mem h.1 _ (h2 e he).2)⟩
theorem execIn_quiet (hs : List Nat) : ∀ (cs : List Call) (t : Tree) (p : Place), OkIn t cs → (∀ i ∈ idsIn t.children, i ∉ hs) →
    (execIn hs cs p).2 = p ∧ ∀ e ∈ (execIn hs cs p).1, e.2 = p ∧ e.1 ∈ t.ids
  | [], t, p => by
    intro _ _
    rw [execIn]
    exact ⟨rfl, by simp⟩
  | c :: cs, t, p => by
    intro h hq
    rw [OkIn] at h
    obtain ⟨h1, h2⟩ := exec_quiet hs c t p h.1 hq
    obtain ⟨h3, h4⟩ := execIn_quiet hs cs t p h.2 hq
    rw [execIn]
    dsimp only
    rw [h1]
    refine ⟨h3, ?_⟩
    intro e he
    rcases List.mem_append.1 he with he | he
    · exact h2 e he
    · exact h4 e he
end

theorem move_cpu (t : Tree) (j : Nat) : move t true cpu j = true ↔ j ∈ t.ids := by
  unfold move cpu
  by_cases h : j ∈ t.ids
  · rw [if_pos h]; simp [h]
  · rw [if_neg h]; simp [h]

theorem move_back (t : Tree) : move t false (move t true cpu) = cpu := by
  funext j
  unfold move cpu
  by_cases h : j ∈ t.ids
  · rw [if_pos h]
  · rw [if_neg h, if_neg h]

mutual
theorem exec_good (hs : List Nat) : ∀ (c : Call) (t : Tree), c.Ok t → (idsIn t.children).Nodup →
    (∀ i ∈ idsIn t.children, (i ∈ hs ↔ i ∈ hookedIn t.children)) →
    (c.exec hs cpu).2 = cpu ∧ ∀ e ∈ (c.exec hs cpu).1, (e = (t.id, cpu) ∧ t.own = true) ∨ Good hs t.children e
  | .use i, t => by
    intro h _ _
    rw [Call.Ok] at h
    rw [Call.exec]
    refine ⟨rfl, ?_⟩
    intro e he
    rw [List.mem_singleton] at he
    rw [he, h.1]
    exact .inl ⟨rfl, h.2⟩
  | .mk t' body, t => by
    intro h hn hh
    rw [Call.Ok] at h
    obtain ⟨hn', hh'⟩ := hooked_child h.1 hn
    have hh' : ∀ i ∈ t'.ids, (i ∈ hs ↔ i ∈ t'.hooked) := fun i hi => (hh i (ids_of_mem h.1 i hi)).trans (hh' i hi)
    rw [Call.exec]
    dsimp only
    have hsplit : (∀ i ∈ idsIn t'.children, i ∉ [t'.id]) ∧ (idsIn t'.children).Nodup ∧
        (t'.hooked = [t'.id] ∨ (t'.own = false ∧ t'.hooked = hookedIn t'.children)) := by
      cases t' with
      | node j w o cs =>
        rw [Tree.ids, List.nodup_cons] at hn'
        refine ⟨?_, hn'.2, ?_⟩
        · intro i hi
          rw [List.mem_singleton]
          rintro rfl
          exact hn'.1 hi
        · rw [Tree.hooked]
          by_cases hwo : (w || o) = true
          · rw [if_pos hwo]; exact .inl rfl
          · rw [if_neg hwo]
            rw [Bool.or_eq_true, not_or] at hwo
            exact .inr ⟨by simpa [Tree.own] using hwo.2, rfl⟩
    obtain ⟨hd, hnc, hcase⟩ := hsplit
    rcases hcase with hk | ⟨hown, hk⟩
    · have hin : t'.id ∈ hs := (hh' _ (id_mem t')).2 (by rw [hk]; exact List.mem_singleton_self _)
      rw [if_pos hin, if_pos hin]
      obtain ⟨h1, h2⟩ := execIn_quiet hs body t' (move t' true cpu) h.2 (by
        intro i hi hc
        have := (hh' i (children_ids t' i hi)).1 hc
        rw [hk] at this
        exact hd i hi this)
      rw [h1]
      refine ⟨move_back t', ?_⟩
      intro e he
      obtain ⟨e1, e2⟩ := h2 e he
      right
      refine ⟨?_, t', subs_of_mem h.1 _ (self_mem t'), hin, ?_⟩
      · rw [e1]; exact (move_cpu t' _).2 e2
      · intro j; rw [e1]; exact move_cpu t' j
    · have hout : t'.id ∉ hs := by
        intro hc
        have := (hh' _ (id_mem t')).1 hc
        rw [hk] at this
        exact hd _ (hookedIn_ids _ _ this) (List.mem_singleton_self _)
      rw [if_neg hout, if_neg hout]
      obtain ⟨h1, h2⟩ := execIn_good hs body t' h.2 hnc (by
        intro i hi
        rw [hh' i (children_ids t' i hi), hk])
      refine ⟨h1, ?_⟩
      intro e he
      rcases h2 e he with ⟨_, ho⟩ | ⟨g1, u, hu, g2⟩
      · rw [hown] at ho; cases ho
      · exact .inr ⟨g1, u, subs_of_mem h.1 _ (children_subs t' u hu), g2⟩
theorem execIn_good (hs : List Nat) : ∀ (cs : List Call) (t : Tree), OkIn t cs → (idsIn t.children).Nodup →
    (∀ i ∈ idsIn t.children, (i ∈ hs ↔ i ∈ hookedIn t.children)) →
    (execIn hs cs cpu).2 = cpu ∧ ∀ e ∈ (execIn hs cs cpu).1, (e = (t.id, cpu) ∧ t.own = true) ∨ Good hs t.children e
  | [], t => by
    intro _ _ _
    rw [execIn]
    exact ⟨rfl, by simp⟩
  | c :: cs, t => by
    intro h hn hh
    rw [OkIn] at h
    obtain ⟨h1, h2⟩ := exec_good hs c t h.1 hn hh
    obtain ⟨h3, h4⟩ := execIn_good hs cs t h.2 hn hh
    rw [execIn]
    dsimp only
    rw [h1]
    refine ⟨h3, ?_⟩
    intro e he
    rcases List.mem_append.1 he with he | he
    · exact h2 e he
    · exact h4 e he
end

theorem root_ids (root : Tree) (hn : root.ids.Nodup) : root.id ∉ idsIn root.children ∧ (idsIn root.children).Nodup := by
  cases root with
  | node i w o cs =>
    rw [Tree.ids, List.nodup_cons] at hn
    exact hn

theorem forward_spec (root : Tree) (hn : root.ids.Nodup) (body : List Call) (hb : OkIn root body) :
    ((Call.mk root body).exec (enable root) cpu).2 = cpu ∧
    ∀ e ∈ ((Call.mk root body).exec (enable root) cpu).1,
      (e = (root.id, cpu) ∧ root.own = true) ∨ Good (enable root) root.children e := by
  obtain ⟨h1, h2⟩ := root_ids root hn
  have hno : root.id ∉ enable root := fun h => h1 (hookedIn_ids _ _ h)
  rw [Call.exec]
  dsimp only
  rw [if_neg hno, if_neg hno]
  exact execIn_good (enable root) body root hb h2 (fun _ _ => Iff.rfl)

theorem leak (k : Nat) (c : Ctx) (hl : ∀ h ∈ c.live, h < c.next) : (c.enter true k).exit.live = c.live := by
  unfold Ctx.enter Ctx.exit
  rw [if_pos rfl]
  dsimp only
  rw [List.filter_append]
  have e1 : c.live.filter (fun h => !((List.range k).map (c.next + ·)).contains h) = c.live := by
    rw [List.filter_eq_self]
    intro h hh
    have := hl h hh
    simp only [Bool.not_eq_true', List.contains_eq_mem, decide_eq_false_iff_not, List.mem_map, not_exists, not_and]
    intro x _ hx
    omega
  have e2 : ((List.range k).map (c.next + ·)).filter (fun h => !((List.range k).map (c.next + ·)).contains h) = [] := by
    rw [List.filter_eq_nil_iff]
    intro h hh
    simpa using hh
  rw [e1, e2, List.append_nil]

mutual
theorem subs_ids : ∀ (t u : Tree), u ∈ t.subs → ∀ i ∈ u.ids, i ∈ t.ids
  | .node j w o cs, u => by
    intro hu i hi
    rw [Tree.subs] at hu
    rcases List.mem_cons.1 hu with rfl | hu
    · exact hi
    · rw [Tree.ids]; exact List.mem_cons_of_mem _ (subsIn_ids cs u hu i hi)
theorem subsIn_ids : ∀ (ts : List Tree) (u : Tree), u ∈ subsIn ts → ∀ i ∈ u.ids, i ∈ idsIn ts
  | [], u => by intro hu; simp [subsIn] at hu
  | t :: ts, u => by
    intro hu i hi
    rw [subsIn, List.mem_append] at hu
    rw [idsIn, List.mem_append]
    exact hu.imp (fun h => subs_ids t u h i hi) (fun h => subsIn_ids ts u h i hi)
end

end Verif.Compressor
