import Verif.Spec.Graph

/-! Helper lemmas for `Verif/Props/Graph.lean`. -/

namespace Verif.Graph
open Verif

variable {N V : Type} [DecidableEq N] [DecidableEq V]

/-! ### Helpers on links -/

theorem upd_same {A : Type} (f : N → A) (k : N) (v : A) : upd f k v k = v := by simp [upd]
theorem upd_ne {A : Type} (f : N → A) (k x : N) (v : A) (h : x ≠ k) : upd f k v x = f x := by simp [upd, h]

theorem mem_addIfAbsent (l : List N) (x y : N) : y ∈ addIfAbsent l x ↔ y ∈ l ∨ y = x := by
  unfold addIfAbsent
  split
  · constructor
    · exact Or.inl
    · rintro (h | rfl) <;> assumption
  · simp

theorem nodup_addIfAbsent (l : List N) (x : N) (h : l.Nodup) : (addIfAbsent l x).Nodup := by
  unfold addIfAbsent
  split
  · exact h
  · rename_i hx
    rw [List.nodup_append]
    refine ⟨h, by simp, ?_⟩
    intro a ha b hb
    simp only [List.mem_singleton] at hb
    rintro rfl
    exact hx (hb ▸ ha)

theorem addIfAbsent_idem (l : List N) (x : N) : addIfAbsent (addIfAbsent l x) x = addIfAbsent l x := by
  have : x ∈ addIfAbsent l x := by rw [mem_addIfAbsent]; exact Or.inr rfl
  rw [addIfAbsent, if_pos this]

theorem link_eq (g : G N V) (a b : N) : link g a b = addNext g a b := by
  simp only [link, addPrev, addNext]
  congr 1
  · funext x; by_cases h : x = b <;> simp [upd, h, addIfAbsent_idem]
  · funext x; by_cases h : x = a <;> simp [upd, h, addIfAbsent_idem]

theorem link_names (g : G N V) (a b : N) : names (link g a b) = names g := by
  rw [link_eq]; rfl

theorem unlink_names (g : G N V) (a b : N) : names (unlink g a b) = names g := rfl

theorem link_edge (g : G N V) (a b x y : N) : Edge (link g a b) x y ↔ Edge g x y ∨ (x = a ∧ y = b) := by
  rw [link_eq]
  simp only [Edge, addNext]
  by_cases hx : x = a
  · subst hx; rw [upd_same, mem_addIfAbsent]; simp
  · rw [upd_ne _ _ _ _ hx]; simp [hx]

theorem unlink_edge (g : G N V) (hg : ∀ a, (g.next a).Nodup) (a b x y : N) :
    Edge (unlink g a b) x y ↔ Edge g x y ∧ ¬ (x = a ∧ y = b) := by
  simp only [Edge, unlink]
  by_cases hx : x = a
  · subst hx; rw [upd_same, (hg x).mem_erase_iff]; simp [and_comm]
  · rw [upd_ne _ _ _ _ hx]; simp [hx]

theorem link_wf (g : G N V) (a b : N) (hg : Wf g) (ha : a ∈ names g) (hb : b ∈ names g) : Wf (link g a b) := by
  refine ⟨by rw [link_names]; exact hg.names_nodup, ?_, ?_, ?_, ?_⟩
  · intro x y
    rw [show (y ∈ (link g a b).next x) = Edge (link g a b) x y from rfl, link_edge, link_eq]
    simp only [Edge, addNext]
    by_cases hy : y = b
    · subst hy; rw [upd_same, mem_addIfAbsent, hg.symm]; simp
    · rw [upd_ne _ _ _ _ hy, hg.symm]; simp [hy]
  · intro x
    rw [link_eq]; simp only [addNext]
    by_cases hx : x = a
    · subst hx; rw [upd_same]; exact nodup_addIfAbsent _ _ (hg.next_nodup _)
    · rw [upd_ne _ _ _ _ hx]; exact hg.next_nodup _
  · intro x
    rw [link_eq]; simp only [addNext]
    by_cases hx : x = b
    · subst hx; rw [upd_same]; exact nodup_addIfAbsent _ _ (hg.prev_nodup _)
    · rw [upd_ne _ _ _ _ hx]; exact hg.prev_nodup _
  · intro x y h
    rw [link_names]
    rcases (link_edge g a b x y).mp h with h | ⟨rfl, rfl⟩
    · exact hg.closed x y h
    · exact ⟨ha, hb⟩

theorem unlink_wf (g : G N V) (a b : N) (hg : Wf g) : Wf (unlink g a b) := by
  refine ⟨hg.names_nodup, ?_, ?_, ?_, ?_⟩
  · intro x y
    rw [show (y ∈ (unlink g a b).next x) = Edge (unlink g a b) x y from rfl, unlink_edge g hg.next_nodup]
    simp only [Edge, unlink]
    by_cases hy : y = b
    · subst hy; rw [upd_same, (hg.prev_nodup y).mem_erase_iff, hg.symm]; simp [and_comm]
    · rw [upd_ne _ _ _ _ hy, hg.symm]; simp [hy]
  · intro x
    simp only [unlink]
    by_cases hx : x = a
    · subst hx; rw [upd_same]; exact (hg.next_nodup _).erase _
    · rw [upd_ne _ _ _ _ hx]; exact hg.next_nodup _
  · intro x
    simp only [unlink]
    by_cases hx : x = b
    · subst hx; rw [upd_same]; exact (hg.prev_nodup _).erase _
    · rw [upd_ne _ _ _ _ hx]; exact hg.prev_nodup _
  · intro x y h
    rw [unlink_names]
    exact hg.closed x y ((unlink_edge g hg.next_nodup a b x y).mp h).1

theorem found_mem (g : G N V) (n : N) (v : V) (h : found g n v = true) : n ∈ names g := by
  unfold found at h
  obtain ⟨p, hp, hq⟩ := List.any_eq_true.mp h
  simp only [Bool.and_eq_true, decide_eq_true_eq] at hq
  exact List.mem_map.mpr ⟨p, hp, hq.1⟩

theorem unlinkOut_loop (n : N) : ∀ (l : List N) (g : G N V), Wf g → n ∈ names g → (∀ x ∈ l, x ∈ names g) →
    ∃ g', forEach (fun g x => unlinkChecked g n x) l g = (g', none) ∧
      Good g g' (fun x y => Edge g x y ∧ ¬ (x = n ∧ y ∈ l))
  | [], g, hg, _, _ => ⟨g, rfl, hg, rfl, by simp⟩
  | z :: l, g, hg, hn, hl => by
    have hz := hl z (by simp)
    obtain ⟨g', h1, h2, h3, h4⟩ := unlinkOut_loop n l (unlink g n z) (unlink_wf g n z hg) hn
      (fun x hx => hl x (by simp [hx]))
    refine ⟨g', ?_, h2, h3, ?_⟩
    · rw [forEach, unlinkChecked, if_pos ⟨hn, hz⟩]; exact h1
    · intro x y
      rw [h4]; beta_reduce
      rw [unlink_edge g hg.next_nodup]
      simp only [List.mem_cons]
      tauto

theorem unlinkIn_loop (n : N) : ∀ (l : List N) (g : G N V), Wf g → n ∈ names g → (∀ x ∈ l, x ∈ names g) →
    ∃ g', forEach (fun g x => unlinkChecked g x n) l g = (g', none) ∧
      Good g g' (fun x y => Edge g x y ∧ ¬ (y = n ∧ x ∈ l))
  | [], g, hg, _, _ => ⟨g, rfl, hg, rfl, by simp⟩
  | z :: l, g, hg, hn, hl => by
    have hz := hl z (by simp)
    obtain ⟨g', h1, h2, h3, h4⟩ := unlinkIn_loop n l (unlink g z n) (unlink_wf g z n hg) hn
      (fun x hx => hl x (by simp [hx]))
    refine ⟨g', ?_, h2, h3, ?_⟩
    · rw [forEach, unlinkChecked, if_pos ⟨hz, hn⟩]; exact h1
    · intro x y
      rw [h4]; beta_reduce
      rw [unlink_edge g hg.next_nodup]
      simp only [List.mem_cons]
      tauto

theorem bypassOut_loop (n p : N) (hp : p ≠ n) : ∀ (l : List N) (g : G N V), Wf g → n ∈ names g → p ∈ names g →
    (∀ x ∈ l, x ∈ names g) →
    ∃ g', forEach (fun g x => andThen (unlinkChecked g n x) (fun g => linkChecked g p x)) l g = (g', none) ∧
      Good g g' (fun x y => (Edge g x y ∧ ¬ (x = n ∧ y ∈ l)) ∨ (x = p ∧ y ∈ l))
  | [], g, hg, _, _, _ => ⟨g, rfl, hg, rfl, by simp⟩
  | z :: l, g, hg, hn, hpn, hl => by
    have hz := hl z (by simp)
    have hw := unlink_wf g n z hg
    have hnm : names (link (unlink g n z) p z) = names g := by rw [link_names]; rfl
    obtain ⟨g', h1, h2, h3, h4⟩ := bypassOut_loop n p hp l (link (unlink g n z) p z)
      (link_wf _ p z hw hpn hz) (by rw [hnm]; exact hn) (by rw [hnm]; exact hpn)
      (fun x hx => by rw [hnm]; exact hl x (by simp [hx]))
    refine ⟨g', ?_, h2, ?_, ?_⟩
    · rw [forEach, unlinkChecked, if_pos ⟨hn, hz⟩]
      simp only [andThen]
      rw [linkChecked, if_pos ⟨hpn, hz⟩]
      exact h1
    · rw [h3, link_eq]; rfl
    · intro x y
      rw [h4]; beta_reduce
      rw [link_edge, unlink_edge g hg.next_nodup]
      simp only [List.mem_cons]
      constructor
      · rintro (⟨⟨h1, h2⟩ | h1, h3⟩ | h1)
        · by_cases h5 : x = n ∧ (y = z ∨ y ∈ l)
          · rcases h5.2 with h6 | h6
            · exact absurd ⟨h5.1, h6⟩ h2
            · exact absurd ⟨h5.1, h6⟩ h3
          · exact Or.inl ⟨h1, h5⟩
        · exact Or.inr ⟨h1.1, Or.inl h1.2⟩
        · exact Or.inr ⟨h1.1, Or.inr h1.2⟩
      · rintro (⟨h1, h2⟩ | ⟨h1, h2 | h2⟩)
        · exact Or.inl ⟨Or.inl ⟨h1, fun h => h2 ⟨h.1, Or.inl h.2⟩⟩, fun h => h2 ⟨h.1, Or.inr h.2⟩⟩
        · exact Or.inl ⟨Or.inr ⟨h1, h2⟩, fun h => hp (h1 ▸ h.1)⟩
        · exact Or.inr ⟨h1, h2⟩

theorem bypassIn_loop (n q : N) (hq : q ≠ n) : ∀ (l : List N) (g : G N V), Wf g → n ∈ names g → q ∈ names g →
    (∀ x ∈ l, x ∈ names g) →
    ∃ g', forEach (fun g x => andThen (unlinkChecked g x n) (fun g => linkChecked g x q)) l g = (g', none) ∧
      Good g g' (fun x y => (Edge g x y ∧ ¬ (y = n ∧ x ∈ l)) ∨ (y = q ∧ x ∈ l))
  | [], g, hg, _, _, _ => ⟨g, rfl, hg, rfl, by simp⟩
  | z :: l, g, hg, hn, hqn, hl => by
    have hz := hl z (by simp)
    have hw := unlink_wf g z n hg
    have hnm : names (link (unlink g z n) z q) = names g := by rw [link_names]; rfl
    obtain ⟨g', h1, h2, h3, h4⟩ := bypassIn_loop n q hq l (link (unlink g z n) z q)
      (link_wf _ z q hw hz hqn) (by rw [hnm]; exact hn) (by rw [hnm]; exact hqn)
      (fun x hx => by rw [hnm]; exact hl x (by simp [hx]))
    refine ⟨g', ?_, h2, ?_, ?_⟩
    · rw [forEach, unlinkChecked, if_pos ⟨hz, hn⟩]
      simp only [andThen]
      rw [linkChecked, if_pos ⟨hz, hqn⟩]
      exact h1
    · rw [h3, link_eq]; rfl
    · intro x y
      rw [h4]; beta_reduce
      rw [link_edge, unlink_edge g hg.next_nodup]
      simp only [List.mem_cons]
      constructor
      · rintro (⟨⟨h1, h2⟩ | h1, h3⟩ | h1)
        · by_cases h5 : y = n ∧ (x = z ∨ x ∈ l)
          · rcases h5.2 with h6 | h6
            · exact absurd ⟨h6, h5.1⟩ h2
            · exact absurd ⟨h5.1, h6⟩ h3
          · exact Or.inl ⟨h1, h5⟩
        · exact Or.inr ⟨h1.2, Or.inl h1.1⟩
        · exact Or.inr ⟨h1.1, Or.inr h1.2⟩
      · rintro (⟨h1, h2⟩ | ⟨h1, h2 | h2⟩)
        · exact Or.inl ⟨Or.inl ⟨h1, fun h => h2 ⟨h.2, Or.inl h.1⟩⟩, fun h => h2 ⟨h.1, Or.inr h.2⟩⟩
        · exact Or.inl ⟨Or.inr ⟨h2, h1⟩, fun h => hq (h1 ▸ h.1)⟩
        · exact Or.inr ⟨h1, h2⟩

/-- What removing the links of a node does, when it has no link to itself. -/
theorem bypass_spec (g : G N V) (n : N) (hg : Wf g) (hn : n ∈ names g) (hself : n ∉ g.next n) :
    (∃ g', bypass g n = (g', none) ∧
      ¬ (2 ≤ (g.prev n).length ∧ 2 ≤ (g.next n).length) ∧
      Good g g' (fun x y => x ≠ n ∧ y ≠ n ∧ (Edge g x y ∨ (Edge g x n ∧ Edge g n y)))) ∨
    (bypass g n = (g, some .runtime) ∧ 2 ≤ (g.prev n).length ∧ 2 ≤ (g.next n).length) := by
  have hprev : ∀ x, x ∈ g.prev n ↔ Edge g x n := fun x => (hg.symm x n).symm
  have hselfp : n ∉ g.prev n := fun h => hself ((hprev n).mp h)
  have hpn : ∀ x ∈ g.prev n, x ∈ names g := fun x hx => (hg.closed x n ((hprev x).mp hx)).1
  have hnn : ∀ x ∈ g.next n, x ∈ names g := fun x hx => (hg.closed n x hx).2
  unfold bypass
  split
  · rename_i hp
    obtain ⟨g', h1, h2, h3, h4⟩ := unlinkOut_loop n (g.next n) g hg hn hnn
    refine Or.inl ⟨g', h1, by simp [hp], h2, h3, ?_⟩
    intro x y
    rw [h4]; beta_reduce
    have hno : ∀ x, ¬ Edge g x n := fun x h => by have := (hprev x).mpr h; rw [hp] at this; cases this
    constructor
    · rintro ⟨a, b⟩
      refine ⟨fun h => b ⟨h, h ▸ a⟩, fun h => hno x (h ▸ a), Or.inl a⟩
    · rintro ⟨a, b, c | c⟩
      · exact ⟨c, fun h => a h.1⟩
      · exact absurd c.1 (hno x)
  · rename_i hnil _
    obtain ⟨g', h1, h2, h3, h4⟩ := unlinkIn_loop n (g.prev n) g hg hn hpn
    refine Or.inl ⟨g', h1, by simp [hnil], h2, h3, ?_⟩
    intro x y
    rw [h4]; beta_reduce
    have hno : ∀ y, ¬ Edge g n y := fun y h => by have : y ∈ g.next n := h; rw [hnil] at this; cases this
    constructor
    · rintro ⟨a, b⟩
      refine ⟨fun h => hno y (h ▸ a), fun h => b ⟨h, (hprev x).mpr (h ▸ a)⟩, Or.inl a⟩
    · rintro ⟨a, b, c | c⟩
      · exact ⟨c, fun h => b h.1⟩
      · exact absurd c.2 (hno y)
  · rename_i p hp _
    have hpm : p ∈ g.prev n := by rw [hp]; simp
    have hpnm := hpn p hpm
    have hpne : p ≠ n := fun h => hselfp (h ▸ hpm)
    rw [unlinkChecked, if_pos ⟨hpnm, hn⟩]
    simp only [andThen]
    have hnext : (unlink g p n).next n = g.next n := by
      simp only [unlink]; rw [upd_ne _ _ _ _ (Ne.symm hpne)]
    rw [hnext]
    obtain ⟨g', h1, h2, h3, h4⟩ := bypassOut_loop n p hpne (g.next n) (unlink g p n) (unlink_wf g p n hg) hn hpnm hnn
    refine Or.inl ⟨g', h1, by simp [hp], h2, h3, ?_⟩
    intro x y
    rw [h4]; beta_reduce
    rw [unlink_edge g hg.next_nodup]
    have hp1 : ∀ x, Edge g x n ↔ x = p := fun x => by rw [← hprev, hp]; simp
    constructor
    · rintro (⟨⟨a, b⟩, c⟩ | ⟨a, b⟩)
      · refine ⟨fun h => c ⟨h, h ▸ a⟩, fun h => b ⟨(hp1 x).mp (h ▸ a), h⟩, Or.inl a⟩
      · refine ⟨a ▸ hpne, fun h => hself (h ▸ b), Or.inr ⟨(hp1 x).mpr a, b⟩⟩
    · rintro ⟨a, b, c | ⟨c, d⟩⟩
      · exact Or.inl ⟨⟨c, fun h => b h.2⟩, fun h => a h.1⟩
      · exact Or.inr ⟨(hp1 x).mp c, d⟩
  · rename_i q hq _ _
    have hqm : q ∈ g.next n := by rw [hq]; simp
    have hqnm := hnn q hqm
    have hqne : q ≠ n := fun h => hself (h ▸ hqm)
    rw [unlinkChecked, if_pos ⟨hn, hqnm⟩]
    simp only [andThen]
    have hpr : (unlink g n q).prev n = g.prev n := by
      simp only [unlink]; rw [upd_ne _ _ _ _ (Ne.symm hqne)]
    rw [hpr]
    obtain ⟨g', h1, h2, h3, h4⟩ := bypassIn_loop n q hqne (g.prev n) (unlink g n q) (unlink_wf g n q hg) hn hqnm hpn
    refine Or.inl ⟨g', h1, by simp [hq], h2, h3, ?_⟩
    intro x y
    rw [h4]; beta_reduce
    rw [unlink_edge g hg.next_nodup]
    have hq1 : ∀ y, Edge g n y ↔ y = q := fun y => by unfold Edge; rw [hq]; simp
    constructor
    · rintro (⟨⟨a, b⟩, c⟩ | ⟨a, b⟩)
      · refine ⟨fun h => b ⟨h, (hq1 y).mp (h ▸ a)⟩, fun h => c ⟨h, (hprev x).mpr (h ▸ a)⟩, Or.inl a⟩
      · refine ⟨fun h => hselfp (h ▸ b), a ▸ hqne, Or.inr ⟨(hprev x).mp b, (hq1 y).mpr a⟩⟩
    · rintro ⟨a, b, c | ⟨c, d⟩⟩
      · exact Or.inl ⟨⟨c, fun h => a h.1⟩, fun h => b h.1⟩
      · exact Or.inr ⟨(hq1 y).mp d, (hprev x).mpr c⟩
  · rename_i h1 h3 h2 h4
    refine Or.inr ⟨rfl, ?_, ?_⟩
    · rcases hc : g.prev n with _ | ⟨a, _ | ⟨b, l⟩⟩
      · exact absurd hc h1
      · exact absurd hc (h3 a)
      · simp
    · rcases hc : g.next n with _ | ⟨a, _ | ⟨b, l⟩⟩
      · exact absurd hc h2
      · exact absurd hc (h4 a)
      · simp

theorem names_filter (g : G N V) (n : N) :
    (g.nodes.filter (fun p => decide (p.1 ≠ n))).map (·.1) = (names g).filter (fun x => decide (x ≠ n)) := by
  unfold names
  rw [List.filter_map]
  rfl

theorem step_wf (g : G N V) (o : Op N V) (hg : Wf g) (ho : ¬ SelfLoopDelete g o) : Wf (step g o).1 := by
  have hadd : ∀ n v, Wf (addNode g n v).1 := by
    intro n v
    unfold addNode
    split
    · exact hg
    · rename_i hn
      have hnx : ∀ x, n ∉ g.next x := fun x h => hn (hg.closed x n h).2
      have hnp : ∀ x, n ∉ g.prev x := fun x h => hn (hg.closed n x ((hg.symm n x).mpr h)).1
      have hnn : g.next n = [] := List.eq_nil_iff_forall_not_mem.mpr fun y h => hn (hg.closed n y h).1
      have hpn : g.prev n = [] :=
        List.eq_nil_iff_forall_not_mem.mpr fun y h => hn (hg.closed y n ((hg.symm y n).mpr h)).2
      have e1 : upd g.prev n [] = g.prev := by
        funext x; by_cases h : x = n
        · subst h; rw [upd_same, hpn]
        · rw [upd_ne _ _ _ _ h]
      have e2 : upd g.next n [] = g.next := by
        funext x; by_cases h : x = n
        · subst h; rw [upd_same, hnn]
        · rw [upd_ne _ _ _ _ h]
      simp only [e1, e2]
      refine ⟨?_, hg.symm, hg.next_nodup, hg.prev_nodup, ?_⟩
      · unfold names at hn ⊢
        simp only [List.map_append, List.map_cons, List.map_nil]
        rw [List.nodup_append]
        refine ⟨hg.names_nodup, by simp, ?_⟩
        intro a ha b hb
        simp only [List.mem_singleton] at hb
        rintro rfl
        exact hn (hb ▸ ha)
      · intro a b h
        obtain ⟨h1, h2⟩ := hg.closed a b h
        unfold names at h1 h2 ⊢
        simp only [List.map_append, List.mem_append]
        exact ⟨Or.inl h1, Or.inl h2⟩
  cases o with
  | add n v => exact hadd n v
  | addOrFind n v =>
    simp only [step, addOrFind]
    split
    · exact hg
    · exact hadd n v
  | connect a va b vb =>
    simp only [step, connect]
    split
    · rename_i h; exact link_wf g a b hg (found_mem g a va h.1) (found_mem g b vb h.2)
    · exact hg
  | disconnect a va b vb =>
    simp only [step, disconnect]
    split
    · exact unlink_wf g a b hg
    · exact hg
  | delete n v =>
    simp only [step, deleteNode]
    split
    · rename_i hf
      have hn := found_mem g n v hf
      rcases bypass_spec g n hg hn ho with ⟨g', h1, _, h2, h3, h4⟩ | ⟨h1, _⟩
      · rw [h1]
        simp only [andThen]
        have hnm : names { g' with nodes := g'.nodes.filter (fun p => decide (p.1 ≠ n)) }
            = (names g).filter (fun x => decide (x ≠ n)) := by
          rw [show names { g' with nodes := g'.nodes.filter (fun p => decide (p.1 ≠ n)) }
            = (g'.nodes.filter (fun p => decide (p.1 ≠ n))).map (·.1) from rfl, h3]
          exact names_filter g n
        refine ⟨?_, h2.symm, h2.next_nodup, h2.prev_nodup, ?_⟩
        · rw [hnm]; exact hg.names_nodup.filter _
        · intro a b hab
          rw [hnm]
          obtain ⟨ha, hb, _⟩ := (h4 a b).mp hab
          obtain ⟨c1, c2⟩ := h2.closed a b hab
          have : names g' = names g := by unfold names; rw [h3]
          rw [this] at c1 c2
          simp [List.mem_filter, c1, c2, ha, hb]
      · rw [h1]; exact hg
    · exact hg

theorem empty_wf : Wf (empty : G N V) :=
  ⟨by simp [names, empty], by simp [empty], by simp [empty], by simp [empty], by simp [empty]⟩

/-! ### Traversal helpers -/

theorem decrAll_spec : ∀ (l : List N) (deg : List (N × Int)), l.Nodup → (∀ x ∈ l, x ∈ deg.map (·.1)) →
    decrAll l deg = some (deg.map (fun p => if p.1 ∈ l then (p.1, p.2 - 1) else p))
  | [], deg, _, _ => by simp [decrAll]
  | k :: l, deg, hn, hk => by
    have h1 : k ∈ deg.map (·.1) := hk k (by simp)
    rw [decrAll, decr, if_pos h1]
    simp only
    have hkeys : (deg.map (fun p => if p.1 = k then (p.1, p.2 - 1) else p)).map (·.1) = deg.map (·.1) := by
      rw [List.map_map]
      apply List.map_congr_left
      intro p _
      simp only [Function.comp]
      split <;> rfl
    rw [decrAll_spec l _ (List.nodup_cons.mp hn).2
      (fun x hx => by rw [hkeys]; exact hk x (by simp [hx])), List.map_map]
    congr 1
    apply List.map_congr_left
    intro p _
    simp only [Function.comp]
    have hkl := (List.nodup_cons.mp hn).1
    by_cases h : p.1 = k
    · have hpl : p.1 ∉ l := h ▸ hkl
      simp [h, hkl]
    · by_cases h2 : p.1 ∈ l
      · simp [h, h2]
      · simp [h, h2]

theorem left_step (g : G N V) (hg : Wf g) (vs : List N) (deg : List (N × Int)) (hl : Left g vs deg)
    (n : N) (d : Int) (hf : deg.find? (fun p => decide (p.2 = 0)) = some (n, d)) :
    n ∈ names g ∧ n ∉ vs ∧ (∀ p ∈ g.prev n, p ∈ vs) ∧
    ∃ deg', decrAll (g.next n) (deg.filter (fun p => decide (p.1 ≠ n))) = some deg' ∧
      Left g (n :: vs) deg' ∧ deg'.length + 1 = deg.length := by
  have hmem := List.mem_of_find?_eq_some hf
  have hzero : d = 0 := by simpa using List.find?_some hf
  have hkey : n ∈ (names g).filter (fun x => decide (x ∉ vs)) := by
    rw [← hl.keys]; exact List.mem_map.mpr ⟨(n, d), hmem, rfl⟩
  obtain ⟨hn, hnv⟩ := List.mem_filter.mp hkey
  have hnv : n ∉ vs := by simpa using hnv
  have hprev : ∀ p ∈ g.prev n, p ∈ vs := by
    intro p hp
    have hc := hl.counts (n, d) hmem
    simp only [hzero] at hc
    have hlen : ((g.prev n).filter (fun x => decide (x ∉ vs))).length = 0 := by exact_mod_cast hc.symm
    have hnil := List.length_eq_zero_iff.mp hlen
    by_contra hpv
    have : p ∈ (g.prev n).filter (fun x => decide (x ∉ vs)) := List.mem_filter.mpr ⟨hp, by simpa using hpv⟩
    rw [hnil] at this
    cases this
  refine ⟨hn, hnv, hprev, ?_⟩
  have hkeys0 : (deg.filter (fun p => decide (p.1 ≠ n))).map (·.1)
      = (names g).filter (fun x => decide (x ∉ n :: vs)) := by
    have : (deg.filter (fun p => decide (p.1 ≠ n))).map (·.1)
        = (deg.map (·.1)).filter (fun x => decide (x ≠ n)) := by
      rw [List.filter_map]; rfl
    rw [this, hl.keys, List.filter_filter]
    apply List.filter_congr
    intro x _
    simp only [List.mem_cons, not_or, ← Bool.decide_and]
  have hsub : ∀ x ∈ g.next n, x ∈ (deg.filter (fun p => decide (p.1 ≠ n))).map (·.1) := by
    intro x hx
    rw [hkeys0, List.mem_filter]
    refine ⟨(hg.closed n x hx).2, ?_⟩
    have hpx : n ∈ g.prev x := (hg.symm n x).mp hx
    simp only [List.mem_cons, not_or, decide_eq_true_eq]
    refine ⟨?_, fun hxv => hnv (hl.down x hxv n hpx)⟩
    rintro rfl
    exact hnv (hprev x hpx)
  refine ⟨_, decrAll_spec (g.next n) _ (hg.next_nodup n) hsub, ⟨?_, ?_, ?_⟩, ?_⟩
  · rw [← hkeys0, List.map_map]
    apply List.map_congr_left
    intro p _
    simp only [Function.comp]
    split <;> rfl
  · intro q hq
    obtain ⟨p, hp, rfl⟩ := List.mem_map.mp hq
    obtain ⟨hp1, hp2⟩ := List.mem_filter.mp hp
    have hpn : p.1 ≠ n := by simpa using hp2
    have hc := hl.counts p hp1
    have hfil : (g.prev p.1).filter (fun x => decide (x ∉ n :: vs))
        = ((g.prev p.1).filter (fun x => decide (x ∉ vs))).erase n := by
      rw [((hg.prev_nodup p.1).filter _).erase_eq_filter, List.filter_filter]
      apply List.filter_congr
      intro x _
      by_cases h1 : x = n <;> by_cases h2 : x ∈ vs <;> simp [h1, h2]
    have hfst : (if p.1 ∈ g.next n then (p.1, p.2 - 1) else p).1 = p.1 := by split <;> rfl
    rw [hfst, hfil]
    by_cases hin : p.1 ∈ g.next n
    · have hpm : n ∈ (g.prev p.1).filter (fun x => decide (x ∉ vs)) :=
        List.mem_filter.mpr ⟨(hg.symm n p.1).mp hin, by simpa using hnv⟩
      rw [if_pos hin, List.length_erase_of_mem hpm]
      have : 0 < ((g.prev p.1).filter (fun x => decide (x ∉ vs))).length := List.length_pos_of_mem hpm
      simp only
      rw [hc]
      omega
    · have hpm : n ∉ (g.prev p.1).filter (fun x => decide (x ∉ vs)) := by
        intro h
        exact hin ((hg.symm n p.1).mpr (List.mem_filter.mp h).1)
      rw [if_neg hin, List.erase_of_not_mem hpm]
      exact hc
  · intro x hx p hp
    rcases List.mem_cons.mp hx with rfl | hx
    · exact List.mem_cons_of_mem _ (hprev p hp)
    · exact List.mem_cons_of_mem _ (hl.down x hx p hp)
  · rw [List.length_map]
    have h1 : (deg.filter (fun p => decide (p.1 ≠ n))).length
        = ((names g).filter (fun x => decide (x ∉ n :: vs))).length := by rw [← hkeys0, List.length_map]
    have h2 : deg.length = ((names g).filter (fun x => decide (x ∉ vs))).length := by rw [← hl.keys, List.length_map]
    rw [h1, h2]
    have : (names g).filter (fun x => decide (x ∉ n :: vs)) = ((names g).filter (fun x => decide (x ∉ vs))).erase n := by
      rw [(hg.names_nodup.filter _).erase_eq_filter, List.filter_filter]
      apply List.filter_congr
      intro x _
      by_cases h1 : x = n <;> by_cases h2 : x ∈ vs <;> simp [h1, h2]
    rw [this, List.length_erase_of_mem hkey]
    have := List.length_pos_of_mem hkey
    omega

theorem topoLoop_spec (g : G N V) (hg : Wf g) : ∀ (k : Nat) (vs : List N) (deg : List (N × Int)),
    deg.length = k → Left g vs deg →
    (topoLoop g k deg).1.Nodup ∧ (∀ y ∈ (topoLoop g k deg).1, y ∈ names g ∧ y ∉ vs) ∧
    (∀ l1 y l2, (topoLoop g k deg).1 = l1 ++ y :: l2 → ∀ p ∈ g.prev y, p ∈ vs ∨ p ∈ l1) ∧
    (((topoLoop g k deg).2 = none ∧ ∀ x ∈ names g, x ∈ vs ∨ x ∈ (topoLoop g k deg).1) ∨
     ((topoLoop g k deg).2 = some .runtime ∧
      (∃ x ∈ names g, x ∉ vs ∧ x ∉ (topoLoop g k deg).1) ∧
      ∀ x ∈ names g, x ∉ vs → x ∉ (topoLoop g k deg).1 →
        ∃ p ∈ g.prev x, p ∉ vs ∧ p ∉ (topoLoop g k deg).1)) := by
  intro k
  induction k with
  | zero =>
    intro vs deg hk hl
    have hnil : deg = [] := List.length_eq_zero_iff.mp hk
    refine ⟨by simp [topoLoop], by simp [topoLoop], by simp [topoLoop], Or.inl ⟨rfl, ?_⟩⟩
    intro x hx
    by_contra hc
    simp only [not_or] at hc
    have : x ∈ (names g).filter (fun x => decide (x ∉ vs)) := List.mem_filter.mpr ⟨hx, by simpa using hc.1⟩
    rw [← hl.keys, hnil] at this
    cases this
  | succ k ih =>
    intro vs deg hk hl
    rw [topoLoop]
    cases hf : deg.find? (fun p => decide (p.2 = 0)) with
    | none =>
      refine ⟨by simp, by simp, by simp, Or.inr ⟨rfl, ?_, ?_⟩⟩
      · cases hd : deg with
        | nil => rw [hd] at hk; simp at hk
        | cons p rest =>
          have : p.1 ∈ (names g).filter (fun x => decide (x ∉ vs)) := by rw [← hl.keys, hd]; simp
          obtain ⟨h1, h2⟩ := List.mem_filter.mp this
          exact ⟨p.1, h1, by simpa using h2, by simp⟩
      · intro x hx hxv _
        have : x ∈ (names g).filter (fun x => decide (x ∉ vs)) := List.mem_filter.mpr ⟨hx, by simpa using hxv⟩
        rw [← hl.keys] at this
        obtain ⟨p, hp, rfl⟩ := List.mem_map.mp this
        have hne := List.find?_eq_none.mp hf p hp
        have hne : ¬ p.2 = 0 := by simpa using hne
        rw [hl.counts p hp] at hne
        have hpos : 0 < ((g.prev p.1).filter (fun x => decide (x ∉ vs))).length := by omega
        obtain ⟨q, hq⟩ := List.exists_mem_of_length_pos hpos
        obtain ⟨hq1, hq2⟩ := List.mem_filter.mp hq
        exact ⟨q, hq1, by simpa using hq2, by simp⟩
    | some nd =>
      obtain ⟨n, d⟩ := nd
      obtain ⟨hn, hnv, hprev, deg', hdec, hl', hlen⟩ := left_step g hg vs deg hl n d hf
      dsimp only
      rw [hdec]
      dsimp only
      obtain ⟨i1, i2, i3, i4⟩ := ih (n :: vs) deg' (by omega) hl'
      refine ⟨?_, ?_, ?_, ?_⟩
      · refine List.nodup_cons.mpr ⟨fun h => (i2 n h).2 (by simp), i1⟩
      · intro y hy
        rcases List.mem_cons.mp hy with rfl | hy
        · exact ⟨hn, hnv⟩
        · obtain ⟨a, b⟩ := i2 y hy
          exact ⟨a, fun h => b (by simp [h])⟩
      · intro l1 y l2 h p hp
        cases l1 with
        | nil =>
          simp only [List.nil_append, List.cons.injEq] at h
          exact Or.inl (hprev p (h.1 ▸ hp))
        | cons z l1 =>
          simp only [List.cons_append, List.cons.injEq] at h
          rcases i3 l1 y l2 h.2 p hp with h3 | h3
          · rcases List.mem_cons.mp h3 with rfl | h3
            · exact Or.inr (by simp [h.1])
            · exact Or.inl h3
          · exact Or.inr (by simp [h3])
      · rcases i4 with ⟨a, b⟩ | ⟨a, ⟨x, b1, b2, b3⟩, c⟩
        · refine Or.inl ⟨a, fun x hx => ?_⟩
          rcases b x hx with h | h
          · rcases List.mem_cons.mp h with rfl | h
            · exact Or.inr (by simp)
            · exact Or.inl h
          · exact Or.inr (by simp [h])
        · simp only [List.mem_cons, not_or] at b2 c
          refine Or.inr ⟨a, ⟨x, b1, b2.2, by simp [b2.1, b3]⟩, ?_⟩
          intro y hy hyv hyl
          simp only [List.mem_cons, not_or] at hyl
          obtain ⟨p, hp, hpv, hpl⟩ := c y hy ⟨hyl.1, hyv⟩ hyl.2
          exact ⟨p, hp, hpv.2, by simp [hpv.1, hpl]⟩

theorem traverse_spec (g : G N V) (hg : Wf g) :
    (topoTraverse g).1.Nodup ∧ (∀ y ∈ (topoTraverse g).1, y ∈ names g) ∧
    (∀ l1 y l2, (topoTraverse g).1 = l1 ++ y :: l2 → ∀ p ∈ g.prev y, p ∈ l1) ∧
    (((topoTraverse g).2 = none ∧ ∀ x ∈ names g, x ∈ (topoTraverse g).1) ∨
     ((topoTraverse g).2 = some .runtime ∧
      (∃ x ∈ names g, x ∉ (topoTraverse g).1) ∧
      ∀ x ∈ names g, x ∉ (topoTraverse g).1 → ∃ p ∈ g.prev x, p ∉ (topoTraverse g).1)) := by
  have hl : Left g [] (g.nodes.map (fun p => (p.1, ((g.prev p.1).length : Int)))) := by
    refine ⟨?_, ?_, by simp⟩
    · rw [List.map_map]
      simp [names, Function.comp_def]
    · intro q hq
      obtain ⟨p, _, rfl⟩ := List.mem_map.mp hq
      simp
  obtain ⟨h1, h2, h3, h4⟩ := topoLoop_spec g hg g.nodes.length [] _ (by simp) hl
  refine ⟨h1, fun y hy => (h2 y hy).1, ?_, ?_⟩
  · intro l1 y l2 h p hp
    rcases h3 l1 y l2 h p hp with h | h
    · cases h
    · exact h
  · rcases h4 with ⟨a, b⟩ | ⟨a, ⟨x, b1, _, b3⟩, c⟩
    · refine Or.inl ⟨a, fun x hx => ?_⟩
      rcases b x hx with h | h
      · cases h
      · exact h
    · refine Or.inr ⟨a, ⟨x, b1, b3⟩, fun y hy hyl => ?_⟩
      obtain ⟨p, hp, _, hpl⟩ := c y hy (by simp) hyl
      exact ⟨p, hp, hpl⟩

theorem acc_of_not_behind (g : G N V) (hg : Wf g) (x : N) (hx : x ∈ names g) (h : ¬ BehindCycle g x) :
    Acc (Edge g) x := by
  classical
  let A := {y : N // y ∈ (names g).toFinset ∧ ¬ BehindCycle g y}
  let r : A → A → Prop := fun a b => Relation.TransGen (Edge g) a.1 b.1
  haveI : Finite A := by
    have : Finite {y : N // y ∈ (names g).toFinset} := inferInstance
    exact Finite.of_injective (fun a : A => (⟨a.1, a.2.1⟩ : {y : N // y ∈ (names g).toFinset}))
      (fun a b hab => Subtype.ext (by simpa using hab))
  haveI : IsTrans A r := ⟨fun a b c => Relation.TransGen.trans⟩
  haveI : Std.Irrefl r := ⟨fun a ha => a.2.2 ⟨a.1, ha, Relation.ReflTransGen.refl⟩⟩
  have wf : WellFounded r := Finite.wellFounded_of_trans_of_irrefl r
  have key : ∀ a : A, Acc (Edge g) a.1 := by
    intro a
    induction a using wf.induction with
    | _ a ih =>
      refine Acc.intro _ fun p hp => ?_
      have hpb : ¬ BehindCycle g p := by
        rintro ⟨c, hc, hcp⟩
        exact a.2.2 ⟨c, hc, hcp.tail hp⟩
      exact ih ⟨p, List.mem_toFinset.mpr (hg.closed p a.1 hp).1, hpb⟩ (Relation.TransGen.single hp)
  exact key ⟨x, List.mem_toFinset.mpr hx, h⟩

theorem not_behind_of_acc (g : G N V) (x : N) (h : Acc (Edge g) x) : ¬ BehindCycle g x := by
  rintro ⟨c, hc, hcx⟩
  have hacc : Acc (Relation.TransGen (Edge g)) x := h.transGen
  have hc' : Acc (Relation.TransGen (Edge g)) c := by
    rcases Relation.reflTransGen_iff_eq_or_transGen.mp hcx with rfl | ht
    · exact hacc
    · exact hacc.inv ht
  have : ∀ y, Acc (Relation.TransGen (Edge g)) y → ¬ Relation.TransGen (Edge g) y y := by
    intro y hy
    induction hy with
    | intro y _ ih => intro hyy; exact ih y hyy hyy
  exact this c hc' hc

theorem filterMap_names (g : G N V) (order : List N) (h : ∀ x ∈ order, x ∈ names g) :
    (order.filterMap (fun n => g.nodes.find? (fun p => decide (p.1 = n)))).map (·.1) = order := by
  induction order with
  | nil => rfl
  | cons x rest ih =>
    obtain ⟨p, hp, hpx⟩ := List.mem_map.mp (h x (by simp))
    cases hf : g.nodes.find? (fun p => decide (p.1 = x)) with
    | none =>
      have := List.find?_eq_none.mp hf p hp
      simp [hpx] at this
    | some q =>
      have : q.1 = x := by simpa using List.find?_some hf
      rw [List.filterMap_cons, hf]
      simp only [List.map_cons, this]
      rw [ih (fun y hy => h y (by simp [hy]))]

end Verif.Graph
