import Verif.Spec.Paths
import Verif.Props.Tracer

/-! Helper lemmas for `Verif/Props/Paths.lean`. -/

namespace Verif.Paths
open Verif Tracer

variable {K : Type} [DecidableEq K]

theorem isInst_iff (r : Ref K) (c : Cls) : isInst r c = true ↔ Is r c := by
  cases c with
  | node => exact ⟨fun _ => .node r, fun _ => rfl⟩
  | layer k =>
    cases r with
    | layer k' n =>
      constructor
      · intro h
        have : k = k' := by simpa [isInst] using h
        subst this
        exact .layer k n
      · intro h; cases h; simp [isInst]
    | cat id => exact ⟨fun h => by simp [isInst] at h, fun h => by cases h⟩
  | concat =>
    cases r with
    | layer k' n => exact ⟨fun h => by simp [isInst] at h, fun h => by cases h⟩
    | cat id => exact ⟨fun _ => .concat id, fun _ => rfl⟩

theorem any_iff (r : Ref K) (cs : List Cls) : cs.any (isInst r) = true ↔ ∃ c ∈ cs, Is r c := by
  simp [List.any_eq_true, isInst_iff]

theorem stops_iff (np : Option (List Cls)) (r : Ref K) :
    stops np r = true ↔ ∀ cs, np = some cs → ∃ c ∈ cs, Is r c := by
  cases np with
  | none => simp [stops]
  | some cs => simp [stops, isInst_iff]

theorem not_stops_iff (np : Option (List Cls)) (r : Ref K) :
    ¬ stops np r = true ↔ ∃ cs, np = some cs ∧ ∀ c ∈ cs, ¬ Is r c := by
  rw [stops_iff]
  push Not
  rfl

theorem behind_first (np : Option (List Cls)) (r : Ref K) : ∀ (p : Path K), r ∈ behind np p ↔ First np p r
  | [] => by simp [behind, First]
  | x :: p => by
    rw [behind]
    by_cases h : stops np (ref x) = true
    · rw [if_pos h]
      constructor
      · intro hr
        have : r = ref x := by simpa using hr
        subst this
        exact ⟨[], x, p, rfl, rfl, (stops_iff _ _).1 h, by simp⟩
      · rintro ⟨before, y, after, e, rfl, _, hb⟩
        cases before with
        | nil => simp at e; simp [e.1]
        | cons z before =>
          simp at e
          obtain ⟨rfl, _⟩ := e
          exact absurd h ((not_stops_iff _ _).2 (hb x (by simp)))
    · rw [if_neg h, behind_first np r p]
      constructor
      · rintro ⟨before, y, after, rfl, hy, hs, hb⟩
        refine ⟨x :: before, y, after, rfl, hy, hs, ?_⟩
        intro z hz
        rcases List.mem_cons.1 hz with rfl | hz
        · exact (not_stops_iff _ _).1 h
        · exact hb z hz
      · rintro ⟨before, y, after, e, rfl, hs, hb⟩
        cases before with
        | nil =>
          simp at e
          obtain ⟨rfl, _⟩ := e
          exact absurd ((stops_iff _ _).2 hs) h
        | cons z before =>
          simp at e
          obtain ⟨rfl, rfl⟩ := e
          exact ⟨before, y, after, rfl, rfl, hs, fun w hw => hb w (by simp [hw])⟩

/-- Something that can be read off the entries one by one. -/
structure Reads (X : Parents K → Prop) : Prop where
  nil : ¬ X []
  merge : ∀ d e, X (merge d e) ↔ X d ∨ X e

/-- A target layer on the path whose entry has the property. -/
def OnPath (tgt : List Cls) (np : Option (List Cls)) (X : Parents K → Prop) (p : Path K) : Prop :=
  ∃ pre k n post, p = pre ++ .layer k n :: post ∧ (∃ c ∈ tgt, Is (Ref.layer k n) c) ∧ X [(n, behind np post)]

/-- The same anywhere within a list of paths. -/
def Occ (tgt : List Cls) (np : Option (List Cls)) (X : Parents K → Prop) (ps : List (Path K)) : Prop :=
  ∃ path, Within ps path ∧ OnPath tgt np X path

/-- The same within a concatenation on the path. -/
def InCat (tgt : List Cls) (np : Option (List Cls)) (X : Parents K → Prop) (p : Path K) : Prop :=
  ∃ id subs, PNode.cat id subs ∈ p ∧ ∃ l ∈ subs, Occ tgt np X l

theorem occ_cons (tgt : List Cls) (np : Option (List Cls)) (X : Parents K → Prop) (p : Path K) (ps : List (Path K)) :
    Occ tgt np X (p :: ps) ↔ (OnPath tgt np X p ∨ InCat tgt np X p) ∨ Occ tgt np X ps := by
  constructor
  · rintro ⟨path, hw, ho⟩
    cases hw with
    | here _ _ hm =>
      rcases List.mem_cons.1 hm with rfl | hm
      · exact .inl (.inl ho)
      · exact .inr ⟨path, .here _ _ hm, ho⟩
    | inside _ q id subs l _ hm hc hl hw =>
      rcases List.mem_cons.1 hm with rfl | hm
      · exact .inl (.inr ⟨id, subs, hc, l, hl, path, hw, ho⟩)
      · exact .inr ⟨path, .inside _ q id subs l _ hm hc hl hw, ho⟩
  · rintro ((ho | ⟨id, subs, hc, l, hl, path, hw, ho⟩) | ⟨path, hw, ho⟩)
    · exact ⟨p, .here _ _ (by simp), ho⟩
    · exact ⟨path, .inside _ p id subs l _ (by simp) hc hl hw, ho⟩
    · refine ⟨path, ?_, ho⟩
      cases hw with
      | here _ _ hm => exact .here _ _ (by simp [hm])
      | inside _ q id subs l _ hm hc hl hw => exact .inside _ q id subs l _ (by simp [hm]) hc hl hw

theorem occ_nil (tgt : List Cls) (np : Option (List Cls)) (X : Parents K → Prop) : ¬ Occ tgt np X [] := by
  rintro ⟨path, hw, _⟩
  cases hw with
  | here _ _ hm => simp at hm
  | inside _ q id subs l _ hm => simp at hm

theorem onPath_layer (tgt : List Cls) (np : Option (List Cls)) (X : Parents K → Prop) (k : LKind) (n : K) (p : Path K) :
    OnPath tgt np X (.layer k n :: p) ↔
      ((∃ c ∈ tgt, Is (Ref.layer k n) c) ∧ X [(n, behind np p)]) ∨ OnPath tgt np X p := by
  constructor
  · rintro ⟨pre, k', n', post, e, h1, h2⟩
    cases pre with
    | nil =>
      simp at e
      obtain ⟨⟨rfl, rfl⟩, rfl⟩ := e
      exact .inl ⟨h1, h2⟩
    | cons y pre =>
      simp at e
      exact .inr ⟨pre, k', n', post, e.2, h1, h2⟩
  · rintro (⟨h1, h2⟩ | ⟨pre, k', n', post, rfl, h1, h2⟩)
    · exact ⟨[], k, n, p, rfl, h1, h2⟩
    · exact ⟨.layer k n :: pre, k', n', post, rfl, h1, h2⟩

theorem onPath_cat (tgt : List Cls) (np : Option (List Cls)) (X : Parents K → Prop) (id : K)
    (subs : List (List (Path K))) (p : Path K) : OnPath tgt np X (.cat id subs :: p) ↔ OnPath tgt np X p := by
  constructor
  · rintro ⟨pre, k', n', post, e, h1, h2⟩
    cases pre with
    | nil => simp at e
    | cons y pre =>
      simp at e
      exact ⟨pre, k', n', post, e.2, h1, h2⟩
  · rintro ⟨pre, k', n', post, rfl, h1, h2⟩
    exact ⟨.cat id subs :: pre, k', n', post, rfl, h1, h2⟩

theorem inCat_layer (tgt : List Cls) (np : Option (List Cls)) (X : Parents K → Prop) (k : LKind) (n : K) (p : Path K) :
    InCat tgt np X (.layer k n :: p) ↔ InCat tgt np X p := by
  simp [InCat]

theorem inCat_cat (tgt : List Cls) (np : Option (List Cls)) (X : Parents K → Prop) (id : K)
    (subs : List (List (Path K))) (p : Path K) :
    InCat tgt np X (.cat id subs :: p) ↔ (∃ l ∈ subs, Occ tgt np X l) ∨ InCat tgt np X p := by
  constructor
  · rintro ⟨id', subs', hm, h⟩
    rcases List.mem_cons.1 hm with e | hm
    · injection e with _ e
      subst e
      exact .inl h
    · exact .inr ⟨id', subs', hm, h⟩
  · rintro (h | ⟨id', subs', hm, h⟩)
    · exact ⟨id, subs, by simp, h⟩
    · exact ⟨id', subs', by simp [hm], h⟩

theorem or_cat (a b c d : Prop) : (a ∨ b) ∨ c ∨ d ↔ a ∨ c ∨ b ∨ d := by tauto

theorem or_pos (a b c d e : Prop) (h : e) : (a ∨ b) ∨ c ∨ d ↔ a ∨ ((e ∧ b) ∨ c) ∨ d := by tauto

theorem or_neg (a b c d e : Prop) (h : ¬ e) : a ∨ c ∨ d ↔ a ∨ ((e ∧ b) ∨ c) ∨ d := by tauto

mutual

theorem read_node (tgt : List Cls) (np : Option (List Cls)) {X : Parents K → Prop} (hX : Reads X) :
    ∀ (x : PNode K) (id : K) (subs : List (List (Path K))), x = .cat id subs →
      (X (nodeParents tgt np x) ↔ ∃ l ∈ subs, Occ tgt np X l)
  | .layer _ _, _, _, h => by cases h
  | .cat id subs, _, _, h => by
    injection h with _ h
    subst h
    rw [nodeParents, read_subs tgt np hX subs []]
    simp [hX.nil]

theorem read_path (tgt : List Cls) (np : Option (List Cls)) {X : Parents K → Prop} (hX : Reads X) :
    ∀ (p : Path K) (d : Parents K), X (pathParents tgt np p d) ↔ X d ∨ OnPath tgt np X p ∨ InCat tgt np X p
  | [], d => by simp [pathParents, OnPath, InCat]
  | .cat id subs :: p, d => by
    have h1 := read_node tgt np hX (.cat id subs) id subs rfl
    rw [pathParents, read_path tgt np hX p]
    rw [hX.merge, h1, onPath_cat, inCat_cat]
    exact or_cat _ _ _ _
  | .layer k n :: p, d => by
    rw [pathParents, read_path tgt np hX p, onPath_layer, inCat_layer]
    by_cases h : tgt.any (isInst (Ref.layer k n)) = true
    · rw [if_pos h, hX.merge]
      exact or_pos _ _ _ _ _ ((any_iff _ _).1 h)
    · rw [if_neg h]
      exact or_neg _ _ _ _ _ fun e => h ((any_iff _ _).2 e)

theorem read_list (tgt : List Cls) (np : Option (List Cls)) {X : Parents K → Prop} (hX : Reads X) :
    ∀ (ps : List (Path K)) (d : Parents K), X (listParents tgt np ps d) ↔ X d ∨ Occ tgt np X ps
  | [], d => by simp [listParents, occ_nil]
  | p :: ps, d => by
    have h1 := read_path tgt np hX p []
    rw [listParents, read_list tgt np hX ps, hX.merge, h1, occ_cons]
    have := hX.nil
    tauto

theorem read_subs (tgt : List Cls) (np : Option (List Cls)) {X : Parents K → Prop} (hX : Reads X) :
    ∀ (ls : List (List (Path K))) (d : Parents K), X (subsParents tgt np ls d) ↔ X d ∨ ∃ l ∈ ls, Occ tgt np X l
  | [], d => by simp [subsParents]
  | l :: ls, d => by
    have h1 := read_list tgt np hX l []
    rw [subsParents, read_subs tgt np hX ls, hX.merge, h1]
    have := hX.nil
    simp only [List.mem_cons, exists_eq_or_imp]
    tauto

end

theorem mem_mergeOne_key (n m : K) (ps : List (Ref K)) : ∀ (d : Parents K),
    (∃ l, (m, l) ∈ mergeOne d n ps) ↔ (∃ l, (m, l) ∈ d) ∨ m = n
  | [] => by simp [mergeOne]
  | e :: d => by
    rw [mergeOne]
    by_cases h : e.1 = n
    · rw [if_pos h]
      obtain ⟨a, b⟩ := e
      subst h
      simp only [List.mem_cons, Prod.mk.injEq]
      constructor
      · rintro ⟨l, ⟨rfl, rfl⟩ | hl⟩
        · exact .inr rfl
        · exact .inl ⟨l, .inr hl⟩
      · rintro (⟨l, ⟨rfl, rfl⟩ | hl⟩ | rfl)
        · exact ⟨_, .inl ⟨rfl, rfl⟩⟩
        · exact ⟨l, .inr hl⟩
        · exact ⟨_, .inl ⟨rfl, rfl⟩⟩
    · rw [if_neg h]
      have := mem_mergeOne_key n m ps d
      simp only [List.mem_cons, exists_or, this]
      tauto

theorem mem_mergeOne_has (n m : K) (r : Ref K) (ps : List (Ref K)) : ∀ (d : Parents K),
    (∃ l, (m, l) ∈ mergeOne d n ps ∧ r ∈ l) ↔ (∃ l, (m, l) ∈ d ∧ r ∈ l) ∨ (m = n ∧ r ∈ ps)
  | [] => by
    simp only [mergeOne, List.mem_singleton, Prod.mk.injEq, List.not_mem_nil, false_and, exists_false, false_or]
    constructor
    · rintro ⟨l, ⟨rfl, rfl⟩, h⟩; exact ⟨rfl, h⟩
    · rintro ⟨rfl, h⟩; exact ⟨_, ⟨rfl, rfl⟩, h⟩
  | e :: d => by
    rw [mergeOne]
    by_cases h : e.1 = n
    · rw [if_pos h]
      obtain ⟨a, b⟩ := e
      subst h
      simp only [List.mem_cons, Prod.mk.injEq]
      constructor
      · rintro ⟨l, ⟨rfl, rfl⟩ | hl, hr⟩
        · rcases List.mem_append.1 (List.mem_dedup.1 hr) with h | h
          · exact .inl ⟨b, .inl ⟨rfl, rfl⟩, h⟩
          · exact .inr ⟨rfl, h⟩
        · exact .inl ⟨l, .inr hl, hr⟩
      · rintro (⟨l, ⟨rfl, rfl⟩ | hl, hr⟩ | ⟨rfl, hr⟩)
        · exact ⟨_, .inl ⟨rfl, rfl⟩, List.mem_dedup.2 (List.mem_append_left _ hr)⟩
        · exact ⟨l, .inr hl, hr⟩
        · exact ⟨_, .inl ⟨rfl, rfl⟩, List.mem_dedup.2 (List.mem_append_right _ hr)⟩
    · rw [if_neg h]
      have := mem_mergeOne_has n m r ps d
      simp only [List.mem_cons, or_and_right, exists_or, this]
      exact or_assoc.symm

theorem reads_of_one (X : Parents K → Prop) (h0 : ¬ X []) (Y : K → List (Ref K) → Prop)
    (h1 : ∀ d n ps, X (mergeOne d n ps) ↔ X d ∨ Y n ps) (h2 : ∀ e d, X (e :: d) ↔ Y e.1 e.2 ∨ X d) : Reads X := by
  refine ⟨h0, ?_⟩
  intro d e
  induction e generalizing d with
  | nil => simp [merge, h0]
  | cons e es ih =>
    have := ih (mergeOne d e.1 e.2)
    show X (merge (mergeOne d e.1 e.2) es) ↔ _
    rw [this, h1, h2]
    tauto

theorem reads_key (m : K) : Reads fun (d : Parents K) => ∃ l, (m, l) ∈ d :=
  reads_of_one _ (by simp) (fun n _ => m = n) (fun d n ps => mem_mergeOne_key n m ps d) (by
    rintro ⟨a, b⟩ d
    simp only [List.mem_cons, Prod.mk.injEq, exists_or]
    constructor
    · rintro (⟨l, rfl, rfl⟩ | h)
      · exact .inl rfl
      · exact .inr h
    · rintro (rfl | h)
      · exact .inl ⟨b, rfl, rfl⟩
      · exact .inr h)

theorem reads_has (m : K) (r : Ref K) : Reads fun (d : Parents K) => ∃ l, (m, l) ∈ d ∧ r ∈ l :=
  reads_of_one _ (by simp) (fun n ps => m = n ∧ r ∈ ps) (fun d n ps => mem_mergeOne_has n m r ps d) (by
    rintro ⟨a, b⟩ d
    simp only [List.mem_cons, Prod.mk.injEq, or_and_right, exists_or]
    constructor
    · rintro (⟨l, ⟨rfl, rfl⟩, hr⟩ | h)
      · exact .inl ⟨rfl, hr⟩
      · exact .inr h
    · rintro (⟨rfl, hr⟩ | h)
      · exact .inl ⟨b, ⟨rfl, rfl⟩, hr⟩
      · exact .inr h)

/-- Keys differ and no list has a repetition. -/
def Good (d : Parents K) : Prop := (d.map Prod.fst).Nodup ∧ ∀ e ∈ d, e.2.Nodup

theorem good_one {n : K} {ps : List (Ref K)} (hp : ps.Nodup) : ∀ (d : Parents K), Good d → Good (mergeOne d n ps)
  | [], _ => by simp [mergeOne, Good, hp]
  | e :: d, ⟨h1, h2⟩ => by
    rw [mergeOne]
    simp only [List.map_cons, List.nodup_cons] at h1
    by_cases h : e.1 = n
    · rw [if_pos h]
      refine ⟨by simpa [← h] using h1, ?_⟩
      intro f hf
      rcases List.mem_cons.1 hf with rfl | hf
      · exact List.nodup_dedup _
      · exact h2 f (by simp [hf])
    · rw [if_neg h]
      obtain ⟨g1, g2⟩ := good_one hp d ⟨h1.2, fun f hf => h2 f (by simp [hf])⟩
      refine ⟨?_, ?_⟩
      · simp only [List.map_cons, List.nodup_cons]
        refine ⟨?_, g1⟩
        intro hm
        obtain ⟨⟨a, l⟩, hf, he⟩ := List.mem_map.1 hm
        have he : a = e.1 := he
        subst he
        rcases (mem_mergeOne_key n e.1 ps d).1 ⟨l, hf⟩ with ⟨l', hl⟩ | e'
        · exact h1.1 (List.mem_map.2 ⟨_, hl, rfl⟩)
        · exact h e'
      · intro f hf
        rcases List.mem_cons.1 hf with rfl | hf
        · exact h2 f (by simp)
        · exact g2 f hf

theorem good_merge : ∀ (new d : Parents K), (∀ e ∈ new, e.2.Nodup) → Good d → Good (merge d new)
  | [], d, _, h => h
  | e :: new, d, hn, h => good_merge new (mergeOne d e.1 e.2) (fun f hf => hn f (by simp [hf])) (good_one (hn e (by simp)) d h)

theorem behind_nodup (np : Option (List Cls)) : ∀ (p : Path K), (behind np p).Nodup
  | [] => by simp [behind]
  | x :: p => by
    rw [behind]
    split
    · simp
    · exact behind_nodup np p

theorem good_nil : Good ([] : Parents K) := by simp [Good]

mutual

theorem good_node (tgt : List Cls) (np : Option (List Cls)) : ∀ (x : PNode K), Good (nodeParents tgt np x)
  | .layer _ _ => by rw [nodeParents]; exact good_nil
  | .cat _ subs => by rw [nodeParents]; exact good_subs tgt np subs [] good_nil

theorem good_path (tgt : List Cls) (np : Option (List Cls)) : ∀ (p : Path K) (d : Parents K), Good d →
    Good (pathParents tgt np p d)
  | [], d, h => by simpa [pathParents] using h
  | .cat id subs :: p, d, h => by
    have h1 := good_node tgt np (.cat id subs)
    rw [pathParents]
    exact good_path tgt np p _ (good_merge _ _ h1.2 h)
  | .layer k n :: p, d, h => by
    rw [pathParents]
    apply good_path tgt np p
    split
    · exact good_merge _ _ (by simp [behind_nodup]) h
    · exact h

theorem good_list (tgt : List Cls) (np : Option (List Cls)) : ∀ (ps : List (Path K)) (d : Parents K), Good d →
    Good (listParents tgt np ps d)
  | [], d, h => by simpa [listParents] using h
  | p :: ps, d, h => by
    have h1 := good_path tgt np p [] good_nil
    rw [listParents]
    exact good_list tgt np ps _ (good_merge _ _ h1.2 h)

theorem good_subs (tgt : List Cls) (np : Option (List Cls)) : ∀ (ls : List (List (Path K))) (d : Parents K), Good d →
    Good (subsParents tgt np ls d)
  | [], d, h => by simpa [subsParents] using h
  | l :: ls, d, h => by
    have h1 := good_list tgt np l [] good_nil
    rw [subsParents]
    exact good_subs tgt np ls _ (good_merge _ _ h1.2 h)

end

theorem common_iff (rs : List (List K)) (l : List K) : common rs = .ok l ↔ rs ≠ [] ∧ ∀ r ∈ rs, r = l := by
  cases rs with
  | nil => simp [common]
  | cons r rs =>
    rw [common]
    by_cases h : rs.all (· == r) = true
    · rw [if_pos h]
      have h' : ∀ x ∈ rs, x = r := by simpa using h
      constructor
      · intro e
        have e := Except.ok.inj e
        subst e
        exact ⟨by simp, by simpa using h'⟩
      · rintro ⟨_, h2⟩
        rw [h2 r (by simp)]
    · rw [if_neg h]
      constructor
      · intro e; cases e
      · rintro ⟨_, h2⟩
        exfalso
        apply h
        have := h2 r (by simp)
        subst this
        simpa using fun x hx => h2 x (by simp [hx])

theorem rootNameList_iff : ∀ (ps : List (Path K)) (rs : List (List K)),
    rootNameList ps = .ok rs ↔ ps.map rootNames = rs.map .ok
  | [], rs => by
    rw [rootNameList]
    constructor
    · intro h; cases h; rfl
    · intro h
      cases rs with
      | nil => rfl
      | cons r rs => simp at h
  | p :: ps, rs => by
    rw [rootNameList]
    cases hp : rootNames p with
    | error e =>
      constructor
      · intro h; cases h
      · intro h
        cases rs with
        | nil => simp at h
        | cons r rs => simp [hp] at h
    | ok r =>
      have ih := rootNameList_iff ps
      dsimp only
      cases hq : rootNameList ps with
      | error e =>
        constructor
        · intro h; cases h
        · intro h
          cases rs with
          | nil => simp at h
          | cons r' rs =>
            simp only [List.map_cons, List.cons.injEq] at h
            have := (ih rs).2 h.2
            rw [hq] at this
            cases this
      | ok rs' =>
        have h1 := (ih rs').1 hq
        constructor
        · intro h; cases h; simp [hp, h1]
        · intro h
          cases rs with
          | nil => simp at h
          | cons r' rs =>
            simp only [List.map_cons, List.cons.injEq] at h
            have h2 := (ih rs).2 h.2
            rw [hq] at h2
            have h2 := Except.ok.inj h2
            rw [hp] at h
            have h3 := Except.ok.inj h.1
            rw [h2, h3]

theorem listRoot_iff (ps : List (Path K)) (l : List K) :
    listRootNames ps = .ok l ↔ ps ≠ [] ∧ ∀ p ∈ ps, rootNames p = .ok l := by
  rw [listRootNames]
  cases h : rootNameList ps with
  | error e =>
    constructor
    · intro h; cases h
    · rintro ⟨_, h2⟩
      exfalso
      have : rootNameList ps = .ok (ps.map fun _ => l) := by
        rw [rootNameList_iff, List.map_map]
        exact List.map_congr_left h2
      rw [h] at this
      cases this
  | ok rs =>
    dsimp only
    rw [common_iff]
    have h1 := (rootNameList_iff ps rs).1 h
    constructor
    · rintro ⟨h2, h3⟩
      refine ⟨by rintro rfl; simp at h1; exact h2 h1, ?_⟩
      intro p hp
      have := List.mem_map_of_mem (f := rootNames) hp
      rw [h1] at this
      obtain ⟨r, hr, e⟩ := List.mem_map.1 this
      rw [← e, h3 r hr]
    · rintro ⟨h2, h3⟩
      refine ⟨by rintro rfl; simp at h1; exact h2 h1, ?_⟩
      intro r hr
      have := List.mem_map_of_mem (f := (Except.ok : List K → Except Err (List K))) hr
      rw [← h1] at this
      obtain ⟨p, hp, e⟩ := List.mem_map.1 this
      rw [h3 p hp] at e
      exact (Except.ok.inj e).symm

theorem subsNames_cons (l : List (Path K)) (ls : List (List (Path K))) :
    namesOfSubs (l :: ls) = match listRootNames l with
      | .error e => .error e
      | .ok r => match namesOfSubs ls with
        | .error e => .error e
        | .ok more => .ok (r ++ more) := by
  rw [namesOfSubs, listRootNames]
  cases rootNameList l <;> rfl

theorem subsNames_iff : ∀ (ls : List (List (Path K))) (names : List K),
    namesOfSubs ls = .ok names ↔ ∃ parts : List (List K), ls.map listRootNames = parts.map .ok ∧ names = parts.flatten
  | [], names => by
    rw [namesOfSubs]
    constructor
    · intro h; cases h; exact ⟨[], rfl, rfl⟩
    · rintro ⟨parts, h, rfl⟩
      cases parts with
      | nil => rfl
      | cons r rs => simp at h
  | l :: ls, names => by
    have ih := subsNames_iff ls
    rw [subsNames_cons]
    constructor
    · intro h
      cases h1 : listRootNames l with
      | error e => rw [h1] at h; cases h
      | ok r =>
        rw [h1] at h
        dsimp only at h
        cases h2 : namesOfSubs ls with
        | error e => rw [h2] at h; cases h
        | ok more =>
          rw [h2] at h
          cases h
          obtain ⟨parts, e1, rfl⟩ := (ih more).1 h2
          exact ⟨r :: parts, by simp [h1, e1], by simp⟩
    · rintro ⟨parts, h, rfl⟩
      cases parts with
      | nil => simp at h
      | cons r parts =>
        simp only [List.map_cons, List.cons.injEq] at h
        have := (ih parts.flatten).2 ⟨parts, h.2, rfl⟩
        rw [h.1, this]
        rfl

theorem plainAll_mem : ∀ {ps : List (G K)} {p : G K}, plainAll ps = true → p ∈ ps → plain p = true
  | [], _, _, h => by simp at h
  | q :: ps, p, h, hp => by
    simp only [plainAll, Bool.and_eq_true] at h
    rcases List.mem_cons.1 hp with rfl | hp
    · exact h.1
    · exact plainAll_mem h.2 hp

/-- Some listed path has the first layer with the second as the nearest stop behind it. -/
def ListedN (stop : LKind → Bool) (res : List (Path K)) (e : (LKind × K) × (LKind × K)) : Prop :=
  ∃ path ∈ res, ∃ pre post, path = pre ++ PNode.layer e.1.1 e.1.2 :: post ∧ Nearest stop post e.2

/-- A visited convolution has all pairs below it listed. -/
def DoneN (stop : LKind → Bool) (T : K → Option (Bool × G K)) (res : List (Path K)) (m : K) : Prop :=
  ∀ dw p, T m = some (dw, p) → ∀ e ∈ nears stop (.conv dw m p), ListedN stop res e

/-- Visited convolutions are done, or lie above what is being traced. -/
def VisN (stop : LKind → Bool) (shared : K → Bool) (T : K → Option (Bool × G K)) (s : S K) (size : Nat) : Prop :=
  ∀ m ∈ s.vis, shared m = false → DoneN stop T s.res m ∨ ∀ dw p, T m = some (dw, p) → size ≤ sizeOf p

theorem ListedN.mono {stop : LKind → Bool} {r1 r2 : List (Path K)} {e} (h : ListedN stop r1 e) : ListedN stop (r1 ++ r2) e := by
  obtain ⟨q, hq, h⟩ := h
  exact ⟨q, List.mem_append.2 (Or.inl hq), h⟩

mutual

theorem trace_near {stop : LKind → Bool} (hs1 : stop .conv = true) (hs2 : stop .dwConv = true) (shared : K → Bool) : ∀ (g : G K) (s : S K), plain g = true → grounded g = true →
    ∃ new, Adds s (trace shared g s) new ∧ (allRoutes g ≠ [] → new ≠ []) ∧
      ∀ b ∈ near stop g, ∃ w ∈ new, Nearest stop w b
  | .null, s, _, _ => ⟨[[]], ⟨by simp [trace], by simp [trace]⟩, by simp, by simp [near]⟩
  | .conv dw n p, s, h, hg => by
    simp only [plain] at h
    simp only [grounded, Bool.and_eq_true, Bool.not_eq_true', List.isEmpty_eq_false_iff] at hg
    simp only [trace]
    split
    · refine ⟨[[.layer (if dw then .dwConv else .conv) n]], ⟨by simp, by simp⟩, by simp, ?_⟩
      intro b hb
      rw [near, if_pos (by cases dw <;> assumption), List.mem_singleton] at hb
      subst hb
      exact ⟨_, by simp, [], [], rfl, by cases dw <;> assumption, by simp⟩
    · obtain ⟨new, ⟨h1, h1'⟩, h2, _⟩ := trace_near hs1 hs2 shared p
        ⟨s.cur ++ [.layer (if dw then .dwConv else .conv) n], s.res, n :: s.vis⟩ h hg.2
      refine ⟨new.map (.layer (if dw then .dwConv else .conv) n :: ·), ⟨by simp [h1], ?_⟩, ?_, ?_⟩
      · simp only [h1']; simp [Function.comp_def]
      · intro _; simpa using h2 hg.1
      · intro b hb
        rw [near, if_pos (by cases dw <;> assumption), List.mem_singleton] at hb
        subst hb
        obtain ⟨w, hw⟩ := List.exists_mem_of_ne_nil _ (h2 hg.1)
        exact ⟨_, List.mem_map.2 ⟨w, hw, rfl⟩, [], w, rfl, by cases dw <;> assumption, by simp⟩
  | .norm n p, s, h, hg => by
    simp only [plain] at h
    simp only [grounded, Bool.and_eq_true, Bool.not_eq_true', List.isEmpty_eq_false_iff] at hg
    simp only [trace]
    obtain ⟨new, ⟨h1, h1'⟩, h2, h3⟩ := trace_near hs1 hs2 shared p
        ⟨s.cur ++ [.layer .norm n], s.res, n :: s.vis⟩ h hg.2
    refine ⟨new.map (.layer .norm n :: ·), ⟨by simp [h1], ?_⟩, ?_, ?_⟩
    · simp only [h1']; simp [Function.comp_def]
    · intro _; simpa using h2 hg.1
    · intro b hb
      rw [near] at hb
      by_cases hn : stop .norm = true
      · rw [if_pos hn, List.mem_singleton] at hb
        subst hb
        obtain ⟨w, hw⟩ := List.exists_mem_of_ne_nil _ (h2 hg.1)
        exact ⟨_, List.mem_map.2 ⟨w, hw, rfl⟩, [], w, rfl, hn, by simp⟩
      · rw [if_neg hn] at hb
        obtain ⟨w, hw, pre, post, rfl, hk, hp⟩ := h3 b hb
        refine ⟨_, List.mem_map.2 ⟨_, hw, rfl⟩, .layer .norm n :: pre, post, rfl, hk, ?_⟩
        intro x hx
        rcases List.mem_cons.1 hx with rfl | hx
        · exact ⟨.norm, n, rfl, by simpa using hn⟩
        · exact hp x hx
  | .linear n p, s, h, _ => by simp [plain] at h
  | .cat _ _, s, h, _ => by simp [plain] at h
  | .other ps, s, h, hg => by
    simp only [plain] at h
    simp only [grounded] at hg
    simpa only [trace, near, allRoutes] using traceAll_near hs1 hs2 shared ps s h hg

theorem traceAll_near {stop : LKind → Bool} (hs1 : stop .conv = true) (hs2 : stop .dwConv = true) (shared : K → Bool) : ∀ (ps : List (G K)) (s : S K), plainAll ps = true → groundedAll ps = true →
    ∃ new, Adds s (traceAll shared ps s) new ∧ (routesOfAll ps ≠ [] → new ≠ []) ∧
      ∀ b ∈ nearAll stop ps, ∃ w ∈ new, Nearest stop w b
  | [], s, _, _ => ⟨[], ⟨by simp [traceAll], by simp [traceAll]⟩, by simp [routesOfAll], by simp [nearAll]⟩
  | p :: ps, s, h, hg => by
    simp only [plainAll, Bool.and_eq_true] at h
    simp only [groundedAll, Bool.and_eq_true] at hg
    obtain ⟨n1, ⟨h1, h1'⟩, h2, h3⟩ := trace_near hs1 hs2 shared p s h.1 hg.1
    obtain ⟨n2, ⟨h4, h4'⟩, h5, h6⟩ := traceAll_near hs1 hs2 shared ps (trace shared p s) h.2 hg.2
    simp only [traceAll]
    refine ⟨n1 ++ n2, ⟨by rw [h4, h1], ?_⟩, ?_, ?_⟩
    · rw [h4', h1', h1]; simp
    · intro hne
      simp only [routesOfAll, ne_eq, List.append_eq_nil_iff, not_and_or] at hne ⊢
      exact hne.imp h2 h5
    · intro b hb
      simp only [nearAll, List.mem_append] at hb
      rcases hb with hb | hb
      · obtain ⟨w, hw, hw'⟩ := h3 b hb
        exact ⟨w, by simp [hw], hw'⟩
      · obtain ⟨w, hw, hw'⟩ := h6 b hb
        exact ⟨w, by simp [hw], hw'⟩

end

theorem DoneN.mono {stop : LKind → Bool} {T : K → Option (Bool × G K)} {r1 r2 : List (Path K)} {m : K} (h : DoneN stop T r1 m) :
    DoneN stop T (r1 ++ r2) m := fun dw p hT e he => (h dw p hT e he).mono

mutual

theorem trace_nears {stop : LKind → Bool} (hs1 : stop .conv = true) (hs2 : stop .dwConv = true) (shared : K → Bool) (T : K → Option (Bool × G K)) : ∀ (g : G K) (s : S K),
    plain g = true → grounded g = true → SameBelow shared T g → VisN stop shared T s (sizeOf g) →
    (∀ e ∈ nears stop g, ListedN stop (trace shared g s).res e) ∧
    ∀ m ∈ (trace shared g s).vis, shared m = false → DoneN stop T (trace shared g s).res m ∨ m ∈ s.vis
  | .null, s, _, _, _, _ => ⟨by simp [nears], fun m hm _ => Or.inr (by simpa [trace] using hm)⟩
  | .conv dw n p, s, h, hg, hT, hv => by
    simp only [plain] at h
    have hg' := hg
    simp only [grounded, Bool.and_eq_true, Bool.not_eq_true', List.isEmpty_eq_false_iff] at hg'
    simp only [SameBelow] at hT
    by_cases hc : n ∈ s.vis ∧ shared n = false
    · have hTn := hT.1 hc.2
      have hdone : DoneN stop T s.res n := by
        rcases hv n hc.1 hc.2 with h' | h'
        · exact h'
        · have := h' dw p hTn
          simp at this
      simp only [trace, if_pos hc]
      exact ⟨fun e he => (hdone dw p hTn e he).mono, fun m hm _ => Or.inr hm⟩
    · obtain ⟨new, ⟨h1, h1'⟩, _, h3⟩ := trace_near hs1 hs2 shared p
        ⟨s.cur ++ [.layer (if dw then .dwConv else .conv) n], s.res, n :: s.vis⟩ h hg'.2
      obtain ⟨h4, h5⟩ := trace_nears hs1 hs2 shared T p
        ⟨s.cur ++ [.layer (if dw then .dwConv else .conv) n], s.res, n :: s.vis⟩ h hg'.2 hT.2 (by
          intro m hm hs
          rcases List.mem_cons.1 hm with rfl | hm
          · right
            intro dw' p' hT'
            rw [hT.1 hs] at hT'
            simp at hT'
            simp [hT'.2]
          · rcases hv m hm hs with h' | h'
            · exact Or.inl h'
            · right
              intro dw' p' hT'
              have := h' dw' p' hT'
              simp at this
              omega)
      simp only [trace, if_neg hc]
      have hall : ∀ e ∈ nears stop (.conv dw n p), ListedN stop (trace shared p
          ⟨s.cur ++ [.layer (if dw then .dwConv else .conv) n], s.res, n :: s.vis⟩).res e := by
        intro e he
        simp only [nears, List.mem_append, List.mem_map] at he
        rcases he with ⟨b, hb, rfl⟩ | he
        · obtain ⟨w, hw, hf⟩ := h3 b hb
          rw [h1']
          exact ⟨_, List.mem_append.2 (Or.inr (List.mem_map.2 ⟨_, hw, rfl⟩)), s.cur, w, by simp, hf⟩
        · exact h4 e he
      refine ⟨hall, ?_⟩
      intro m hm hs
      rcases h5 m hm hs with h' | h'
      · exact Or.inl h'
      · rcases List.mem_cons.1 h' with rfl | h'
        · left
          intro dw' p' hT'
          rw [hT.1 hs] at hT'
          simp at hT'
          obtain ⟨rfl, rfl⟩ := hT'
          exact hall
        · exact Or.inr h'
  | .norm n p, s, h, hg, hT, hv => by
    simp only [plain] at h
    have hg' := hg
    simp only [grounded, Bool.and_eq_true, Bool.not_eq_true', List.isEmpty_eq_false_iff] at hg'
    simp only [SameBelow] at hT
    obtain ⟨new, ⟨h1, h1'⟩, _, h3⟩ := trace_near hs1 hs2 shared p
      ⟨s.cur ++ [.layer .norm n], s.res, n :: s.vis⟩ h hg'.2
    obtain ⟨h4, h5⟩ := trace_nears hs1 hs2 shared T p
      ⟨s.cur ++ [.layer .norm n], s.res, n :: s.vis⟩ h hg'.2 hT.2 (by
        intro m hm hs
        rcases List.mem_cons.1 hm with rfl | hm
        · right
          intro dw' p' hT'
          rw [hT.1] at hT'
          simp at hT'
        · rcases hv m hm hs with h' | h'
          · exact Or.inl h'
          · right
            intro dw' p' hT'
            have := h' dw' p' hT'
            simp at this
            omega)
    simp only [trace]
    refine ⟨?_, ?_⟩
    · intro e he
      simp only [nears, List.mem_append, List.mem_map] at he
      rcases he with ⟨b, hb, rfl⟩ | he
      · obtain ⟨w, hw, hf⟩ := h3 b hb
        rw [h1']
        exact ⟨_, List.mem_append.2 (Or.inr (List.mem_map.2 ⟨_, hw, rfl⟩)), s.cur, w, by simp, hf⟩
      · exact h4 e he
    · intro m hm hs
      rcases h5 m hm hs with h' | h'
      · exact Or.inl h'
      · rcases List.mem_cons.1 h' with rfl | h'
        · left
          intro dw' p' hT'
          rw [hT.1] at hT'
          simp at hT'
        · exact Or.inr h'
  | .linear n p, s, h, _, _, _ => by simp [plain] at h
  | .cat _ _, s, h, _, _, _ => by simp [plain] at h
  | .other ps, s, h, hg, hT, hv => by
    simp only [plain] at h
    simp only [grounded] at hg
    simp only [SameBelow] at hT
    have := traceAll_nears hs1 hs2 shared T ps s h hg hT (by
      intro m hm hs
      rcases hv m hm hs with h' | h'
      · exact Or.inl h'
      · right
        intro dw' p' hT'
        have := h' dw' p' hT'
        simp at this
        omega)
    simpa only [trace, nears] using this

theorem traceAll_nears {stop : LKind → Bool} (hs1 : stop .conv = true) (hs2 : stop .dwConv = true) (shared : K → Bool) (T : K → Option (Bool × G K)) : ∀ (ps : List (G K)) (s : S K),
    plainAll ps = true → groundedAll ps = true → SameBelowAll shared T ps → VisN stop shared T s (sizeOf ps) →
    (∀ e ∈ nearsAll stop ps, ListedN stop (traceAll shared ps s).res e) ∧
    ∀ m ∈ (traceAll shared ps s).vis, shared m = false → DoneN stop T (traceAll shared ps s).res m ∨ m ∈ s.vis
  | [], s, _, _, _, _ => ⟨by simp [nearsAll], fun m hm _ => Or.inr (by simpa [traceAll] using hm)⟩
  | p :: ps, s, h, hg, hT, hv => by
    simp only [plainAll, Bool.and_eq_true] at h
    simp only [groundedAll, Bool.and_eq_true] at hg
    simp only [SameBelowAll] at hT
    obtain ⟨n1, ⟨h0, h0'⟩, _⟩ := trace_near hs1 hs2 shared p s h.1 hg.1
    obtain ⟨n2, ⟨h6, h6'⟩, _⟩ := traceAll_near hs1 hs2 shared ps (trace shared p s) h.2 hg.2
    obtain ⟨h1, h2⟩ := trace_nears hs1 hs2 shared T p s h.1 hg.1 hT.1 (by
      intro m hm hs
      rcases hv m hm hs with h' | h'
      · exact Or.inl h'
      · right
        intro dw' p' hT'
        have := h' dw' p' hT'
        simp at this
        omega)
    obtain ⟨h3, h4⟩ := traceAll_nears hs1 hs2 shared T ps (trace shared p s) h.2 hg.2 hT.2 (by
      intro m hm hs
      rcases h2 m hm hs with h' | h'
      · exact Or.inl h'
      · rcases hv m h' hs with h' | h'
        · left; rw [h0']; exact h'.mono
        · right
          intro dw' p' hT'
          have := h' dw' p' hT'
          simp at this
          omega)
    simp only [traceAll]
    refine ⟨?_, ?_⟩
    · intro e he
      simp only [nearsAll, List.mem_append] at he
      rcases he with he | he
      · rw [h6']; exact (h1 e he).mono
      · exact h3 e he
    · intro m hm hs
      rcases h4 m hm hs with h' | h'
      · exact Or.inl h'
      · rcases h2 m h' hs with h' | h'
        · left; rw [h6']; exact h'.mono
        · exact Or.inr h'

end

theorem nearAll_mem {stop : LKind → Bool} : ∀ {ps : List (G K)} {p : G K} {b : LKind × K}, p ∈ ps → b ∈ near stop p →
    b ∈ nearAll stop ps
  | [], _, _, h, _ => by simp at h
  | q :: ps, p, b, hp, hb => by
    rw [nearAll]
    rcases List.mem_cons.1 hp with rfl | hp
    · exact List.mem_append_left _ hb
    · exact List.mem_append_right _ (nearAll_mem hp hb)

theorem nearsAll_mem {stop : LKind → Bool} : ∀ {ps : List (G K)} {p : G K} {b : (LKind × K) × (LKind × K)}, p ∈ ps →
    b ∈ nears stop p → b ∈ nearsAll stop ps
  | [], _, _, h, _ => by simp at h
  | q :: ps, p, b, hp, hb => by
    rw [nearsAll]
    rcases List.mem_cons.1 hp with rfl | hp
    · exact List.mem_append_left _ hb
    · exact List.mem_append_right _ (nearsAll_mem hp hb)

/-- What a way down tells about the graph. -/
structure Fits (stop : LKind → Bool) (g : G K) (w : Path K) : Prop where
  layers : ∀ x ∈ w, ∃ k n, x = .layer k n
  first : ∀ b, Nearest stop w b → b ∈ near stop g
  pairs : ∀ pre a an b post, w = pre ++ .layer a an :: post → Nearest stop post b → ((a, an), b) ∈ nears stop g

theorem fits_cons {stop : LKind → Bool} {g p : G K} {k : LKind} {n : K} {w : Path K} (h : Fits stop p w)
    (hh : near stop g = if stop k then [(k, n)] else near stop p)
    (he : nears stop g = (near stop p).map (fun b => ((k, n), b)) ++ nears stop p) : Fits stop g (.layer k n :: w) := by
  refine ⟨?_, ?_, ?_⟩
  · intro x hx
    rcases List.mem_cons.1 hx with rfl | hx
    · exact ⟨k, n, rfl⟩
    · exact h.layers x hx
  · rintro b ⟨pre, post, e, hs, hp⟩
    rw [hh]
    cases pre with
    | nil =>
      simp at e
      obtain ⟨⟨rfl, rfl⟩, _⟩ := e
      simp [hs]
    | cons y pre =>
      simp at e
      obtain ⟨rfl, rfl⟩ := e
      obtain ⟨k', n', e', hk⟩ := hp _ (List.mem_cons_self ..)
      cases e'
      rw [if_neg (by simp [hk])]
      exact h.first b ⟨pre, post, rfl, hs, fun x hx => hp x (by simp [hx])⟩
  · intro pre a an b post e hn
    rw [he]
    cases pre with
    | nil =>
      simp at e
      obtain ⟨⟨rfl, rfl⟩, rfl⟩ := e
      exact List.mem_append_left _ (List.mem_map.2 ⟨b, h.first b hn, rfl⟩)
    | cons y pre =>
      simp at e
      exact List.mem_append_right _ (h.pairs pre a an b post e.2 hn)

theorem walk_fits (stop : LKind → Bool) {g : G K} {w : Path K} (h : Walk g w) : plain g = true → Fits stop g w := by
  induction h with
  | stop g => intro _; exact ⟨by simp, by rintro b ⟨pre, post, e, _⟩; simp at e, by simp⟩
  | conv dw n p w _ ih =>
    intro hp
    rw [plain] at hp
    exact fits_cons (ih hp) (by rw [near]) (by rw [nears])
  | norm n p w _ ih =>
    intro hp
    rw [plain] at hp
    exact fits_cons (ih hp) (by rw [near]) (by rw [nears])
  | linear n p w _ ih => intro hp; simp [plain] at hp
  | cat id ps subs _ _ _ => intro hp; simp [plain] at hp
  | other ps p w hm _ ih =>
    intro hp
    rw [plain] at hp
    have := ih (plainAll_mem hp hm)
    refine ⟨this.layers, ?_, ?_⟩
    · intro b hb
      rw [near]
      exact nearAll_mem hm (this.first b hb)
    · intro pre a an b post e hn
      rw [nears]
      exact nearsAll_mem hm (this.pairs pre a an b post e hn)

theorem stop_iff {np : Option (List Cls)} {stop : LKind → Bool} (hs : Stopping np stop) (k : LKind) (n : K) :
    stop k = true ↔ ∀ cs, np = some cs → ∃ c ∈ cs, Is (Ref.layer k n) c := by
  rw [hs k]
  refine forall_congr' fun cs => imp_congr_right fun _ => ?_
  constructor
  · rintro (h | h)
    · exact ⟨_, h, .node _⟩
    · exact ⟨_, h, .layer k n⟩
  · rintro ⟨c, hc, h⟩
    cases h with
    | node => exact .inl hc
    | layer => exact .inr hc

end Verif.Paths
