import Verif.Spec.MutatorCfg

/-! Helper lemmas for `Verif/Props/MutatorCfg.lean`. -/

namespace Verif.MutatorCfg
open Verif

variable {C : Type}

theorem lookup_append (a b : Args) (k : String) : (a ++ b).lookup k = (a.lookup k).or (b.lookup k) := by
  induction a with
  | nil => simp
  | cons p a ih =>
    obtain ⟨x, v⟩ := p
    rw [List.cons_append, List.lookup_cons, List.lookup_cons]
    by_cases h : k == x
    · rw [h]; rfl
    · rw [Bool.not_eq_true] at h
      rw [h]; exact ih

theorem lookup_filter (f : String → Bool) (a : Args) (k : String) : (a.filter fun p => f p.1).lookup k = if f k then a.lookup k else none := by
  induction a with
  | nil => simp
  | cons p a ih =>
    obtain ⟨x, v⟩ := p
    by_cases h : k = x
    · subst h
      by_cases hf : f k
      · rw [List.filter_cons_of_pos (by exact hf), if_pos hf]; simp
      · rw [List.filter_cons_of_neg (by exact hf), ih, if_neg hf, if_neg hf]
    · have hb : (k == x) = false := by simpa using h
      by_cases hf : f x
      · rw [List.filter_cons_of_pos (by exact hf), List.lookup_cons, hb, ih, List.lookup_cons, hb]
      · rw [List.filter_cons_of_neg (by exact hf), ih, List.lookup_cons, hb]

theorem lookup_merge (d u : Args) (k : String) : (merge d u).lookup k = (u.lookup k).or (d.lookup k) := by
  unfold merge
  rw [lookup_append, lookup_filter (fun k => (u.lookup k).isNone)]
  cases h : u.lookup k <;> simp

theorem lookup_put (a : Args) (k k' : String) (v : Val) : (put a k v).lookup k' = if k' = k then some v else a.lookup k' := by
  unfold put
  rw [lookup_merge, List.lookup_cons]
  by_cases h : k' = k
  · simp [h]
  · have hb : (k' == k) = false := by simpa using h
    rw [hb, if_neg h]; rfl

theorem merge_nil (d : Args) : merge d [] = d := by
  unfold merge; simp

theorem merge_all {d u : Args} (h : ∀ p ∈ d, (u.lookup p.1).isSome) : merge d u = u := by
  unfold merge
  rw [List.filter_eq_nil_iff.2]
  · rfl
  · intro p hp
    have := h p hp
    cases hu : u.lookup p.1 <;> simp_all

theorem lookup_isSome_of_mem (a : List (String × Val)) {p : String × Val} (h : p ∈ a) : (a.lookup p.1).isSome := by
  induction a with
  | nil => simp at h
  | cons q a ih =>
    obtain ⟨x, v⟩ := q
    rw [List.lookup_cons]
    cases hb : p.1 == x
    · rcases List.mem_cons.1 h with rfl | h
      · simp at hb
      · exact ih h
    · rfl

theorem mem_of_lookup {V : Type} {a : List (String × V)} {k : String} {v : V} (h : a.lookup k = some v) : (k, v) ∈ a := by
  induction a with
  | nil => simp at h
  | cons q a ih =>
    obtain ⟨x, w⟩ := q
    rw [List.lookup_cons] at h
    cases hb : k == x
    · rw [hb] at h; exact List.mem_cons_of_mem _ (ih h)
    · rw [hb] at h
      have : k = x := by simpa using hb
      cases h; subst this; exact List.mem_cons_self

theorem lookup_of_mem {V : Type} {a : List (String × V)} (hn : (a.map Prod.fst).Nodup) {k : String} {v : V} (h : (k, v) ∈ a) :
    a.lookup k = some v := by
  induction a with
  | nil => simp at h
  | cons q a ih =>
    obtain ⟨x, w⟩ := q
    rw [List.map_cons, List.nodup_cons] at hn
    rw [List.lookup_cons]
    rcases List.mem_cons.1 h with h2 | h2
    · cases h2; simp
    · have hne : k ≠ x := by
        rintro rfl
        exact hn.1 (List.mem_map.2 ⟨_, h2, rfl⟩)
      have hb : (k == x) = false := by simpa using hne
      rw [hb]; exact ih hn.2 h2

theorem any_unknown_congr {a b : Args} (h : ∀ k, a.lookup k = b.lookup k) (f : String → Bool) (ha : (a.any fun p => f p.1) = true) :
    (b.any fun p => f p.1) = true := by
  rw [List.any_eq_true] at ha ⊢
  obtain ⟨p, hp, hf⟩ := ha
  have h1 := lookup_isSome_of_mem a hp
  rw [h, Option.isSome_iff_exists] at h1
  obtain ⟨v, hv⟩ := h1
  exact ⟨(p.1, v), mem_of_lookup hv, hf⟩

theorem signature_congr (ps : List (String × Option Val)) {a b : Args} (h : ∀ k, a.lookup k = b.lookup k) : signature ps a = signature ps b := by
  unfold signature
  have e : (a.any fun p => (ps.lookup p.1).isNone) = (b.any fun p => (ps.lookup p.1).isNone) := by
    rw [Bool.eq_iff_iff]
    exact ⟨any_unknown_congr h (fun k => (ps.lookup k).isNone), any_unknown_congr (fun k => (h k).symm) (fun k => (ps.lookup k).isNone)⟩
  rw [e]
  simp only [h]

theorem lookup_filterMap (ps : List (String × Option Val)) (hn : (ps.map Prod.fst).Nodup) (g : String → Option Val) (k : String) :
    (ps.filterMap fun p => ((g p.1).or p.2).map fun v => (p.1, v)).lookup k = match ps.lookup k with
      | none => none
      | some d => (g k).or d := by
  induction ps with
  | nil => rfl
  | cons p ps ih =>
    obtain ⟨x, d⟩ := p
    rw [List.map_cons, List.nodup_cons] at hn
    rw [List.filterMap_cons, List.lookup_cons]
    by_cases h : k = x
    · subst h
      have hmiss : ps.lookup k = none := by
        cases hl : ps.lookup k with
        | none => rfl
        | some v => exact absurd (List.mem_map.2 ⟨_, mem_of_lookup hl, rfl⟩) hn.1
      simp only [BEq.rfl]
      cases hv : (g k).or d with
      | none => simp only [Option.map_none]; rw [ih hn.2, hmiss]
      | some v => simp only [Option.map_some]; rw [List.lookup_cons]; simp
    · have hb : (k == x) = false := by simpa using h
      rw [hb]
      cases hv : (g x).or d with
      | none => simp only [hv, Option.map_none]; exact ih hn.2
      | some v => simp only [hv, Option.map_some]; rw [List.lookup_cons, hb]; exact ih hn.2

theorem signature_lookup {ps : List (String × Option Val)} (hn : (ps.map Prod.fst).Nodup) {a b : Args} (h : signature ps a = .ok b)
    (k : String) {d : Option Val} (hk : ps.lookup k = some d) : b.lookup k = (a.lookup k).or d := by
  unfold signature at h
  by_cases h1 : (a.any fun p => (ps.lookup p.1).isNone)
  · rw [if_pos h1] at h; cases h
  · rw [if_neg h1] at h
    by_cases h2 : (ps.any fun p => ((a.lookup p.1).or p.2).isNone)
    · rw [if_pos h2] at h; cases h
    · rw [if_neg h2] at h
      cases h
      rw [lookup_filterMap ps hn (fun k => a.lookup k), hk]

theorem signature_closed {ps : List (String × Option Val)} (hn : (ps.map Prod.fst).Nodup) {a b : Args} (h : signature ps a = .ok b) :
    signature ps b = .ok b := by
  have hl := fun k d hk => signature_lookup hn h k (d := d) hk
  unfold signature at h
  by_cases h1 : (a.any fun p => (ps.lookup p.1).isNone)
  · rw [if_pos h1] at h; cases h
  rw [if_neg h1] at h
  by_cases h2 : (ps.any fun p => ((a.lookup p.1).or p.2).isNone)
  · rw [if_pos h2] at h; cases h
  rw [if_neg h2] at h
  injection h with h
  have hsame : ∀ p ∈ ps, (b.lookup p.1).or p.2 = (a.lookup p.1).or p.2 := by
    intro p hp
    rw [hl p.1 p.2 (lookup_of_mem hn hp)]
    cases a.lookup p.1 <;> cases p.2 <;> rfl
  unfold signature
  rw [if_neg, if_neg]
  · congr 1
    rw [← h]
    apply List.filterMap_congr
    intro p hp
    rw [h, hsame p hp]
  · intro h3
    apply h2
    rw [List.any_eq_true] at h3 ⊢
    obtain ⟨p, hp, hf⟩ := h3
    exact ⟨p, hp, by rw [← hsame p hp]; exact hf⟩
  · intro h3
    rw [List.any_eq_true] at h3
    obtain ⟨p, hp, hf⟩ := h3
    rw [← h, List.mem_filterMap] at hp
    obtain ⟨q, hq, hqe⟩ := hp
    cases hv : (a.lookup q.1).or q.2 with
    | none => rw [hv] at hqe; cases hqe
    | some v =>
      rw [hv] at hqe
      injection hqe with hqe
      subst hqe
      have := lookup_of_mem hn (k := q.1) (v := q.2) hq
      simp only [this] at hf
      cases hf

theorem signature_lawful {ps : List (String × Option Val)} (hn : (ps.map Prod.fst).Nodup) (hnum : ps.lookup "num_channels" = some none)
    (cls : Cls C) (hc : cls.complete = signature ps) : Lawful cls := by
  refine ⟨fun a b h => ?_, fun a b h => ?_, fun a b h => ?_⟩
  · rw [hc]; exact signature_congr ps h
  · rw [hc] at h ⊢; exact signature_closed hn h
  · rw [hc] at h
    rw [signature_lookup hn h "num_channels" hnum]
    simp

theorem fillAll_template (num : Option Val) (out : Bool) : ∀ (l acc : List Chan), (acc ++ l).Nodup → (∀ c ∈ l, c.out = out) →
    fillAll num out (l.map Chan.template) acc = .ok (acc ++ l)
  | [], acc, _, _ => by simp [fillAll]
  | c :: l, acc, hn, ho => by
    rw [List.map_cons, fillAll]
    have e : fill num out c.template = .ok c := by
      have := ho c List.mem_cons_self
      obtain ⟨n, s, e, o⟩ := c
      subst this
      rfl
    rw [e]
    have hnot : c ∉ acc := by
      intro hc
      rw [List.nodup_append] at hn
      exact hn.2.2 c hc c List.mem_cons_self rfl
    have : addChan acc c = acc ++ [c] := if_neg hnot
    dsimp only
    rw [this, fillAll_template num out l (acc ++ [c]) (by simpa using hn) fun c' hc' => ho c' (List.mem_cons_of_mem _ hc')]
    simp

theorem fromCfg_all {cls : Cls C} {d : Args} {whole : UnitsCfg C} {same : Bool} {traced : Option (List (String × Traced))}
    {g : Unit' C → UnitCfg C} {f : Unit' C → Unit' C} :
    ∀ {us : List (Unit' C)}, (∀ u ∈ us, fromCfgOne cls d whole same traced u.fullName (g u) = .ok (f u)) →
      fromCfg cls d whole same traced (us.map fun u => (u.fullName, g u)) = .ok (us.map f)
  | [], _ => rfl
  | u :: us, h => by
    rw [List.map_cons, fromCfg, h u List.mem_cons_self]
    dsimp only
    rw [fromCfg_all fun v hv => h v (List.mem_cons_of_mem _ hv)]
    rfl

theorem ready_one {cls : Cls C} {d : Args} {u : Unit' C} (hu : Ready cls d u) (whole : UnitsCfg C) (same : Bool)
    (traced : Option (List (String × Traced))) :
    fromCfgOne cls d whole same traced u.fullName ⟨some u.args, some (u.ins.map Chan.template, u.outs.map Chan.template), some u.choice⟩ =
      .ok { u with name := some u.fullName } := by
  unfold fromCfgOne
  dsimp only [Option.getD_some]
  rw [merge_all hu.defaults]
  unfold initFromCfg
  rw [hu.args]
  dsimp only
  rw [fillAll_template _ _ u.ins [] (by simpa using hu.ins.1) hu.ins.2]
  dsimp only
  rw [fillAll_template _ _ u.outs [] (by simpa using hu.outs.1) hu.outs.2]
  dsimp only [setChoice]
  rw [hu.set]
  rfl

theorem keep_map {cls : Cls C} {us : List (Unit' C)} (h : ∀ u ∈ us, cls.prepared u.args u.choice = u.choice) :
    us.map (fun u => { u with choice := cls.prepared u.args u.choice }) = us := by
  induction us with
  | nil => rfl
  | cons u us ih =>
    rw [List.map_cons, ih fun v hv => h v (List.mem_cons_of_mem _ hv), h u List.mem_cons_self]

theorem lookup_template {us : List (Unit' C)} {g : Unit' C → UnitCfg C} (hn : (us.map Unit'.fullName).Nodup) {u : Unit' C} (hu : u ∈ us) :
    (us.map fun u => (u.fullName, g u)).lookup u.fullName = some (g u) := by
  apply lookup_of_mem
  · rw [List.map_map]; exact hn
  · exact List.mem_map.2 ⟨u, hu, rfl⟩

theorem convert_name {cls : Cls C} (hl : Lawful cls) {d : Args} {cfg : UnitsCfg C} {t : Traced} {u : Unit' C} (h : convert cls d cfg t = .ok u) :
    u.fullName = t.name ∧ u.args.lookup "num_channels" = some (.num t.num) := by
  unfold convert at h
  cases hc : cls.complete (put (tracedArgs d cfg t.name) "num_channels" (.num t.num)) with
  | error e => rw [hc] at h; cases h
  | ok full =>
    rw [hc] at h
    cases h
    have := hl.num _ _ hc
    rw [lookup_put, if_pos rfl] at this
    refine ⟨?_, this⟩
    unfold Unit'.fullName Traced.name numOf
    dsimp only
    rw [this]

theorem convert_again {cls : Cls C} (hl : Lawful cls) {d : Args} {cfg0 cfg : UnitsCfg C} {t : Traced} {u : Unit' C} (h : convert cls d cfg0 t = .ok u)
    {ch : Option (List ChanCfg × List ChanCfg)} {c : Option C} (hc : cfg.lookup t.name = some ⟨some u.args, ch, c⟩) : convert cls d cfg t = .ok u := by
  have hnum := (convert_name hl h).2
  unfold convert at h
  cases hcc : cls.complete (put (tracedArgs d cfg0 t.name) "num_channels" (.num t.num)) with
  | error e => rw [hcc] at h; cases h
  | ok full =>
    rw [hcc] at h
    cases h
    unfold convert tracedArgs
    rw [hc]
    dsimp only
    have e : cls.complete (put full "num_channels" (.num t.num)) = cls.complete full := by
      apply hl.order
      intro k
      rw [lookup_put]
      by_cases hk : k = "num_channels"
      · rw [if_pos hk, hk]; exact hnum.symm
      · rw [if_neg hk]
    rw [e, hl.closed _ _ hcc]

theorem fromTracer_all {cls : Cls C} {d : Args} {cfg : UnitsCfg C} :
    ∀ {ts : List Traced} {us : List (Unit' C)}, fromTracer cls d cfg ts = .ok us → List.Forall₂ (fun t u => convert cls d cfg t = .ok u) ts us
  | [], us, h => by cases h; exact .nil
  | t :: ts, us, h => by
    rw [fromTracer] at h
    cases h1 : convert cls d cfg t with
    | error e => rw [h1] at h; cases h
    | ok u =>
      rw [h1] at h
      dsimp only at h
      cases h2 : fromTracer cls d cfg ts with
      | error e => rw [h2] at h; cases h
      | ok us' => rw [h2] at h; cases h; exact .cons h1 (fromTracer_all h2)

theorem all_fromTracer {cls : Cls C} {d : Args} {cfg : UnitsCfg C} {ts : List Traced} {us : List (Unit' C)}
    (h : List.Forall₂ (fun t u => convert cls d cfg t = .ok u) ts us) : fromTracer cls d cfg ts = .ok us := by
  induction h with
  | nil => rfl
  | cons h1 _ ih => rw [fromTracer, h1]; dsimp only; rw [ih]

theorem traced_lookup {ts : List Traced} (hn : (ts.map Traced.name).Nodup) {t : Traced} (ht : t ∈ ts) :
    (ts.map fun t => (t.name, t)).lookup t.name = some t := by
  apply lookup_of_mem
  · rw [List.map_map]; exact hn
  · exact List.mem_map.2 ⟨t, ht, rfl⟩

theorem tracedArgs_template {us : List (Unit' C)} (d : Args) (name : String) :
    tracedArgs d (us.map fun u => (u.fullName, (⟨none, none, some u.choice⟩ : UnitCfg C))) name = d := by
  induction us with
  | nil => rfl
  | cons u us ih =>
    unfold tracedArgs at ih ⊢
    rw [List.map_cons, List.lookup_cons]
    cases hb : name == u.fullName
    · exact ih
    · rfl

theorem convert_template {cls : Cls C} {d : Args} {us : List (Unit' C)} {t : Traced} :
    convert cls d (us.map fun u => (u.fullName, (⟨none, none, some u.choice⟩ : UnitCfg C))) t = convert cls d [] t := by
  unfold convert
  rw [tracedArgs_template]
  rfl

theorem convert_defaults {cls : Cls C} {d : Args} {cfg : UnitsCfg C} {t : Traced} {ch : Option (List ChanCfg × List ChanCfg)} {c : Option C} :
    convert cls d ((t.name, (⟨some d, ch, c⟩ : UnitCfg C)) :: cfg) t = convert cls d [] t := by
  unfold convert tracedArgs
  rw [List.lookup_cons]
  simp

theorem fromCfg_append {cls : Cls C} {d : Args} {whole : UnitsCfg C} {same : Bool} {traced : Option (List (String × Traced))} :
    ∀ {a b : UnitsCfg C} {us : List (Unit' C)}, fromCfg cls d whole same traced a = .ok us →
      fromCfg cls d whole same traced (a ++ b) = match fromCfg cls d whole same traced b with
        | .error e => .error e
        | .ok vs => .ok (us ++ vs)
  | [], b, us, h => by
    cases h
    rw [List.nil_append]
    cases fromCfg cls d whole same traced b <;> rfl
  | (k, c) :: a, b, us, h => by
    rw [fromCfg] at h
    cases h1 : fromCfgOne cls d whole same traced k c with
    | error e => rw [h1] at h; cases h
    | ok u =>
      rw [h1] at h
      dsimp only at h
      cases h2 : fromCfg cls d whole same traced a with
      | error e => rw [h2] at h; cases h
      | ok us' =>
        rw [h2] at h
        cases h
        rw [List.cons_append, fromCfg, h1]
        dsimp only
        rw [fromCfg_append h2]
        cases fromCfg cls d whole same traced b <;> rfl

theorem setChoice_other {cls : Cls C} {c : Option C} {u v : Unit' C} (h : setChoice cls c u = .ok v) :
    v.name = u.name ∧ v.args = u.args ∧ v.ins = u.ins ∧ v.outs = u.outs := by
  cases c with
  | none => cases h; exact ⟨rfl, rfl, rfl, rfl⟩
  | some c =>
    unfold setChoice at h
    dsimp only at h
    cases hs : cls.set u.args c with
    | error e => rw [hs] at h; cases h
    | ok w => rw [hs] at h; cases h; exact ⟨rfl, rfl, rfl, rfl⟩

theorem fill_eq {n : Nat} {out : Bool} (c : ChanCfg) : fill (some (.num n)) out c = .ok (chanOf n out c) := by
  obtain ⟨nm, s, e⟩ := c
  cases e <;> rfl

theorem fillAll_spec {n : Nat} {out : Bool} : ∀ {l : List ChanCfg} {acc r : List Chan}, acc.Nodup → fillAll (some (.num n)) out l acc = .ok r →
    r.Nodup ∧ ∀ c, c ∈ r ↔ c ∈ acc ∨ ∃ cc ∈ l, c = chanOf n out cc
  | [], acc, r, ha, h => by
    cases h
    exact ⟨ha, by simp⟩
  | cc :: l, acc, r, ha, h => by
    rw [fillAll, fill_eq] at h
    dsimp only at h
    by_cases hm : chanOf n out cc ∈ acc
    · rw [show addChan acc (chanOf n out cc) = acc from if_pos hm] at h
      obtain ⟨h1, h2⟩ := fillAll_spec ha h
      refine ⟨h1, fun c => ?_⟩
      rw [h2]
      constructor
      · rintro (h | ⟨x, hx, rfl⟩)
        · exact .inl h
        · exact .inr ⟨x, List.mem_cons_of_mem _ hx, rfl⟩
      · rintro (h | ⟨x, hx, rfl⟩)
        · exact .inl h
        · rcases List.mem_cons.1 hx with rfl | hx
          · exact .inl hm
          · exact .inr ⟨x, hx, rfl⟩
    · rw [show addChan acc (chanOf n out cc) = acc ++ [chanOf n out cc] from if_neg hm] at h
      obtain ⟨h1, h2⟩ := fillAll_spec (List.nodup_append.2 ⟨ha, List.nodup_singleton _, fun a ha' b hb => by
        rw [List.mem_singleton] at hb; subst hb; rintro rfl; exact hm ha'⟩) h
      refine ⟨h1, fun c => ?_⟩
      rw [h2, List.mem_append, List.mem_singleton]
      constructor
      · rintro ((h | rfl) | ⟨x, hx, rfl⟩)
        · exact .inl h
        · exact .inr ⟨cc, List.mem_cons_self, rfl⟩
        · exact .inr ⟨x, List.mem_cons_of_mem _ hx, rfl⟩
      · rintro (h | ⟨x, hx, rfl⟩)
        · exact .inl (.inl h)
        · rcases List.mem_cons.1 hx with rfl | hx
          · exact .inl (.inr rfl)
          · exact .inr ⟨x, hx, rfl⟩

theorem fromCfg_names {cls : Cls C} {d : Args} {whole : UnitsCfg C} {same : Bool} {traced : Option (List (String × Traced))} :
    ∀ {cfg : UnitsCfg C} {us : List (Unit' C)}, (∀ p ∈ cfg, p.2.channels.isSome) → fromCfg cls d whole same traced cfg = .ok us →
      us.map Unit'.fullName = cfg.map Prod.fst
  | [], us, _, h => by cases h; rfl
  | (k, c) :: cfg, us, hc, h => by
    rw [fromCfg] at h
    cases h1 : fromCfgOne cls d whole same traced k c with
    | error e => rw [h1] at h; cases h
    | ok u =>
      rw [h1] at h
      dsimp only at h
      cases h2 : fromCfg cls d whole same traced cfg with
      | error e => rw [h2] at h; cases h
      | ok us' =>
        rw [h2] at h
        cases h
        rw [List.map_cons, List.map_cons, fromCfg_names (fun p hp => hc p (List.mem_cons_of_mem _ hp)) h2]
        congr 1
        unfold fromCfgOne at h1
        have hs := hc (k, c) List.mem_cons_self
        obtain ⟨ch, hch⟩ := Option.isSome_iff_exists.1 hs
        dsimp only at hch h1
        rw [hch] at h1
        dsimp only at h1
        cases hi : initFromCfg cls (merge d (c.initArgs.getD [])) ch c.choice with
        | error e => rw [hi] at h1; cases h1
        | ok w => rw [hi] at h1; cases h1; rfl

theorem subnets_fold {V : Type} (n : Nat) : ∀ (cfg : List (String × List V)) (acc : List (List (String × V))), acc.length = n →
    (∀ kc ∈ cfg, kc.2.length = n) →
    ∃ r, cfg.foldlM (subnetStep n) acc =
      .ok r ∧ r.length = n ∧ ∀ i (hi : i < n) l, acc[i]? = some l → r[i]? = some (l ++ cfg.filterMap fun kc => (kc.2[i]?).map fun v => (kc.1, v))
  | [], acc, ha, _ => ⟨acc, rfl, ha, fun i hi l hl => by rw [hl]; simp⟩
  | kc :: cfg, acc, ha, h => by
    have hk := h kc List.mem_cons_self
    obtain ⟨r, h1, h2, h3⟩ := subnets_fold n cfg (acc.zipWith (fun d v => d ++ [(kc.1, v)]) kc.2)
      (by rw [List.length_zipWith, ha, hk]; simp) fun x hx => h x (List.mem_cons_of_mem _ hx)
    refine ⟨r, ?_, h2, fun i hi l hl => ?_⟩
    · rw [List.foldlM_cons, subnetStep, if_pos hk.symm]
      exact h1
    · have hv : ∃ v, kc.2[i]? = some v := ⟨kc.2[i]'(by omega), List.getElem?_eq_getElem _⟩
      obtain ⟨v, hv⟩ := hv
      rw [h3 i hi (l ++ [(kc.1, v)])]
      · rw [List.filterMap_cons, hv]
        simp
      · rw [List.getElem?_zipWith, hl, hv]

theorem subnets_err {V : Type} (n : Nat) : ∀ (cfg : List (String × List V)) (acc : List (List (String × V))),
    (∃ kc ∈ cfg, kc.2.length ≠ n) →
    cfg.foldlM (subnetStep n) acc =
      .error Err.assertion
  | [], acc, h => by obtain ⟨_, h, _⟩ := h; cases h
  | kc :: cfg, acc, h => by
    rw [List.foldlM_cons, subnetStep]
    by_cases hk : n = kc.2.length
    · rw [if_pos hk]
      obtain ⟨x, hx, hne⟩ := h
      rcases List.mem_cons.1 hx with rfl | hx
      · exact absurd hk.symm hne
      · exact subnets_err n cfg _ ⟨x, hx, hne⟩
    · rw [if_neg hk]; rfl

theorem flags_none : ∀ n, predefinedFlags none n = List.replicate n false
  | 0 => rfl
  | n + 1 => by rw [predefinedFlags, flags_none n]; rfl

end Verif.MutatorCfg
