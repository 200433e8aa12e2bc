import Verif.Spec.QuantCfg

/-! Helper lemmas for `Verif/Props/QuantCfg.lean`. -/

namespace Verif.QuantCfg
open Verif Verif.QParams

theorem flag_eq (d : Dict) (k : String) (dflt : Bool) : flag d k dflt = isOn d k dflt := by
  unfold flag isOn
  cases d.lookup k with
  | none => cases dflt <;> simp
  | some v => cases v <;> simp [PV.truthy]

theorem bits_eq {d : Dict} {b : Nat} (h : bitsOf d = .ok b) : (d.lookup "bit").getD (.int 8) = .int b := by
  unfold bitsOf at h
  cases h1 : d.lookup "bit" with
  | none => rw [h1] at h; cases h; rfl
  | some v =>
    rw [h1] at h
    cases v with
    | int n =>
      dsimp only at h
      by_cases hn : 1 ≤ n
      · rw [if_pos hn] at h
        cases h
        rw [Option.getD_some, Int.toNat_of_nonneg (by omega)]
      · rw [if_neg hn] at h; cases h
    | str s => cases h
    | bool b => cases h

theorem dlookup_append (a b : Dict) (k : String) : (a ++ b).lookup k = (a.lookup k).or (b.lookup k) := by
  induction a with
  | nil => simp
  | cons p a ih =>
    obtain ⟨x, v⟩ := p
    rw [List.cons_append, List.lookup_cons, List.lookup_cons]
    by_cases h : k == x
    · rw [h]; rfl
    · rw [Bool.not_eq_true] at h
      rw [h]; exact ih

theorem dlookup_filter (f : String → Bool) (a : Dict) (k : String) : (a.filter fun p => f p.1).lookup k = if f k then a.lookup k else none := by
  induction a with
  | nil => simp
  | cons p a ih =>
    obtain ⟨x, v⟩ := p
    by_cases h : k = x
    · subst h
      by_cases hf : f k
      · rw [List.filter_cons_of_pos (by exact hf), if_pos hf]; simp
      · rw [List.filter_cons_of_neg (by exact hf), ih, if_neg hf, if_neg hf]
    · have hb : (k == x) = false := by simpa using h
      by_cases hf : f x
      · rw [List.filter_cons_of_pos (by exact hf), List.lookup_cons, hb, ih, List.lookup_cons, hb]
      · rw [List.filter_cons_of_neg (by exact hf), ih, List.lookup_cons, hb]

theorem lookup_update (a b : Dict) (k : String) : (update a b).lookup k = (b.lookup k).or (a.lookup k) := by
  unfold update
  rw [dlookup_append, dlookup_filter (fun k => (b.lookup k).isNone)]
  cases h : b.lookup k <;> simp

theorem range_eq (s : Scheme) : s.range = intRange s.signed s.symRange s.bit := by
  obtain ⟨sg, b, r⟩ := s
  cases sg <;> cases r
  · rfl
  · rfl
  · rfl
  · unfold Scheme.range intRange
    simp only [if_true]
    congr 1
    ring

/-- The computed arguments. -/
theorem params_lookup (h : Handler) (k : String) : h.params.lookup k =
    if k = "dtype" then some (.str (if h.scheme.signed then "qint8" else "quint8"))
    else if k = "quant_min" then some (.int h.scheme.range.1)
    else if k = "quant_max" then some (.int h.scheme.range.2)
    else if k = "qscheme" then some h.torchScheme.val
    else if k = "reduce_range" then some (.bool false)
    else if k = "ch_axis" ∧ h.perChannel then some (.int 0)
    else h.extra.lookup k := by
  unfold Handler.params
  rw [lookup_update, dlookup_append]
  simp only [List.lookup_cons, List.lookup_nil]
  by_cases h1 : k = "dtype"
  · subst h1; rfl
  rw [if_neg h1, show (k == "dtype") = false by simpa using h1]
  by_cases h2 : k = "quant_min"
  · subst h2; rfl
  rw [if_neg h2, show (k == "quant_min") = false by simpa using h2]
  by_cases h3 : k = "quant_max"
  · subst h3; rfl
  rw [if_neg h3, show (k == "quant_max") = false by simpa using h3]
  by_cases h4 : k = "qscheme"
  · subst h4; rfl
  rw [if_neg h4, show (k == "qscheme") = false by simpa using h4]
  by_cases h5 : k = "reduce_range"
  · subst h5; rfl
  rw [if_neg h5, show (k == "reduce_range") = false by simpa using h5]
  cases hp : h.perChannel
  · simp
  · by_cases h6 : k = "ch_axis"
    · subst h6; simp
    · simp [h6, List.lookup_cons, show (k == "ch_axis") = false by simpa using h6]

theorem handler_ok {pc : Bool} {d : Dict} {h : Handler} (hh : handler pc d = .ok h) :
    d.lookup "is_per_channel" = none ∧ ((d.lookup "qdtype").getD (.str "quint8") = .str "quint8" ∨ (d.lookup "qdtype").getD (.str "quint8") = .str "qint8") ∧
    bitsOf d = .ok h.scheme.bit ∧ h.scheme.signed = decide ((d.lookup "qdtype").getD (.str "quint8") = .str "qint8") ∧
    h.scheme.symRange = flag d "is_symmetric_range" false ∧ h.symmetric = flag d "is_symmetry" true ∧ h.perChannel = pc ∧
    h.extra = d.filter fun p => !schemeKeys.contains p.1 := by
  unfold handler at hh
  cases h1 : d.lookup "is_per_channel" with
  | some v => rw [h1] at hh; cases hh
  | none =>
    rw [h1] at hh
    dsimp only at hh
    by_cases h2 : (d.lookup "qdtype").getD (.str "quint8") ≠ .str "quint8" ∧ (d.lookup "qdtype").getD (.str "quint8") ≠ .str "qint8"
    · rw [if_pos h2] at hh; cases hh
    · rw [if_neg h2] at hh
      cases h3 : bitsOf d with
      | error e => rw [h3] at hh; cases hh
      | ok b =>
        rw [h3] at hh
        cases hh
        refine ⟨rfl, ?_, rfl, rfl, rfl, rfl, rfl, rfl⟩
        by_contra hc
        push Not at hc
        exact h2 hc

theorem lookup_assign {K V : Type} [DecidableEq K] (l : List (K × V)) (k k' : K) (v : V) :
    (assign l k v).lookup k' = if k' = k then some v else l.lookup k' := by
  induction l with
  | nil =>
    rw [assign, List.lookup_cons]
    by_cases h : k' = k
    · subst h; simp
    · rw [show (k' == k) = false by simpa using h, if_neg h]
  | cons p l ih =>
    obtain ⟨x, w⟩ := p
    rw [assign]
    by_cases hx : x = k
    · subst hx
      rw [if_pos rfl, List.lookup_cons, List.lookup_cons]
      by_cases h : k' = x
      · subst h; simp
      · rw [show (k' == x) = false by simpa using h, if_neg h]
    · rw [if_neg hx, List.lookup_cons, List.lookup_cons, ih]
      by_cases h : k' = x
      · subst h
        simp [hx]
      · rw [show (k' == x) = false by simpa using h]

theorem lastOf_cons {K V : Type} [DecidableEq K] (p : K × V) (l : List (K × V)) (k : K) :
    lastOf (p :: l) k = (lastOf l k).or (if p.1 = k then some p.2 else none) := by
  unfold lastOf
  by_cases h : p.1 = k
  · rw [List.filter_cons_of_pos (by simpa using h), if_pos h]
    cases hf : l.filter (fun p => decide (p.1 = k)) with
    | nil => rfl
    | cons a b =>
      rw [List.getLast?_cons_cons]
      cases hg : (a :: b).getLast? with
      | none => simp at hg
      | some x => rfl
  · rw [List.filter_cons_of_neg (by simpa using h), if_neg h]
    simp

theorem fold_fixed (fixed : List (Obj × String)) : ∀ (m : Mapping) (o : Obj),
    (fixed.foldl (fun m p => m.setType p.1 (.fixed p.2)) m).types.lookup o = ((lastOf fixed o).map Given.fixed).or (m.types.lookup o) ∧
    (fixed.foldl (fun m p => m.setType p.1 (.fixed p.2)) m).names = m.names ∧ (fixed.foldl (fun m p => m.setType p.1 (.fixed p.2)) m).glob = m.glob := by
  induction fixed with
  | nil => intro m o; exact ⟨rfl, rfl, rfl⟩
  | cons p fixed ih =>
    intro m o
    obtain ⟨h1, h2, h3⟩ := ih (m.setType p.1 (.fixed p.2)) o
    rw [List.foldl_cons]
    refine ⟨?_, h2, h3⟩
    rw [h1, lastOf_cons]
    unfold Mapping.setType
    dsimp only
    rw [lookup_assign]
    by_cases h : p.1 = o
    · rw [if_pos h, if_pos h.symm]
      cases lastOf fixed o <;> rfl
    · rw [if_neg h, if_neg (Ne.symm h)]
      cases lastOf fixed o <;> rfl

theorem fold_none (os : List Obj) : ∀ (m : Mapping) (o : Obj),
    (os.foldl (fun m o => m.setType o .nothing) m).types.lookup o = (if o ∈ os then some .nothing else m.types.lookup o) ∧
    (os.foldl (fun m o => m.setType o .nothing) m).names = m.names ∧ (os.foldl (fun m o => m.setType o .nothing) m).glob = m.glob := by
  induction os with
  | nil => intro m o; exact ⟨by simp, rfl, rfl⟩
  | cons p os ih =>
    intro m o
    obtain ⟨h1, h2, h3⟩ := ih (m.setType p .nothing) o
    rw [List.foldl_cons]
    refine ⟨?_, h2, h3⟩
    rw [h1]
    unfold Mapping.setType
    dsimp only
    rw [lookup_assign]
    by_cases h : o = p
    · subst h; simp
    · by_cases h' : o ∈ os <;> simp [h, h']

mutual
theorem swap_gone : ∀ (m : Mod), Plain m → Kind.floatFunctional ∉ below (swapFF m)
  | .node i k t c, h => by
    rw [Plain] at h
    rw [swapFF, below]
    have := swapKids_gone [] c h
    intro hm
    have happ : ∀ (a b : List (String × Mod)), belowKids (a ++ b) = belowKids a ++ belowKids b := by
      intro a b
      induction a with
      | nil => rfl
      | cons p a ih => obtain ⟨n, m⟩ := p; rw [List.cons_append, belowKids, belowKids, ih]; simp
    rw [happ, List.mem_append] at hm
    rcases hm with hm | hm
    · exact this hm
    · have hnew : ∀ l : List String, Kind.floatFunctional ∉ belowKids (l.map fun n => (n, Mod.node none .fxFloatFunctional [] [])) := by
        intro l
        induction l with
        | nil => simp [belowKids]
        | cons a l ih =>
          rw [List.map_cons, belowKids, below, belowKids]
          simp only [Mod.kind, List.cons_append, List.nil_append, List.mem_cons, reduceCtorEq, false_or]
          exact ih
      exact hnew _ hm
theorem swapKids_gone (seen : List Nat) : ∀ (l : List (String × Mod)), PlainKids seen l → Kind.floatFunctional ∉ belowKids (swapKids seen l).1
  | [], _ => by simp [swapKids, belowKids]
  | (n, m) :: l, h => by
    rw [PlainKids] at h
    obtain ⟨h1, h2, h3⟩ := h
    have ih := swapKids_gone (see seen m.id) l h3
    rw [swapKids, if_neg (by rw [h1]; decide)]
    dsimp only
    by_cases hk : m.kind = .floatFunctional
    · rw [if_pos hk]; exact ih
    · rw [if_neg hk]
      dsimp only
      rw [belowKids]
      have hm := swap_gone m h2
      have hkind : (swapFF m).kind = m.kind := by
        cases m with
        | node i k t c => rw [swapFF]; rfl
      rw [hkind]
      simp only [List.cons_append, List.mem_cons, List.mem_append]
      rintro (h | h | h)
      · exact hk h.symm
      · exact hm h
      · exact ih h
end

theorem swapKids_names (seen : List Nat) : ∀ (l : List (String × Mod)),
    List.Perm ((swapKids seen l).1.map Prod.fst ++ (swapKids seen l).2) (l.map Prod.fst)
  | [] => by simp [swapKids]
  | (n, m) :: l => by
    rw [swapKids]
    by_cases hs : seenBefore seen m.id
    · rw [if_pos hs]
      exact (swapKids_names seen l).cons n
    · rw [if_neg hs]
      dsimp only
      by_cases hk : m.kind = .floatFunctional
      · rw [if_pos hk]
        exact List.perm_middle.trans ((swapKids_names _ l).cons n)
      · rw [if_neg hk]
        exact (swapKids_names _ l).cons n

mutual
theorem bn_gone : ∀ (m : Mod), Plain m → Kind.syncBn ∉ below (convBN m) ∧ Kind.bnXd ∉ below (convBN m)
  | .node i k t c, h => by
    rw [Plain] at h
    rw [convBN, below]
    exact bnKids_gone [] c h
theorem bnKids_gone (seen : List Nat) : ∀ (l : List (String × Mod)), PlainKids seen l →
    Kind.syncBn ∉ belowKids (bnKids seen l) ∧ Kind.bnXd ∉ belowKids (bnKids seen l)
  | [], _ => by simp [bnKids, belowKids]
  | (n, m) :: l, h => by
    rw [PlainKids] at h
    obtain ⟨h1, h2, h3⟩ := h
    have ih := bnKids_gone (see seen m.id) l h3
    rw [bnKids, if_neg (by rw [h1]; decide), belowKids]
    by_cases hk : m.kind = .syncBn ∨ m.kind = .bnXd
    · rw [if_pos hk, below, belowKids]
      simp only [Mod.kind, List.cons_append, List.nil_append, List.mem_cons, reduceCtorEq, false_or]
      exact ih
    · rw [if_neg hk]
      have hm := bn_gone m h2
      have hkind : (convBN m).kind = m.kind := by
        cases m with
        | node i k t c => rw [convBN]; rfl
      rw [hkind]
      simp only [List.cons_append, List.mem_cons, List.mem_append]
      push Not at hk
      constructor
      · rintro (h | h | h)
        · exact hk.1 h.symm
        · exact hm.1 h
        · exact ih.1 h
      · rintro (h | h | h)
        · exact hk.2 h.symm
        · exact hm.2 h
        · exact ih.2 h
end

theorem getCls_congr (reg : String → Option String) {d d' : Dict} (h : d.lookup "type" = d'.lookup "type") : getCls reg d = getCls reg d' := by
  unfold getCls; rw [h]

theorem bind_ok {A B : Type} {x : Except Err A} {f : A → Except Err B} {b : B} (h : (x >>= f) = .ok b) : ∃ a, x = .ok a ∧ f a = .ok b := by
  cases x with
  | error e => cases h
  | ok a => exact ⟨a, rfl, h⟩

theorem convert_ok {reg : String → Option String} {q : QCfg} {c : QConf} (h : convert reg q = .ok c) :
    check q = true ∧ ∃ w a, getCls reg (asDict (q "w_observer")) = .ok c.weight.observer ∧ getCls reg (asDict (q "a_observer")) = .ok c.activation.observer ∧
      handler (infixOf "PerChannel".toList c.weight.observer.toList) (asDict (q "w_qscheme")) = .ok w ∧
      handler (infixOf "PerChannel".toList c.activation.observer.toList) (asDict (q "a_qscheme")) = .ok a ∧
      getCls reg (asDict (q "w_fake_quant")) = .ok c.weight.cls ∧ getCls reg (asDict (q "a_fake_quant")) = .ok c.activation.cls ∧
      c.weight.params = w.params ∧ c.activation.params = a.params := by
  unfold convert at h
  cases hc : check q
  · rw [hc] at h; cases h
  · rw [hc] at h
    rw [if_neg (by decide)] at h
    obtain ⟨wo, h1, h⟩ := bind_ok h
    obtain ⟨ao, h2, h⟩ := bind_ok h
    obtain ⟨w, h3, h⟩ := bind_ok h
    obtain ⟨a, h4, h⟩ := bind_ok h
    obtain ⟨wf, h5, h⟩ := bind_ok h
    obtain ⟨af, h6, h⟩ := bind_ok h
    cases h
    exact ⟨rfl, w, a, h1, h2, h3, h4, h5, h6, rfl, rfl⟩

theorem addTypes_find {reg : String → Option String} {objs : String → Except Err Obj} : ∀ {l : List (String × QCfg)} {m m' : Mapping},
    addTypes reg objs l m = .ok m' → m'.names = m.names ∧ m'.glob = m.glob ∧
      ∃ r : List (Obj × QConf), List.Forall₂ (fun p o => str2class objs p.1 = .ok o.1 ∧ convert reg p.2 = .ok o.2) l r ∧
        ∀ o, m'.types.lookup o = ((lastOf r o).map Given.conf).or (m.types.lookup o)
  | [], m, m', h => by cases h; exact ⟨rfl, rfl, [], .nil, fun o => rfl⟩
  | (s, q) :: l, m, m', h => by
    rw [addTypes] at h
    cases h1 : convert reg q with
    | error e => rw [h1] at h; cases h
    | ok c =>
      rw [h1] at h
      dsimp only at h
      cases h2 : str2class objs s with
      | error e => rw [h2] at h; cases h
      | ok o =>
        rw [h2] at h
        obtain ⟨h3, h4, r, h5, h6⟩ := addTypes_find h
        refine ⟨h3, h4, (o, c) :: r, .cons ⟨h2, h1⟩ h5, fun o' => ?_⟩
        rw [h6, lastOf_cons]
        unfold Mapping.setType
        dsimp only
        rw [lookup_assign]
        by_cases he : o = o'
        · rw [if_pos he, if_pos he.symm]; cases lastOf r o' <;> rfl
        · rw [if_neg he, if_neg (Ne.symm he)]; cases lastOf r o' <;> rfl

theorem addNames_find {reg : String → Option String} : ∀ {l : List (String × QCfg)} {m m' : Mapping},
    addNames reg l m = .ok m' → m'.types = m.types ∧ m'.glob = m.glob ∧
      ∃ r : List (String × QConf), List.Forall₂ (fun p o => p.1 = o.1 ∧ convert reg p.2 = .ok o.2) l r ∧
        ∀ n, m'.names.lookup n = ((lastOf r n).map Given.conf).or (m.names.lookup n)
  | [], m, m', h => by cases h; exact ⟨rfl, rfl, [], .nil, fun o => rfl⟩
  | (s, q) :: l, m, m', h => by
    rw [addNames] at h
    cases h1 : convert reg q with
    | error e => rw [h1] at h; cases h
    | ok c =>
      rw [h1] at h
      obtain ⟨h3, h4, r, h5, h6⟩ := addNames_find h
      refine ⟨h3, h4, (s, c) :: r, .cons ⟨rfl, h1⟩ h5, fun o' => ?_⟩
      rw [h6, lastOf_cons]
      unfold Mapping.setName
      dsimp only
      rw [lookup_assign]
      by_cases he : s = o'
      · rw [if_pos he, if_pos he.symm]; cases lastOf r o' <;> rfl
      · rw [if_neg he, if_neg (Ne.symm he)]; cases lastOf r o' <;> rfl

theorem scheme_ext {s t : Scheme} (h1 : s.signed = t.signed) (h2 : s.bit = t.bit) (h3 : s.symRange = t.symRange) : s = t := by
  obtain ⟨a, b, c⟩ := s
  obtain ⟨a', b', c'⟩ := t
  dsimp only at h1 h2 h3
  rw [h1, h2, h3]

theorem infixOf_eq (p s : List Char) : infixOf p s = decide (p <:+: s) := by
  unfold infixOf
  rw [Bool.eq_iff_iff, List.any_eq_true, decide_eq_true_iff]
  constructor
  · rintro ⟨t, ht, hp⟩
    rw [List.mem_tails] at ht
    rw [List.isPrefixOf_iff_prefix] at hp
    exact hp.isInfix.trans ht.isInfix
  · intro h
    obtain ⟨t, h1, h2⟩ := List.infix_iff_prefix_suffix.1 h
    exact ⟨t, (List.mem_tails _ _).2 h2, List.isPrefixOf_iff_prefix.2 h1⟩

theorem check_iff (q : QCfg) : check q = true ↔ ∀ k ∈ required, ∃ d, q k = some (.dict d) := by
  unfold check
  rw [List.all_eq_true]
  refine forall₂_congr fun k _ => ?_
  cases q k with
  | none => simp [isDict]
  | some e => cases e <;> simp [isDict]

theorem getCls_ok {reg : String → Option String} {d : Dict} {c : String} (h : getCls reg d = .ok c) : ∃ t, d.lookup "type" = some (.str t) ∧ reg t = some c := by
  unfold getCls at h
  cases h1 : d.lookup "type" with
  | none => rw [h1] at h; cases h
  | some v =>
    rw [h1] at h
    cases v with
    | str t =>
      dsimp only at h
      cases h2 : reg t with
      | none => rw [h2] at h; cases h
      | some c' => rw [h2] at h; cases h; exact ⟨t, rfl, h2⟩
    | int n => cases h
    | bool b => cases h

mutual
theorem swap_same : ∀ (m : Mod), Kind.floatFunctional ∉ below m → swapFF m = m
  | .node i k t c, h => by
    rw [below] at h
    rw [swapFF, swapKids_same [] c h]
    simp
theorem swapKids_same (seen : List Nat) : ∀ (l : List (String × Mod)), Kind.floatFunctional ∉ belowKids l → swapKids seen l = (l, [])
  | [], _ => by rw [swapKids]
  | (n, m) :: l, h => by
    rw [belowKids, List.cons_append, List.mem_cons, List.mem_append] at h
    push Not at h
    obtain ⟨h1, h2, h3⟩ := h
    rw [swapKids, swapKids_same seen l h3, swapKids_same (see seen m.id) l h3, swap_same m h2]
    dsimp only
    rw [if_neg (Ne.symm h1), if_neg (Ne.symm h1), ite_self]
end

mutual
theorem bn_same : ∀ (m : Mod), Kind.syncBn ∉ below m → Kind.bnXd ∉ below m → convBN m = m
  | .node i k t c, h, h' => by
    rw [below] at h h'
    rw [convBN, bnKids_same [] c h h']
theorem bnKids_same (seen : List Nat) : ∀ (l : List (String × Mod)), Kind.syncBn ∉ belowKids l → Kind.bnXd ∉ belowKids l → bnKids seen l = l
  | [], _, _ => by rw [bnKids]
  | (n, m) :: l, h, h' => by
    rw [belowKids, List.cons_append, List.mem_cons, List.mem_append] at h h'
    push Not at h h'
    obtain ⟨h1, h2, h3⟩ := h
    obtain ⟨g1, g2, g3⟩ := h'
    have hk : ¬ (m.kind = .syncBn ∨ m.kind = .bnXd) := by
      rintro (e | e)
      · exact h1 e.symm
      · exact g1 e.symm
    rw [bnKids, bnKids_same seen l h3 g3, bnKids_same (see seen m.id) l h3 g3, bn_same m h2 g2, if_neg hk, if_neg hk, ite_self]
end

end Verif.QuantCfg
