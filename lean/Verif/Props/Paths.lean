import Verif.Lemmas.Paths

/-! Property C117: the parents of layers and the roots that are read off traced paths. -/

namespace Verif.Paths
open Verif Tracer

variable {K : Type} [DecidableEq K]

/-- The names listed are those of the layers of the target classes, on the paths and inside their concatenations. A
concatenation is never listed, whatever the classes. -/
theorem C117_names (tgt : List Cls) (np : Option (List Cls)) (ps : List (Path K)) (n : K) :
    (∃ l, (n, l) ∈ findParents tgt np ps) ↔ ∃ rest, Layer tgt ps n rest := by
  have := read_list tgt np (reads_key n) ps []
  simp only [List.not_mem_nil, exists_false, false_or] at this
  rw [findParents, this]
  constructor
  · rintro ⟨path, hw, pre, k, m, post, e, hc, l, hl⟩
    simp only [List.mem_singleton, Prod.mk.injEq] at hl
    obtain ⟨rfl, _⟩ := hl
    exact ⟨post, path, pre, k, hw, e, hc⟩
  · rintro ⟨post, path, pre, k, hw, e, hc⟩
    exact ⟨path, hw, pre, k, n, post, e, hc, _, List.mem_singleton.2 rfl⟩

example : (findParents [.layer .conv] none exPaths).map Prod.fst = [3, 2, 1] := by decide

/-- The parents of a name are exactly, over all places where such a layer stands, the first node behind it that does not
let pass (without such classes: the next node). -/
theorem C117_parents (tgt : List Cls) (np : Option (List Cls)) (ps : List (Path K)) (n : K) (r : Ref K) :
    (∃ l, (n, l) ∈ findParents tgt np ps ∧ r ∈ l) ↔ ∃ rest, Layer tgt ps n rest ∧ First np rest r := by
  have := read_list tgt np (reads_has n r) ps []
  simp only [List.not_mem_nil, false_and, exists_false, false_or] at this
  rw [findParents, this]
  constructor
  · rintro ⟨path, hw, pre, k, m, post, e, hc, l, hl, hr⟩
    simp only [List.mem_singleton, Prod.mk.injEq] at hl
    obtain ⟨rfl, rfl⟩ := hl
    exact ⟨post, ⟨path, pre, k, hw, e, hc⟩, (behind_first np r post).1 hr⟩
  · rintro ⟨post, ⟨path, pre, k, hw, e, hc⟩, hf⟩
    exact ⟨path, hw, pre, k, n, post, e, hc, _, List.mem_singleton.2 rfl, (behind_first np r post).2 hf⟩

example : findParents [.layer .conv] none exPaths = [(3, [.layer .norm 12, .layer .norm 11]), (2, [.layer .norm 11]), (1, [])] ∧
    findParents [.layer .norm] (some [.layer .conv, .concat]) exCat = [(13, [.cat 100]), (12, [.layer .conv 2])] := by decide

/-- Every name is listed once and no parent twice. -/
theorem C117_once (tgt : List Cls) (np : Option (List Cls)) (ps : List (Path K)) :
    ((findParents tgt np ps).map Prod.fst).Nodup ∧ ∀ e ∈ findParents tgt np ps, e.2.Nodup :=
  good_list tgt np ps [] good_nil

example : (findParents [.layer .norm] (some [.layer .conv]) exPaths) = [(12, [.layer .conv 2]), (11, [.layer .conv 1])] := by decide

/-- The order of the paths and repeated paths do not matter. -/
theorem C117_order (tgt : List Cls) (np : Option (List Cls)) (ps qs : List (Path K)) (h : ∀ p, p ∈ ps ↔ p ∈ qs) (n : K)
    (r : Ref K) :
    ((∃ l, (n, l) ∈ findParents tgt np ps) ↔ ∃ l, (n, l) ∈ findParents tgt np qs) ∧
      ((∃ l, (n, l) ∈ findParents tgt np ps ∧ r ∈ l) ↔ ∃ l, (n, l) ∈ findParents tgt np qs ∧ r ∈ l) := by
  have hw : ∀ path, Within ps path ↔ Within qs path := by
    intro path
    constructor <;> intro hw <;> cases hw with
    | here _ _ hm => exact .here _ _ (by simpa [h] using hm)
    | inside _ q id subs l _ hm hc hl hw => exact .inside _ q id subs l _ (by simpa [h] using hm) hc hl hw
  have hl : ∀ rest, Layer tgt ps n rest ↔ Layer tgt qs n rest := by
    intro rest
    simp only [Layer, hw]
  rw [C117_names, C117_names, C117_parents, C117_parents]
  simp only [hl, and_self, iff_self]

example : (findParents [.layer .conv] none exPaths.reverse).map Prod.fst = [3, 1, 2] := by decide

/-- DISAGREEMENT: the docstring says that the ancestors whose types are in `non_pass` are the parents. Ancestors that are
reached through a concatenation are not found unless concatenations are in `non_pass`: whatever is concatenated, a layer
separated from the concatenation by nothing that stops has no parent. -/
theorem C117_concat_violated (tgt cs : List Cls) (k : LKind) (n id : K) (subs : List (List (Path K)))
    (hc : ¬ ∃ c ∈ cs, Is (Ref.cat id) c) (hn : ∀ l ∈ subs, ∀ rest, ¬ Layer tgt l n rest) (r : Ref K) :
    ¬ ∃ l, (n, l) ∈ findParents tgt (some cs) [[.layer k n, .cat id subs]] ∧ r ∈ l := by
  rw [C117_parents]
  rintro ⟨rest, ⟨path, pre, k', hw, e, ht⟩, hf⟩
  cases hw with
  | here _ _ hm =>
    have hm := List.mem_singleton.1 hm
    subst hm
    cases pre with
    | nil =>
      simp at e
      obtain ⟨_, rfl⟩ := e
      have := (behind_first _ _ _).2 hf
      have hs : ¬ stops (some cs) (Ref.cat id) = true := by
        rw [stops_iff]
        intro h
        exact hc (h cs rfl)
      simp [behind, ref, hs] at this
    | cons y pre =>
      cases pre with
      | nil => simp at e
      | cons z pre => simp at e
  | inside _ q id' subs' l _ hm hcat hl hw =>
    have hm := List.mem_singleton.1 hm
    subst hm
    simp at hcat
    obtain ⟨rfl, rfl⟩ := hcat
    exact hn l hl rest ⟨path, pre, k', hw, e, ht⟩

example : findParents [.layer .norm] (some [.layer .conv]) exCat = [(13, []), (12, [.layer .conv 2])] := by decide

/-- From the graph to the parents, for graphs of convolutions and normalisations with branches joining as they like: if
there is no `non_pass` or it has convolutions (depthwise ones, too) among its classes, the parents listed are exactly
the nearest layers of those classes that the input of the layer comes from (without `non_pass`: the layers it comes
from directly).
Missing: linear layers and concatenations, where tracing itself is not exact (C26), and `non_pass` that lets
convolutions pass (`C117_cut_violated`). -/
theorem C117_traced_partial (shared : K → Bool) (T : K → Option (Bool × G K)) (g : G K) (h : plain g = true)
    (hg : grounded g = true) (hT : SameBelow shared T g) (tgt : List Cls) (np : Option (List Cls)) (stop : LKind → Bool)
    (hs : Stopping np stop) (hc : stop .conv = true ∧ stop .dwConv = true) (n : K) (r : Ref K) :
    (∃ l, (n, l) ∈ findParents tgt np (traceModel shared g) ∧ r ∈ l) ↔
      ∃ k k' m, (∃ c ∈ tgt, Is (Ref.layer k n) c) ∧ r = .layer k' m ∧ ((k, n), (k', m)) ∈ nears stop g := by
  have hfits : ∀ path ∈ traceModel shared g, Fits stop g path := fun path hp =>
    walk_fits stop (C26_sound_partial shared g (plain_linFree g h) path hp) h
  have hwith : ∀ path, Within (traceModel shared g) path → path ∈ traceModel shared g := by
    intro path hw
    cases hw with
    | here _ _ hm => exact hm
    | inside _ q id subs l _ hm hcat =>
      obtain ⟨k, n, e⟩ := (hfits q hm).layers _ hcat
      cases e
  rw [C117_parents]
  constructor
  · rintro ⟨rest, ⟨path, pre, k, hw, e, ht⟩, before, x, after, rfl, rfl, h1, hb⟩
    have hp := hfits path (hwith path hw)
    obtain ⟨k', m, rfl⟩ := hp.layers x (by simp [e])
    refine ⟨k, k', m, ht, rfl, hp.pairs pre k n (k', m) _ e ⟨before, after, rfl, (stop_iff hs k' m).2 h1, ?_⟩⟩
    intro y hy
    obtain ⟨k2, m2, rfl⟩ := hp.layers y (by simp [e, hy])
    refine ⟨k2, m2, rfl, ?_⟩
    obtain ⟨cs, hcs, hno⟩ := hb _ hy
    by_contra hne
    obtain ⟨c, hc1, hc2⟩ := (stop_iff hs k2 m2).1 (by simpa using hne) cs hcs
    exact hno c hc1 hc2
  · rintro ⟨k, k', m, ht, rfl, he⟩
    obtain ⟨path, hp, pre, post, e, before, after, rfl, hk, hb⟩ :=
      (trace_nears hc.1 hc.2 shared T g ⟨[], [], []⟩ h hg hT (by intro m hm; simp at hm)).1 _ he
    refine ⟨_, ⟨path, pre, k, .here _ _ hp, e, ht⟩, before, .layer k' m, after, rfl, rfl, (stop_iff hs k' m).1 hk, ?_⟩
    intro y hy
    obtain ⟨k2, m2, rfl, hk2⟩ := hb y hy
    have : ¬ ∀ cs, np = some cs → ∃ c ∈ cs, Is (Ref.layer k2 m2) c := by
      rw [← stop_iff hs k2 m2]; simp [hk2]
    push Not at this
    exact this

example : findParents [.layer .conv] none (traceModel (fun _ => false) resBlock) =
    [(3, [.layer .norm 10]), (2, [.layer .conv 1]), (1, [])] := by decide

example : Stopping (some [.layer .conv, .layer .dwConv]) (fun k => k == .conv || k == .dwConv) ∧
    findParents [.layer .conv] (some [.layer .conv, .layer .dwConv]) (traceModel (fun _ => false) resBlock) =
      [(3, [.layer .conv 2]), (2, [.layer .conv 1]), (1, [])] ∧
    nears (fun k => k == .conv || k == .dwConv) resBlock =
      [((.conv, 3), (.conv, 2)), ((.norm, 10), (.conv, 2)), ((.conv, 2), (.conv, 1)), ((.conv, 2), (.conv, 1))] := by
  refine ⟨?_, by decide, by decide⟩
  intro k
  cases k <;> simp

/-- DISAGREEMENT: with `non_pass` an ancestor is missed when the way to it leads through a convolution that another branch
has visited before: tracing stops there, and the parents are read off the path that was cut. -/
theorem C117_cut_violated :
    ∃ g : G Nat, plain g = true ∧ grounded g = true ∧
      (∃ w, Walk g w ∧ w = [.layer .norm 12, .layer .conv 1, .layer .norm 11]) ∧
      (12, []) ∈ findParents [.layer .norm] (some [.layer .norm]) (traceModel (fun _ => false) g) :=
  ⟨exCut, by decide, by decide,
    ⟨_, .other _ (.norm 12 (.conv false 1 (.norm 11 .null))) _ (by simp) (.norm 12 _ _ (.conv false 1 _ _ (.norm 11 _ _ (.stop _)))), rfl⟩,
    by decide⟩

/-- The root names of a list of paths are those of the first node of each path; they are given exactly when there is a
path and all agree. -/
theorem C117_roots (ps : List (Path K)) (names : List K) :
    listRootNames ps = .ok names ↔ ps ≠ [] ∧ ∀ p ∈ ps, ∃ x rest, p = x :: rest ∧ moduleNames x = .ok names := by
  rw [listRoot_iff]
  refine and_congr_right fun _ => forall_congr' fun p => imp_congr_right fun _ => ?_
  cases p with
  | nil => simp [rootNames]
  | cons x p => simp [rootNames]

example : (listRootNames exPaths).toOption = some [3] ∧ (listRootNames ([[]] : List (Path Nat))).toOption = none := by decide

/-- The names of a node: of a layer its own, of a concatenation those of the roots of all inputs, in order. -/
theorem C117_module_names (x : PNode K) (names : List K) :
    moduleNames x = .ok names ↔ (∃ k n, x = .layer k n ∧ names = [n]) ∨
      ∃ id subs, ∃ parts : List (List K), x = .cat id subs ∧ names = parts.flatten ∧ parts.length = subs.length ∧
        ∀ (i : ℕ) sub part, subs[i]? = some sub → parts[i]? = some part → listRootNames sub = .ok part := by
  cases x with
  | layer k n =>
    rw [moduleNames]
    constructor
    · intro h; cases h; exact .inl ⟨k, n, rfl, rfl⟩
    · rintro (⟨k', n', e, rfl⟩ | ⟨id, subs, parts, e, _⟩)
      · cases e; rfl
      · cases e
  | cat id subs =>
    rw [moduleNames, subsNames_iff]
    constructor
    · rintro ⟨parts, h, rfl⟩
      have hlen : subs.length = parts.length := by simpa using congrArg List.length h
      refine .inr ⟨id, subs, parts, rfl, rfl, hlen.symm, ?_⟩
      intro i sub part h1 h2
      have := congrArg (fun (l : List (Except Err (List K))) => l[i]?) h
      simpa [h1, h2] using this
    · rintro (⟨k', n', e, rfl⟩ | ⟨id, subs, parts, e, rfl, hlen, h⟩)
      · cases e
      · injection e with _ e
        subst e
        refine ⟨parts, ?_, rfl⟩
        apply List.ext_getElem?
        intro i
        by_cases hi : i < parts.length
        · have h2 : i < subs.length := by omega
          have := h i _ _ (List.getElem?_eq_getElem h2) (List.getElem?_eq_getElem hi)
          simp [hi, h2, this]
        · rw [List.getElem?_eq_none (by simp; omega), List.getElem?_eq_none (by simp; omega)]

example : (moduleNames (.cat 100 [[[.layer .conv 1]], [[.layer .norm 12, .layer .conv 2]]] : PNode Nat)).toOption = some [1, 12] := by
  decide

/-- DISAGREEMENT: the names of what is concatenated cannot be given when an input is a sum of two different layers: the
traced paths of that input start with different layers and an assertion fails, although the model is an ordinary one. -/
theorem C117_sum_violated (shared : K → Bool) (a b id : K) (h : a ≠ b) (rest : List (G K)) (d d' : Bool) :
    ∃ subs, traceModel shared (.cat id (.other [.conv d a .null, .conv d' b .null] :: rest)) = [[.cat id subs]] ∧
      moduleNames (PNode.cat id subs) = .error .assertion := by
  refine ⟨_, by simp [traceModel, trace]; rfl, ?_⟩
  have hb : ¬ (b ∈ [a] ∧ shared b = false) := by
    rintro ⟨hm, _⟩
    exact h (List.mem_singleton.1 hm).symm
  have hne : ¬ b = a := fun e => h e.symm
  simp [moduleNames, traceSubs, trace, traceAll, hne, namesOfSubs, rootNameList, rootNames, common]

example : (traceModel (fun _ => false) (.cat 9 [.other [.conv false 1 .null, .conv false 2 .null], .conv false 3 .null] : G Nat)).length = 1 := by
  decide

/-- The roots of a list of paths without any path, or with an empty path in front, cannot be found: an `IndexError`. -/
theorem C117_no_root {K : Type} [DecidableEq K] (ps : List (Path K)) :
    common ([] : List (List K)) = .error .index ∧ rootNameList (([] : Path K) :: ps) = .error .index := by
  constructor
  · rfl
  · simp [rootNameList, rootNames]

end Verif.Paths
