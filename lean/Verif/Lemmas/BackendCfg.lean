import Verif.Spec.BackendCfg

/-! Helper lemmas for `Verif/Props/BackendCfg.lean`. -/

namespace Verif.BackendCfg

/-- `Sound` as a check. -/
def soundB (t : Table) : Bool :=
  t.all fun c =>
    (match c.fuse with
      | some (.ok m) => parts m == c.pattern.ops.flatMap parts
      | _ => true) &&
    (match c.pattern, c.qat with
      | .one m, some q => parts q == parts m
      | _, _ => true)

/-- In every pattern of three operations the middle one is a batch norm and the last ReLU. -/
def threeB (t : Table) : Bool :=
  t.all fun c =>
    match c.pattern with
    | .three (.relu _) (.bn d) o => o == .conv d
    | .three _ _ _ => false
    | _ => true

/-- The last entry for a pattern in a list of entries. -/
def look (cs : List Cfg) (p : Pat) : Option Cfg := cs.reverse.find? fun e => e.pattern = p

/-- The entries of the four tables in the order in which they are set. -/
def rawNative : List Cfg :=
  convOps [weighted] ++ linearOps [weighted, dynamic8, dynamic16] ++ binaryOps [weighted] ++ [catOp [plain8]] ++ defaultOps [plain8]
    ++ fixedOps [weighted] ++ shareOps [plain8] ++ bnOps [plain8] ++ lnOps [inOut8] ++ rnnOps [dynamic8, dynamic16]
    ++ embeddingOps [weightOnly .quint8, weightOnly .quint4x2]
def rawOpenvino : List Cfg :=
  convOps [weighted] ++ [addmm weighted] ++ [catOp [plain8]] ++ linearOps [weighted] ++ binaryOps [weighted] ++ shareOps [plain8]
def rawTensorrt : List Cfg := convOps [signed8] ++ [addmm signed8] ++ linearOps [signed8]
def rawAcademic : List Cfg := convOps [weighted] ++ linearOps [weighted]
def raws : List (List Cfg) := [rawNative, rawOpenvino, rawTensorrt, rawAcademic]

theorem get_put (t : Table) (c : Cfg) (p : Pat) :
    (t.put c).get p = if c.pattern = p then some c else t.get p := by
  have h1 : ∀ t : Table, Table.get (t.map fun e => if e.pattern = c.pattern then c else e) p
      = if c.pattern = p then (if t.any (fun e => e.pattern = c.pattern) then some c else none) else t.get p := by
    intro t
    induction t with
    | nil => simp [Table.get]
    | cons e t ih =>
      unfold Table.get at ih ⊢
      rw [List.map_cons, List.find?_cons, List.any_cons]
      by_cases he : e.pattern = c.pattern
      · rw [if_pos he]
        by_cases hp : c.pattern = p
        · simp [hp, he]
        · rw [if_neg hp] at ih ⊢
          have hp' : ¬ e.pattern = p := by rw [he]; exact hp
          simp only [hp, decide_false]
          rw [List.find?_cons]
          simp only [hp', decide_false]
          exact ih
      · rw [if_neg he]
        by_cases hp : c.pattern = p
        · rw [if_pos hp] at ih ⊢
          have hp' : ¬ e.pattern = p := by rw [← hp]; exact he
          simp only [hp', decide_false, he, Bool.false_or]
          exact ih
        · rw [if_neg hp] at ih ⊢
          rw [List.find?_cons]
          by_cases hp' : e.pattern = p
          · simp [hp']
          · simp only [hp', decide_false]
            exact ih
  unfold Table.put
  by_cases ha : t.any (fun e => e.pattern = c.pattern) = true
  · rw [if_pos ha, h1, if_pos ha]
  · rw [if_neg ha]
    unfold Table.get
    rw [List.find?_append]
    by_cases hp : c.pattern = p
    · rw [if_pos hp]
      have : List.find? (fun e => decide (e.pattern = p)) t = none := by
        rw [List.find?_eq_none]
        intro e he h
        apply ha
        rw [List.any_eq_true]
        exact ⟨e, he, by simpa [hp] using h⟩
      rw [this]
      simp [hp]
    · rw [if_neg hp]
      simp [hp]

theorem get_mem {t : Table} {p : Pat} {c : Cfg} (h : t.get p = some c) : c ∈ t ∧ c.pattern = p := by
  unfold Table.get at h
  exact ⟨List.mem_of_find?_eq_some h, by simpa using List.find?_some h⟩

theorem fuser_sound {t : Table} (hs : Sound t) {p : Pat} {m : Op} (h : t.fuser p = some (.ok m)) :
    parts m = p.ops.flatMap parts := by
  unfold Table.fuser at h
  cases hg : t.get p with
  | none => rw [hg] at h; cases h
  | some c =>
    rw [hg] at h
    obtain ⟨hc, hp⟩ := get_mem hg
    rw [(hs c hc).1 m h, hp]

theorem join_ok {m : Except Err Op} {x : Except Err (List Op)} {r : List Op} (h : join m x = .ok r) :
    ∃ a s, m = .ok a ∧ x = .ok s ∧ r = a :: s := by
  unfold join at h
  cases m with
  | error e => cases h
  | ok a =>
    cases x with
    | error e => cases h
    | ok s => cases h; exact ⟨a, s, rfl, rfl, rfl⟩

theorem fuseRev_parts {t : Table} (hs : Sound t) : ∀ (n : Nat) (l : List Op), l.length ≤ n → ∀ r,
    fuseRev t l = .ok r → r.reverse.flatMap parts = l.reverse.flatMap parts := by
  intro n
  induction n with
  | zero =>
    intro l hl r h
    have : l = [] := List.length_eq_zero_iff.1 (by omega)
    subst this
    rw [fuseRev] at h
    cases h; rfl
  | succ n ih =>
    intro l hl r h
    match l with
    | [] => rw [fuseRev] at h; cases h; rfl
    | [a] => rw [fuseRev] at h; cases h; rfl
    | [a, b] =>
      rw [fuseRev] at h
      cases hf : t.fuser (.two a b) with
      | none => rw [hf] at h; cases h; rfl
      | some m =>
        rw [hf] at h
        obtain ⟨x, s, rfl, hx, rfl⟩ := join_ok h
        cases hx
        have := fuser_sound hs hf
        simpa [Pat.ops] using this
    | a :: b :: c :: l' =>
      rw [fuseRev] at h
      cases h3 : t.fuser (.three a b c) with
      | some m =>
        rw [h3] at h
        obtain ⟨x, s, rfl, hx, rfl⟩ := join_ok h
        have h1 := fuser_sound hs h3
        have h2 := ih l' (by simp at hl; omega) s hx
        simp only [List.reverse_cons, List.flatMap_append, List.flatMap_cons, List.flatMap_nil, List.append_nil]
        rw [h2, h1]
        simp [Pat.ops, List.append_assoc]
      | none =>
        rw [h3] at h
        dsimp only at h
        cases h2 : t.fuser (.two a b) with
        | some m =>
          rw [h2] at h
          obtain ⟨x, s, rfl, hx, rfl⟩ := join_ok h
          have h1 := fuser_sound hs h2
          have h2 := ih (c :: l') (by simp at hl ⊢; omega) s hx
          simp only [List.reverse_cons, List.flatMap_append, List.flatMap_cons, List.flatMap_nil, List.append_nil] at h2 ⊢
          rw [h2, h1]
          simp [Pat.ops, List.append_assoc]
        | none =>
          rw [h2] at h
          obtain ⟨x, s, hxa, hx, rfl⟩ := join_ok h
          cases hxa
          have h2 := ih (b :: c :: l') (by simp at hl ⊢; omega) s hx
          simp only [List.reverse_cons, List.flatMap_append, List.flatMap_cons, List.flatMap_nil, List.append_nil] at h2 ⊢
          rw [h2]

theorem sound_of {t : Table} (h : soundB t = true) : Sound t := by
  intro c hc
  unfold soundB at h
  have := List.all_eq_true.1 h c hc
  rw [Bool.and_eq_true] at this
  refine ⟨fun m hm => ?_, fun m q hm hq => ?_⟩
  · have := this.1
    rw [hm] at this
    simpa using this
  · have := this.2
    rw [hm, hq] at this
    simpa using this

theorem three_none {t : Table} (h : threeB t = true) {a b c : Op} (hb : ∀ d, ¬ (b = .bn d ∧ c = .conv d)) :
    t.fuser (.three a b c) = none := by
  unfold Table.fuser
  cases hg : t.get (.three a b c) with
  | none => rfl
  | some e =>
    exfalso
    obtain ⟨he, hp⟩ := get_mem hg
    have := List.all_eq_true.1 h e he
    rw [hp] at this
    split at this
    · rename_i heq
      cases heq
      exact hb _ ⟨rfl, by simpa using this⟩
    · cases this
    · rename_i h1
      exact h1 _ _ _ rfl

theorem get_puts' (t : Table) (cs : List Cfg) (p : Pat) : (t.puts cs).get p = (look cs p).or (t.get p) := by
  unfold Table.puts look
  induction cs generalizing t with
  | nil => simp
  | cons c cs ih =>
    rw [List.foldl_cons, ih, get_put, List.reverse_cons, List.find?_append]
    by_cases hp : c.pattern = p
    · cases List.find? (fun e => decide (e.pattern = p)) cs.reverse <;> simp [hp]
    · cases List.find? (fun e => decide (e.pattern = p)) cs.reverse <;> simp [hp]

theorem get_puts (cs : List Cfg) (p : Pat) : (Table.puts [] cs).get p = look cs p := by
  rw [get_puts']
  simp [Table.get]

theorem mem_put {t : Table} {c e : Cfg} (h : e ∈ t.put c) : e ∈ t ∨ e = c := by
  unfold Table.put at h
  by_cases ha : t.any (fun e => e.pattern = c.pattern) = true
  · rw [if_pos ha, List.mem_map] at h
    obtain ⟨x, hx, rfl⟩ := h
    by_cases hp : x.pattern = c.pattern
    · rw [if_pos hp]; exact Or.inr rfl
    · rw [if_neg hp]; exact Or.inl hx
  · rw [if_neg ha] at h
    simpa using h

theorem mem_puts' {cs : List Cfg} {t : Table} {e : Cfg} (h : e ∈ t.puts cs) : e ∈ t ∨ e ∈ cs := by
  unfold Table.puts at h
  induction cs generalizing t with
  | nil => exact Or.inl h
  | cons c cs ih =>
    rw [List.foldl_cons] at h
    rcases ih h with h1 | h1
    · rcases mem_put h1 with h2 | h2
      · exact Or.inl h2
      · exact Or.inr (by simp [h2])
    · exact Or.inr (List.mem_cons_of_mem _ h1)

theorem mem_puts {cs : List Cfg} {e : Cfg} (h : e ∈ Table.puts [] cs) : e ∈ cs := by
  rcases mem_puts' h with h1 | h1
  · cases h1
  · exact h1

theorem puts_append (t : Table) (a b : List Cfg) : t.puts (a ++ b) = (t.puts a).puts b := by
  unfold Table.puts; rw [List.foldl_append]

theorem puts_one (t : Table) (c : Cfg) : t.puts [c] = t.put c := rfl

theorem native_eq : native = Table.puts [] rawNative := by
  unfold native rawNative; simp only [puts_append, puts_one]
theorem openvino_eq : openvino = Table.puts [] rawOpenvino := by
  unfold openvino rawOpenvino; simp only [puts_append, puts_one]
theorem tensorrt_eq : tensorrt = Table.puts [] rawTensorrt := by
  unfold tensorrt rawTensorrt; simp only [puts_append, puts_one]
theorem academic_eq : academic = Table.puts [] rawAcademic := by
  unfold academic rawAcademic; simp only [puts_append]

theorem tables_raw {t : Table} (h : t ∈ tables) : ∃ cs ∈ raws, t = Table.puts [] cs := by
  simp only [tables, List.mem_cons, List.not_mem_nil, or_false] at h
  rcases h with h | h | h | h
  · exact ⟨rawNative, by simp [raws], h.trans native_eq⟩
  · exact ⟨rawOpenvino, by simp [raws], h.trans openvino_eq⟩
  · exact ⟨rawTensorrt, by simp [raws], h.trans tensorrt_eq⟩
  · exact ⟨rawAcademic, by simp [raws], h.trans academic_eq⟩

theorem fuser_puts (cs : List Cfg) (p : Pat) : (Table.puts [] cs).fuser p = (look cs p).bind Cfg.fuse := by
  unfold Table.fuser; rw [get_puts]

theorem swap_puts (cs : List Cfg) (m : Op) : (Table.puts [] cs).swap m = ((look cs (.one m)).bind Cfg.qat).getD m := by
  unfold Table.swap; rw [get_puts]

theorem fuseRev_two (t : Table) (a b : Op) : fuseRev t [a, b] =
    match t.fuser (.two a b) with
    | some m => join m (.ok [])
    | none => .ok [a, b] := by rw [fuseRev]; rfl

theorem tables_three {t : Table} (h : t ∈ tables) : threeB t = true := by
  have key : ∀ cs ∈ raws, threeB cs = true := by decide +kernel
  obtain ⟨cs, hc, rfl⟩ := tables_raw h
  have := key cs hc
  unfold threeB at this ⊢
  rw [List.all_eq_true] at this ⊢
  exact fun c hcc => this c (mem_puts hcc)

theorem tables_sound {t : Table} (h : t ∈ tables) : soundB t = true := by
  have key : ∀ cs ∈ raws, soundB cs = true := by decide +kernel
  obtain ⟨cs, hc, rfl⟩ := tables_raw h
  have := key cs hc
  unfold soundB at this ⊢
  rw [List.all_eq_true] at this ⊢
  exact fun c hcc => this c (mem_puts hcc)

/-- A network that ends in a pattern of two which is fused. -/
theorem fuse_two {t : Table} (l : List Op) {a b m : Op} (h3 : ∀ c, t.fuser (.three a b c) = none)
    (h2 : t.fuser (.two a b) = some (.ok m)) : fuse t (l ++ [b, a]) = snoc (fuse t l) m := by
  unfold fuse
  have e : (l ++ [b, a]).reverse = a :: b :: l.reverse := by simp
  rw [e]
  cases hl : l.reverse with
  | nil =>
    rw [fuseRev_two, h2]
    rfl
  | cons c r =>
    rw [fuseRev, h3 c]
    dsimp only
    rw [h2]
    dsimp only
    cases fuseRev t (c :: r) with
    | error e => rfl
    | ok s => simp [join, snoc]

/-- A network that ends in a pattern of two whose fuser fails. -/
theorem fuse_two_error {t : Table} (l : List Op) {a b : Op} {e : Err} (h3 : ∀ c, t.fuser (.three a b c) = none)
    (h2 : t.fuser (.two a b) = some (.error e)) : fuse t (l ++ [b, a]) = .error e := by
  unfold fuse
  have e : (l ++ [b, a]).reverse = a :: b :: l.reverse := by simp
  rw [e]
  cases hl : l.reverse with
  | nil => rw [fuseRev_two, h2]; rfl
  | cons c r =>
    rw [fuseRev, h3 c]
    dsimp only
    rw [h2]
    rfl

/-- A network whose last operation is left alone. -/
theorem fuse_one {t : Table} (l : List Op) {a b : Op} (h3 : ∀ c, t.fuser (.three a b c) = none)
    (h2 : t.fuser (.two a b) = none) : fuse t (l ++ [b, a]) = snoc (fuse t (l ++ [b])) a := by
  unfold fuse
  have e : (l ++ [b, a]).reverse = a :: b :: l.reverse := by simp
  have e' : (l ++ [b]).reverse = b :: l.reverse := by simp
  rw [e, e']
  cases hl : l.reverse with
  | nil => rw [fuseRev_two, h2]; rfl
  | cons c r =>
    rw [fuseRev, h3 c]
    dsimp only
    rw [h2]
    dsimp only
    cases fuseRev t (b :: c :: r) with
    | error e => rfl
    | ok s => simp [join, snoc]

/-- A network that ends in a pattern of three which is fused. -/
theorem fuse_three {t : Table} (l : List Op) {a b c m : Op} (h3 : t.fuser (.three a b c) = some (.ok m)) :
    fuse t (l ++ [c, b, a]) = snoc (fuse t l) m := by
  unfold fuse
  have e : (l ++ [c, b, a]).reverse = a :: b :: c :: l.reverse := by simp
  rw [e, fuseRev, h3]
  dsimp only
  cases fuseRev t l.reverse with
  | error e => rfl
  | ok s => simp [join, snoc]

theorem prepare_of_fuse {t : Table} {l l' : List Op} {m : Op} (h : fuse t l' = snoc (fuse t l) m) :
    prepare t l' = snoc (prepare t l) (t.swap m) := by
  unfold prepare
  rw [h]
  cases fuse t l with
  | error e => rfl
  | ok r => simp [snoc]

end Verif.BackendCfg
