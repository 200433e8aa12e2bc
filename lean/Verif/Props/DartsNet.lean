import Verif.Lemmas.DartsNet

namespace Verif.DartsNet
open Verif SearchOps

/-! ## Specification -/

/-! ## Lemmas -/

/-! ## Properties -/

/-- C79: on an image whose sides are multiples of four, and for every choice of
edges and operations in every cell, the backbone of DARTS runs through: it returns
the features of the requested cells in increasing order, with
`nodes * base * 2 ^ r` channels and the sides of the image divided by `2 ^ r`, `r`
being the number of reduction cells so far; in training, the feature of the
auxiliary module comes first, if there is one and the map it reads is at least
7 x 7.

Partial: the sides must be multiples of four (see `C79_odd_image_violated`) and
the map of the auxiliary module large enough (`C79_auxiliary_violated`). -/
theorem C79_shapes_partial {g : Cfg} {cells : List CellCfg} (hm : make g = .ok cells)
    (hL : 1 ≤ g.L) (hn : 1 ≤ g.nodes) {training : Bool}
    {choice : List (List (List (ℕ × Op)))} (hlen : choice.length = g.L)
    (hg : ∀ ch ∈ choice, GoodChoice g.nodes ch) {h w : ℕ}
    (hh : 1 ≤ h) (hw : 1 ≤ w) (hh4 : h % 4 = 0) (hw4 : w % 4 = 0)
    (ha : g.aux.isSome = true → training = true →
      7 ≤ (cellShape g h w (2 * g.L / 3)).h ∧ 7 ≤ (cellShape g h w (2 * g.L / 3)).w) :
    run g cells training choice ⟨g.cin, h, w⟩
      = .ok (auxShape g training h w
          ++ ((List.range g.L).filter (fun j : ℕ => decide ((j : ℤ) ∈ g.outIdx))).map
            (cellShape g h w)) :=
  run_ok hm hL hn hlen hg hh hw hh4 hw4 ha

/-- C79: with two or more cells, the last feature, the one the classifier reads, has
`4 * nodes * base` channels and a quarter of the sides of the image, whatever the
number of cells and the choice; the feature of the auxiliary module is never
last. -/
theorem C79_last_feature {g : Cfg} {cells : List CellCfg} (hm : make g = .ok cells)
    (hL : 2 ≤ g.L) (hn : 1 ≤ g.nodes) {training : Bool}
    {choice : List (List (List (ℕ × Op)))} (hlen : choice.length = g.L)
    (hg : ∀ ch ∈ choice, GoodChoice g.nodes ch) {h w : ℕ}
    (hh : 1 ≤ h) (hw : 1 ≤ w) (hh4 : h % 4 = 0) (hw4 : w % 4 = 0)
    (ha : g.aux.isSome = true → training = true → 28 ≤ h ∧ 28 ≤ w) :
    ∃ outs, run g cells training choice ⟨g.cin, h, w⟩ = .ok outs
      ∧ outs.getLast? = some ⟨4 * g.nodes * g.base, h / 4, w / 4⟩ := by
  have hlast : ∀ j, 2 * g.L / 3 ≤ j → reductions g.L (j + 1) = 2 := by
    intro j hj
    rw [reductions_all hL, if_pos (by omega), if_pos (by omega)]
  refine ⟨_, run_ok hm (by omega) hn hlen hg hh hw hh4 hw4 (fun h1 h2 => ?_), ?_⟩
  · have := ha h1 h2
    unfold cellShape
    rw [hlast _ (le_refl _)]
    dsimp only
    omega
  · have hidx := (make_cells hm).2
    have hmem : ((g.L - 1 : ℕ) : ℤ) ∈ g.outIdx := by
      have : ((g.L - 1 : ℕ) : ℤ) = (g.L : ℤ) - 1 := by omega
      rw [this]
      exact List.mem_of_getLast? hidx
    have hr : List.range g.L = List.range (g.L - 1) ++ [g.L - 1] := by
      rw [← List.range_succ]
      congr 1
      omega
    rw [hr, List.filter_append, List.filter_cons_of_pos (by simpa using hmem), List.filter_nil,
      List.map_append, ← List.append_assoc]
    rw [List.map_cons, List.map_nil, List.getLast?_concat]
    unfold cellShape
    rw [hlast _ (by omega), show (2 : ℕ) ^ 2 = 4 from rfl]
    congr 2
    ring

/-- C79, DISAGREEMENT: with two or more cells, no image with an odd side gets through
the backbone, whatever the choice of operations: the cell after the first reduction
cell halves its first input by joining the maps of even and of odd positions, which
have different sizes. -/
theorem C79_odd_image_violated {g : Cfg} {cells : List CellCfg} (hm : make g = .ok cells)
    (hL : 2 ≤ g.L) (hn : 1 ≤ g.nodes) {training : Bool}
    {choice : List (List (List (ℕ × Op)))} (hlen : choice.length = g.L)
    (hg : ∀ ch ∈ choice, GoodChoice g.nodes ch) {h w : ℕ}
    (hh : 1 ≤ h) (hw : 1 ≤ w) (ho : h % 2 = 1 ∨ w % 2 = 1) :
    ∃ e, run g cells training choice ⟨g.cin, h, w⟩ = .error e := by
  obtain ⟨rfl, -⟩ := make_cells hm
  unfold run
  rw [stem_ok hh hw]
  exact cells_odd hn hh hw ho hL g.L 0 _ _ choice [] (by omega) (by omega) hlen hg

/-- C79, DISAGREEMENT: with an auxiliary module, training fails on every image whose
map at the auxiliary module is smaller than 7 x 7 (a side below 28), while
evaluation of the same images works. -/
theorem C79_auxiliary_violated {g : Cfg} {cells : List CellCfg} (hm : make g = .ok cells)
    (hL : 2 ≤ g.L) (hn : 1 ≤ g.nodes) (haux : g.aux.isSome = true)
    {choice : List (List (List (ℕ × Op)))} (hlen : choice.length = g.L)
    (hg : ∀ ch ∈ choice, GoodChoice g.nodes ch) {h w : ℕ}
    (hh : 1 ≤ h) (hw : 1 ≤ w) (hh4 : h % 4 = 0) (hw4 : w % 4 = 0) (hs : h < 28 ∨ w < 28) :
    (∃ e, run g cells true choice ⟨g.cin, h, w⟩ = .error e)
    ∧ ∃ outs, run g cells false choice ⟨g.cin, h, w⟩ = .ok outs := by
  refine ⟨?_, _, run_ok hm (by omega) hn hlen hg hh hw hh4 hw4
    (fun _ h => absurd h (by decide))⟩
  obtain ⟨rfl, -⟩ := make_cells hm
  obtain ⟨⟨mid, out⟩, ha⟩ := Option.isSome_iff_exists.1 haux
  have hs' : (cellShape g h w (2 * g.L / 3)).h < 7 ∨ (cellShape g h w (2 * g.L / 3)).w < 7 := by
    unfold cellShape
    rw [reductions_all hL, if_pos (by omega), if_pos (by omega)]
    dsimp only
    omega
  obtain ⟨e, he⟩ := cells_aux_small hn hh4 hw4 hh hw ha hs' g.L 0 0 (g.mult * g.base)
    (g.mult * g.base) false choice [] (by omega) (Nat.zero_le _) (by omega) hlen hg rfl
  rw [show reductions g.L 0 = 0 from rfl, Nat.pow_zero, Nat.div_one, Nat.div_one,
    Nat.mul_one] at he
  unfold run
  rw [stem_ok hh hw]
  exact ⟨e, he⟩

/-- C79: the list of requested cells is accepted exactly if its last entry is the last
cell; the other entries are not looked at, and entries that name no cell are
ignored. -/
theorem C79_out_indices (g : Cfg) :
    (∃ cells, make g = .ok cells) ↔ g.outIdx.getLast? = some ((g.L : ℤ) - 1) := by
  constructor
  · rintro ⟨cells, h⟩
    exact (make_cells h).2
  · intro h
    refine ⟨cellsFrom g.L g.nodes g.L 0 g.base (g.mult * g.base) (g.mult * g.base) false, ?_⟩
    unfold make
    rw [h]
    exact if_pos rfl

example : GoodChoice 2 [[(0, .skip), (1, .sepConv 3)], [(2, .poolBN 3), (0, .dilConv 5)]] := by
  refine ⟨rfl, fun d node hd => ?_⟩
  match d, hd with
  | 0, hd =>
    cases hd
    refine ⟨by simp, ?_⟩
    simp [IsDarts]
  | 1, hd =>
    cases hd
    refine ⟨by simp, ?_⟩
    simp [IsDarts]

example : ∃ cells, make exCfg = .ok cells
    ∧ run exCfg cells true exChoice ⟨3, 32, 32⟩
      = .ok [⟨768, 1, 1⟩, ⟨32, 32, 32⟩, ⟨128, 8, 8⟩] := ⟨_, rfl, by decide⟩
example : ∃ cells, make exCfg = .ok cells
    ∧ run exCfg cells false exChoice ⟨3, 32, 32⟩
      = .ok [⟨32, 32, 32⟩, ⟨128, 8, 8⟩] := ⟨_, rfl, by decide⟩
example : ∃ cells, make exCfg = .ok cells
    ∧ run exCfg cells false exChoice ⟨3, 33, 32⟩ = .error .runtime := ⟨_, rfl, by decide⟩

/-- Which output indices are refused, and with which error: none at all (IndexError), and a last one other than the last
cell (AssertionError). -/
theorem C79_refused (g : Cfg) (e : Err) :
    make g = .error e ↔ (g.outIdx = [] ∧ e = .index) ∨
      (∃ z, g.outIdx.getLast? = some z ∧ z ≠ (g.L : ℤ) - 1 ∧ e = .assertion) := by
  unfold make
  cases h : g.outIdx.getLast? with
  | none =>
    have : g.outIdx = [] := by simpa using h
    simp [this, eq_comm]
  | some z =>
    have hne : g.outIdx ≠ [] := by
      intro h'
      rw [h'] at h
      cases h
    by_cases hz : z = (g.L : ℤ) - 1
    · simp [hz, hne]
    · simp [hz, hne, eq_comm]

/-- A node without edges and a cell without nodes are refused with a RuntimeError. -/
theorem C79_empty (c : ℕ) (red : Bool) (tensors : List Shape) :
    nodeRun c red tensors [] = .error .runtime ∧ catAll [] = .error .runtime := ⟨rfl, rfl⟩

end Verif.DartsNet
