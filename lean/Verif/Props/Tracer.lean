import Verif.Lemmas.Tracer

namespace Verif.Tracer
open Verif

variable {K : Type} [DecidableEq K]

/-- Without linear layers, whatever the graph, everything listed is a list of layers met
in order on some way down from the output, and nothing else is mixed in. Missing: linear layers, see `C26_linear_violated`. -/
theorem C26_sound_partial (shared : K → Bool) (g : G K) (h : linFree g = true) :
    ∀ path ∈ traceModel shared g, Walk g path := by
  obtain ⟨new, vis', h1, h2⟩ := trace_sound shared g ⟨[], [], []⟩ h
  intro path hp
  simp only [traceModel, h1] at hp
  simp at hp
  exact h2 path hp

/-- Without linear layers, if every convolution that runs once per pass is met once (and
no normalisation has its name), exactly the routes are listed. Missing: linear layers,
and graphs that branch and join again. -/
theorem C26_exact_partial (shared : K → Bool) (g : G K) (h : linFree g = true)
    (hnd : (onceConvs shared g).Nodup) (hm : ∀ n ∈ onceConvs shared g, n ∉ norms g) :
    traceModel shared g = allRoutes g := by
  obtain ⟨vis', h1, _⟩ := trace_exact shared g ⟨[], [], []⟩ h hnd (by simp) hm
  simp [traceModel, h1]

/-- With linear layers only in a chain at the output, as in a classification head, the
routes are listed exactly. Missing: linear layers elsewhere, see `C26_linear_violated`. -/
theorem C26_head_partial (shared : K → Bool) (g : G K) (h : TopLin g)
    (hnd : (topNames shared g ++ onceConvs shared g).Nodup) (hm : ∀ n ∈ onceConvs shared g, n ∉ norms g) :
    traceModel shared g = allRoutes g := by
  have := topLin_exact shared h ⟨[], [], []⟩ hnd (by simp) hm
  simpa [traceModel] using this

/-- Two linear layers side by side (or a linear layer beside a convolution): the layer of
the first branch is listed on the route of the second. -/
theorem C26_linear_violated :
    ∃ g : G Nat, (onceConvs (fun _ => false) g).Nodup ∧
      (traceModel (fun _ => false) g).map flat = [[(.linear, 1)], [(.linear, 1), (.conv, 2)]] ∧
      (allRoutes g).map flat = [[(.linear, 1)], [(.conv, 2)]] :=
  ⟨.other [.linear 1 .null, .conv false 2 .null], by decide, by decide, by decide⟩

/-- A residual connection: the second route stops at the layer where the branches join,
although two routes lead on to layer 1. -/
theorem C26_residual_violated :
    ∃ g : G Nat, linFree g = true ∧
      (traceModel (fun _ => false) g).map flat = [[(.conv, 3), (.conv, 2), (.conv, 1)], [(.conv, 2)]] ∧
      (allRoutes g).map flat = [[(.conv, 3), (.conv, 2), (.conv, 1)], [(.conv, 2), (.conv, 1)]] :=
  ⟨.other [.conv false 3 (.conv false 2 (.conv false 1 .null)), .conv false 2 (.conv false 1 .null)],
    by decide, by decide, by decide⟩

/-- A route that ends in a parameter rather than in a data input is not listed. -/
theorem C26_parameter_violated :
    ∃ g : G Nat, linFree g = true ∧ (∃ w, Walk g [w]) ∧ (traceModel (fun _ => false) g).map flat = [] :=
  ⟨.conv false 1 (.other []), by decide, ⟨_, .conv false 1 _ [] (.stop _)⟩, by decide⟩

/-- In a graph of convolutions and normalisations, with branches joining as they like: if
a convolution run once per pass has the same input wherever it is met, and below every
layer some route reaches a data input, then every two layers following each other on some
route follow each other on a listed path. (Whole routes need not be listed, see
`C26_residual_violated`; concatenations and linear layers are missing.) -/
theorem C26_pairs_partial (shared : K → Bool) (T : K → Option (Bool × G K)) (g : G K)
    (h : plain g = true) (hg : grounded g = true) (hT : SameBelow shared T g) :
    ∀ e ∈ edges g, Listed (traceModel shared g) e :=
  (trace_edges shared T g ⟨[], [], []⟩ h hg hT (by intro m hm; simp at hm)).1

example : linFree resBlock = true ∧ plain resBlock = true ∧ grounded resBlock = true ∧
    SameBelow (fun _ => false)
      (fun n => if n = 3 then some (false, .norm 10 (.conv false 2 (.conv false 1 .null)))
        else if n = 2 then some (false, .conv false 1 .null) else if n = 1 then some (false, .null) else none) resBlock ∧
    edges resBlock = [((.conv, 3), (.norm, 10)), ((.norm, 10), (.conv, 2)), ((.conv, 2), (.conv, 1)), ((.conv, 2), (.conv, 1))] := by
  refine ⟨by decide, by decide, by decide, ?_, by decide⟩
  simp [resBlock, SameBelow, SameBelowAll]

example : ∃ g : G Nat, linFree g = true ∧ (onceConvs (fun n => n == 7) g).Nodup ∧
    (∀ n ∈ onceConvs (fun n => n == 7) g, n ∉ norms g) ∧
    (traceModel (fun n => n == 7) g).map flat = [[(.conv, 1), (.norm, 2), (.conv, 7)], [(.conv, 3), (.conv, 7)], []] :=
  ⟨.other [.conv false 1 (.norm 2 (.conv false 7 .null)), .conv false 3 (.conv false 7 .null),
     .cat 9 [.conv false 4 .null, .null]], by decide, by decide, by decide, by decide⟩

example : TopLin (G.linear 1 (.other [.linear 2 (.other [.conv false 3 .null, .norm 4 .null])])) ∧
    (topNames (fun _ => false) (G.linear 1 (.other [.linear 2 (.other [.conv false 3 .null, .norm 4 .null])])) ++
      onceConvs (fun _ => false) (G.linear 1 (.other [.linear 2 (.other [.conv false 3 .null, .norm 4 .null])]))).Nodup :=
  ⟨.linear _ _ (.other _ (.linear _ _ (.base _ (by decide)))), by decide⟩

end Verif.Tracer
