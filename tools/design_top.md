# Formal model of open-mmlab/mmrazor in Lean 4

## What this is

`/verif/lean` is a Lake project with a hand-written executable model of the
logic of mmrazor (`/repo`, read as text, never run) and machine-checked
theorems about it.  `/verif/properties.jsonl` lists the properties in English,
`/verif/MANIFEST.json` maps each to exact theorem names, and
`/verif/seeded/LOG.jsonl` records the wrong programs the theorems were tested
against.

## Layout

* `Verif/Model/*.lean` – definitions mirroring the Python code, function by
  function.  Every definition cites file and lines in `/repo` and says where it
  simplifies.
* `Verif/Spec/*.lean` – small specifications the theorems are stated with.
* `Verif/Lemmas/*.lean` – helper lemmas.
* `Verif/Props/*.lean` – the property theorems, named `Cxx_...`, with
  `example`s showing concrete non-trivial cases that meet their hypotheses.
* `Verif/Py.lean` – Python exceptions, `int(...)`, `//`; `Verif/Sort.lean` – a
  stable insertion sort (Python's `sorted`) that the kernel can evaluate;
  `Verif/Float64.lean` – rounding of rationals to 53-bit doubles, used where a
  property depends on float rounding (C07, C34).
* `tools/` – `manifest.py` (imports and MANIFEST), `design.py` (the generated
  sections at the end of this file), `split.py` (moves helpers out of the
  property files), `seed.py` and `automut.py` (seeded bugs).

Naming: `Cxx_name` is proved at full strength of that part of the property,
`Cxx_name_partial` is proved under a guard that the English property does not
have, `Cxx_name_violated` (or `..._fails`) is a proved disagreement: the
unchanged code violates the English property, at a concrete witness or for a
whole class of inputs.  A property with a `_partial`, `_violated` or `_fails`
theorem has status "partial" in the manifest.

## Modelling conventions

* Python `int` → `Int`/`Nat`; Python/torch `float` → exact rationals `ℚ`, or
  reals `ℝ` where the code takes a cosine, a logarithm, an exponential or a
  square root (C19, C46, C50, C53).  Floating-point rounding is not modelled
  except where said: `Float64.lean` in C07, the doubled `int(k * ratio)` in
  C34, half-precision scales in C40.  Elsewhere a theorem about real arithmetic
  is about the intended arithmetic only.  Where integrality matters (`int(...)`,
  `//`, `round`) the integer operation is modelled exactly on the exact
  argument.  NaN and infinities are explicit values where they can arise.
* Tensors → lists (or functions on finite indices) of rationals, masks →
  `List Bool`.
* Exceptions and failed `assert`s → `Except Err α` values.  State after a
  failing call is modelled when the property is about it (`step` returns the
  state together with the error).
* Randomness, validation scores, resource estimates, neural-network forward
  passes, clocks → parameters (functions or streams) the theorems quantify over.
* `while` loops whose termination depends on randomness take the stream of
  random outcomes as a finite list; the loop stops when it runs out ("still
  running").
* Checkpoint files → values of the saved state; a crash is "throw the live state
  away and call resume on a saved value".
* Dictionaries keep insertion order (association lists), as in Python ≥ 3.7.

## Trusted base

* Lean 4.33.0 kernel; the Mathlib modules imported one at a time (checked by
  the kernel too).
* Axioms: at most `propext`, `Classical.choice`, `Quot.sound`; the list per
  theorem is generated below.  No axioms are added, no `sorry`, no
  `native_decide`/`bv_decide`.
* The faithfulness of the model to the code: by reading only.  Which parts are
  modelled, and which are not, is listed below.
* The behaviour of torch, mmengine, numpy and Python built-ins, as listed in
  "Assumed library behaviour".

## Plan per property

| id | model | proof |
|----|-------|-------|
| C01 | `make_divisible` on rationals (`int`, `//` exact) | arithmetic; monotonicity by cases on the correction step |
| C02 | `range(start,end+1,step)` unrolled | induction on the range |
| C03 | `IndexDict` as a sorted association list with the code's overlap test; container mask | invariant over registrations and reads; counterexamples |
| C04 | state machine of `MutableValue` with raising operations | invariant by induction over operations; counterexample: assignment after fixing |
| C05 | sequential channel mask state machine | induction over operations; counterexample: rejected fix changes the mask |
| C06 | derived mutables as functions of a source store | refinement: choice = popcount(mask) for every store; counterexamples for float division and snapshots |
| C07 | `_prepare_candidate_choices`, setters | list lemmas (sorted, nodup, bounds); counterexamples for widths not divisible and for IEEE rounding |
| C08, C09 | candidate dictionaries of one-shot/diff modules with fix/forward | invariants over call histories; counterexamples |
| C10, C11 | module tree as a list of (name, mutable); export/load | round trip by induction on the list; counterexamples |
| C12 | candidate pool operations and Python's stable sort | permutation/sortedness/stability |
| C13, C14, C16, C17 | the evolution loop as a step function over oracles | invariant over epochs; resume counterexample; file set after each epoch |
| C15 | `crossover` on dictionaries with random stream | induction on keys |
| C18 | AutoSlim loop as step function with score oracle, checkpoints | invariant and termination measure; resume counterexample |
| C19 | greedy sampler loop and probability schedule | closed forms; counterexamples |
| C20, C21 | graph with prev/next lists; Kahn traversal | invariants; exactly-once and order; cyclic case |
| C22 | parent-pointer union-find as in the code | refinement to equivalence closure |
| C23 | iteration over a list mutated while iterating | counterexample and single-mismatch theorem |
| C24, C25 | group builder on named/aliased elements; mutator set/get | partition by induction; counterexamples |
| C26 | autograd graph as a tree; parsers with the shared `cur_path` | equality with the set of root-leaf paths; counterexamples |
| C27, C28 | tensors as lists of rationals; masked select/scatter; running statistics | list algebra for all masks, induction over histories |
| C29 | kernel window and padding arithmetic | sums over windows, `omega` |
| C30, C31 | per-op counters, accumulation over trees, estimator options as state | structural induction; counterexamples |
| C32, C33 | heap of attributes with wrappers; FIFO queue | LIFO restoration; queue invariant; counterexamples |
| C34 | schedule functions, resume | arithmetic, induction over iterations; counterexamples |
| C35 | masks and importances per unit | argmin, count of active channels; counterexample at the 1e5 sentinel |
| C36 | threshold list, saved names | induction over the FLOPs history; counterexamples |
| C37 | flag machine of observers, fake-quantisers, BN | decision tables for all epochs and iterations; counterexamples |
| C38 | ranges, clamps, observers | arithmetic |
| C39 | GPTQ quantiser on rationals | error bounds |
| C40 | bit packing on naturals | `testBit` extensionality, round trip by induction on fields; counterexamples |
| C41 | running averages over batches | induction over batches; counterexamples |
| C42 | column selection in blocks | counting; counterexamples |
| C43 | loader lists | induction; counterexample: exhausted loader does not restart |
| C44 | index lists per class | list membership |
| C45 | encoding/decoding over groups | induction; counterexamples |
| C46 | gradient buffers as mutable cells | restoration for all gradients; counterexample: aliasing makes the term vanish |
| C47 | DSNAS stage machine | decision logic, induction over iterations; resume counterexample |
| C48 | channel expansion of conv/norm layers | placement lemmas for all masks; counterexamples |
| C49 | fx graph with fake-quant nodes | reachability of removals preserves the rest; counterexample: shared fake-quantiser |
| C50 | FLOPs loss over the reals with infinities and NaN | monotonicity of the logarithm; counterexamples |
| C51 | directory listing and names; timing loop | decimal round trip, max over list; sums over rounds; counterexamples |
| C52 | selection of channels by norm | sortedness and counting |
| C53 | softmax-weighted choice | real inequalities |

## Assumed library behaviour

* Python: `sorted` is stable; `int()` truncates towards zero, `//` rounds down;
  `round` rounds halves to even; `dict` keeps insertion order; `copy.copy` of an
  `OrderedDict` subclass re-inserts item by item; a list that grows while it is
  iterated is read by index; a recursion deeper than the limit raises.
* torch: boolean-mask indexing keeps the order of the selected entries;
  `masked_scatter_` fills the selected entries in order; `torch.ones` of a
  negative size raises; `torch.log` is NaN below zero and minus infinity at zero;
  gradients accumulate in place, and `param.grad.data` aliases the buffer;
  BN with momentum `None` averages cumulatively; `dict`-valued module
  attributes are not saved in a state dict; `torch.distributed.broadcast`
  raises without a process group; fx graphs iterate over their nodes in order,
  `replace_all_uses_with` and `erase_node` act as documented.
* mmengine: `update_params` = backward, step, zero_grad; hooks run in order;
  `Config`, `fileio` and `Runner` deliver what was stored.
* The floating point, CUDA kernels, autograd and the networks themselves are
  parameters.

