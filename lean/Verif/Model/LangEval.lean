import Verif.Py
import Verif.Float64
import Mathlib.Analysis.SpecialFunctions.Exp

/-! The examples of `projects/mmrazor_large/examples`: calibration and evaluation of compressed language models
(`language_models/OPT/utils.py`, `datautils.py`, `opt_sparse_gpt.py`; the files for LLaMA are the same up to what is said below) and of
compressed image classifiers (`ResNet/resnet18_gptq.py`). Numbers are reals instead of floats. -/

namespace Verif.LangEval
open Verif

variable {α : Type}

/-! ### Tokens -/

/-- `tokens.reshape([-1, L])` for a number of tokens that is a multiple of `L`: `n` rows. -/
def reshape (L : Nat) : Nat → List α → List (List α)
  | 0, _ => []
  | n + 1, t => t.take L :: reshape L n (t.drop L)

/-- `fold_tokens`, utils.py lines 12-19 (the same in datautils.py lines 110-117). -/
def foldTokens (tokens : List α) (L : Nat) : Except Err (List (List α)) :=
  if L = 0 then .error .zeroDivision
  else
    let drop := tokens.length % L
    let t := if drop ≠ 0 then tokens.take (tokens.length - drop) else tokens
    .ok (reshape L (t.length / L) t)

/-- `random.randint(0, n)` with the number `draw` drawn. -/
def randint (n : Int) (draw : Nat) : Except Err Nat := if n < 0 then .error .value else .ok (draw % (n.toNat + 1))

/-- One calibration sample of `get_wikitext2` and `get_ptb`, datautils.py lines 26-33 and 49-56: the tokens and the targets
(`none` stands for `-100`, a token without a loss). -/
def sample (tokens : List α) (L draw : Nat) : Except Err (List α × List (Option α)) :=
  match randint ((tokens.length : Int) - L - 1) draw with
  | .error e => .error e
  | .ok i =>
    let inp := (tokens.drop i).take L
    .ok (inp, List.replicate (inp.length - 1) none ++ (inp.drop (inp.length - 1)).map some)

/-- One calibration sample of `get_c4`, lines 80-91: documents are drawn until one is long enough. `none`: no more draws are given. -/
def sampleC4 (L draw : Nat) : List (List α) → Option (Except Err (List α × List (Option α)))
  | [] => none
  | doc :: rest => if L ≤ doc.length then some (sample doc L draw) else sampleC4 L draw rest

/-! ### Evaluation of language models -/

/-- The sum of what the cross entropy sees for one row: the costs of predicting its tokens from the second on. `cost row i` is the
negative log likelihood of token `i + 1` of the row after the tokens `0 … i` (rows do not influence each other). -/
noncomputable def rowCost (cost : List α → Nat → ℝ) (row : List α) : ℝ := ((List.range (row.length - 1)).map (cost row)).sum

/-- `nn.CrossEntropyLoss()` on a batch, utils.py lines 44-48: the mean over the predicted tokens; `none` is `nan`. -/
noncomputable def batchLoss (cost : List α → Nat → ℝ) (L : Nat) (batch : List (List α)) : Option ℝ :=
  if batch.length * (L - 1) = 0 then none else some ((batch.map (rowCost cost)).sum / (batch.length * (L - 1) : Nat))

/-- `torch.split(rows, size)`, with fuel for the number of batches: an empty tensor gives one empty batch. -/
def splitLoop (size : Nat) : Nat → List (List α) → List (List (List α))
  | 0, _ => []
  | n + 1, rows => if rows.length ≤ size then [rows] else rows.take size :: splitLoop size n (rows.drop size)

/-- `torch.split(rows, size)`. -/
def split (rows : List (List α)) (size : Nat) : Except Err (List (List (List α))) :=
  if size = 0 ∧ rows ≠ [] then .error .runtime else .ok (splitLoop size (rows.length + 1) rows)

/-- The sum of `neg_log_likelihood` over the batches, lines 36-50. -/
noncomputable def nllSum (cost : List α → Nat → ℝ) (L : Nat) : List (List (List α)) → Option ℝ
  | [] => some 0
  | b :: bs =>
    match batchLoss cost L b, nllSum cost L bs with
    | some x, some s => some (x * L * b.length + s)
    | _, _ => none

/-- `opt_eval`, lines 22-56: the perplexity that is printed. -/
noncomputable def optEval (cost : List α → Nat → ℝ) (tokens : List α) (L size : Nat) : Except Err (Option ℝ) :=
  match foldTokens tokens L with
  | .error e => .error e
  | .ok rows =>
    match split rows size with
    | .error e => .error e
    | .ok bs => .ok ((nllSum cost L bs).map (fun s => Real.exp (s / (rows.length * L : Nat))))

/-! ### Evaluation with several processes -/

/-- `LanguageDataset.__init__`, datautils.py lines 122-128: the rows. `seq_len` is kept but not used. -/
def dataset (tokens : List α) (_seqLen : Nat) : Except Err (List (List α)) := foldTokens tokens 2048

/-- `DistributedSampler` of PyTorch without shuffling: the indices of process `rank` of `world`. -/
def rankIndices (len world rank : Nat) : List Nat :=
  let num := (len + world - 1) / world
  let padding := num * world - len
  let all := List.range len ++ ((List.replicate ((padding + len - 1) / len) (List.range len)).flatten).take padding
  (List.range num).filterMap (fun q => all[rank + q * world]?)

/-- The batches of a `DataLoader` with `drop_last=True`. -/
def fullBatches (size : Nat) : Nat → List Nat → List (List Nat)
  | 0, _ => []
  | n + 1, l => if l.length < size then [] else l.take size :: fullBatches size n (l.drop size)

/-- `build_language_loader`, datautils.py lines 137-152: the batches of rows of a process. -/
def languageLoader (rows : List (List α)) (world rank batchSize : Nat) : Except Err (List (List (List α))) :=
  let size := min (rows.length / world) batchSize
  if size = 0 then .error .value
  else
    let idx := rankIndices rows.length world rank
    .ok ((fullBatches size (idx.length + 1) idx).map (fun b => b.filterMap (fun i => rows[i]?)))

/-- What one process sums up in `opt_eval_fsdp`, utils.py lines 110-128: `loss_sum` and `total_seq_len`. -/
noncomputable def rankSums (cost : List α → Nat → ℝ) (L : Nat) : List (List (List α)) → Option (ℝ × Nat)
  | [] => some (0, 0)
  | b :: bs =>
    match batchLoss cost L b, rankSums cost L bs with
    | some x, some s => some (x * L * b.length + s.1, L * b.length + s.2)
    | _, _ => none

/-- The two sums over the processes `rank < n`, `dist.all_reduce`, lines 138-140. -/
noncomputable def allSums (cost : List α → Nat → ℝ) (L : Nat) (rows : List (List α)) (world batchSize : Nat) :
    Nat → Except Err (Option (ℝ × Nat))
  | 0 => .ok (some (0, 0))
  | n + 1 =>
    match allSums cost L rows world batchSize n, languageLoader rows world n batchSize with
    | .ok s, .ok bs =>
      .ok (match s, rankSums cost L bs with
        | some s, some r => some (s.1 + r.1, s.2 + r.2)
        | _, _ => none)
    | .error e, _ => .error e
    | _, .error e => .error e

/-- `opt_eval_fsdp` on all processes, utils.py lines 98-144, for rows of length `L`. -/
noncomputable def optEvalFsdp (cost : List α → Nat → ℝ) (L : Nat) (rows : List (List α)) (world batchSize : Nat) : Except Err (Option ℝ) :=
  match allSums cost L rows world batchSize world with
  | .error e => .error e
  | .ok none => .ok none
  | .ok (some s) => if s.2 = 0 then .ok none else .ok (some (Real.exp (s.1 / s.2)))

/-! ### Calibration -/

/-- The loop of `opt_infer`, utils.py lines 76-82: the batches that go through the model; `i` are done. -/
def inferLoop (size num : Nat) : Nat → List (List (List α)) → List (List (List α))
  | _, [] => []
  | i, b :: bs => if num ≤ (i + 1) * size then [b] else b :: inferLoop size num (i + 1) bs

/-- `opt_infer`, lines 59-82: the rows that go through the model. -/
def optInfer (tokens : List α) (L size num : Nat) : Except Err (List (List α)) :=
  match foldTokens tokens L with
  | .error e => .error e
  | .ok rows =>
    match split rows size with
    | .error e => .error e
    | .ok bs => .ok (inferLoop size num 0 bs).flatten

/-- The loop of `infer` of resnet18_gptq.py, lines 95-111, on batches of images: `done` images are done. -/
def inferImages {X : Type} (num : Nat) : Nat → List (List X) → List (List X)
  | _, [] => []
  | done, b :: bs => if num < done + b.length then [b] else b :: inferImages num (done + b.length) bs

/-- What `get_loaders` gives: samples for calibration, and the tokens of the test set. -/
structure Loaders (α : Type) where
  train : List (List α)
  test : List α

/-- The calibration and the first evaluation of opt_sparse_gpt.py, lines 66-105 (opt_gptq.py lines 117-151), for one data set: the rows
that calibrate the model and the rows that it is evaluated on. -/
def script (l : Loaders α) (L size num : Nat) : Except Err (List (List α) × List (List α)) :=
  match optInfer l.test L size num with
  | .error e => .error e
  | .ok cal =>
    match foldTokens l.test L with
    | .error e => .error e
    | .ok rows => .ok (cal, rows)

/-- `model.config.use_cache` after `opt_infer` for OPT (line 71) and for LLaMA (lines 74 and 84 of its utils.py), when no error occurs. -/
def cacheAfterInfer (llama before : Bool) : Bool := if llama then before else false

/-- `model.config.use_cache` after `opt_eval`, lines 33-34 and 56. -/
def cacheAfterEval (before : Bool) : Bool := before

/-- An option with `type=bool` of `argparse` (`-m`, `--fp16`), given as a string, opt_sparse_gpt.py lines 53-57. -/
def boolOption (given : Option String) : Bool :=
  match given with
  | none => false
  | some s => !(s == "")

/-! ### Evaluation of image classifiers -/

/-- A whole number as a half precision float (11 bits; from 65520 on infinity, which is 65536 here). -/
def half (n : Nat) : Nat :=
  let k := Nat.log2 n - 10
  min 65536 (roundHalfEven n (2 ^ k) * 2 ^ k)

/-- `y == predicted` of `eval`, resnet18_gptq.py lines 82-89: with half precision both sides become half precision numbers. -/
def agrees (isHalf : Bool) (y predicted : Nat) : Bool := if isHalf then half y == half predicted else y == predicted

/-- `eval`, lines 69-92, on batches of labels and predictions: the number of correct ones and of all. -/
def evalLoop (isHalf : Bool) : List (List (Nat × Nat)) → Nat → Nat → Nat × Nat
  | [], correct, total => (correct, total)
  | b :: bs, correct, total => evalLoop isHalf bs (correct + b.countP (fun p => agrees isHalf p.1 p.2)) (total + b.length)

/-- The accuracy, line 91. -/
def accuracy (isHalf : Bool) (bs : List (List (Nat × Nat))) : Except Err ℚ :=
  let r := evalLoop isHalf bs 0 0
  if r.2 = 0 then .error .zeroDivision else .ok ((r.1 : ℚ) / r.2)

end Verif.LangEval
