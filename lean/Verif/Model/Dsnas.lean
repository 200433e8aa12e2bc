import Verif.Py

/-!
Model of the training schedule of DSNAS,
`/repo/mmrazor/models/algorithms/nas/dsnas.py`.

A run is a list of events: updates of the network, updates of the architecture
parameters and the fixing of the architecture, each with the epoch it happens
in.
-/
namespace Verif.Dsnas

/-- The options of `DSNAS.__init__`, dsnas.py 54-62. -/
structure Cfg where
  pretrain : Int
  finetune : Int
deriving DecidableEq

/-- The check of `__init__`, dsnas.py 89-94. -/
def mk? (pretrain finetune : Int) : Except Err Cfg :=
  if pretrain ≥ finetune then .error .value else .ok ⟨pretrain, finetune⟩

/-- What an iteration does. -/
inductive Act where
  | fix
  | net
  | arch
deriving DecidableEq

/-- The algorithm object and what it has done.  `isSupernet` is an attribute of
the Python object, not a buffer: it is not part of a checkpoint. -/
structure St where
  isSupernet : Bool
  log : List (Act × Int)
deriving DecidableEq

/-- `need_update_mutator`, dsnas.py 200-205. -/
def needUpdateMutator (c : Cfg) (epoch : Int) : Bool :=
  epoch ≥ c.pretrain && epoch < c.finetune

/-- The start of the finetune stage, dsnas.py 133-138.  `dist` is
`torch.distributed` (line 7): `dist.broadcast` raises when no process group has
been initialised. -/
def startFinetune (c : Cfg) (distInit : Bool) (epoch : Int) (s : St) : Except Err St :=
  if epoch = c.finetune ∧ s.isSupernet = true then
    if distInit then .ok ⟨false, s.log ++ [(.fix, epoch)]⟩ else .error .runtime
  else .ok s

/-- `DSNAS.train_step`, dsnas.py 127-163, for the epoch of the message hub. -/
def trainStep (c : Cfg) (distInit : Bool) (epoch : Int) (s : St) : Except Err St := do
  let s ← startFinetune c distInit epoch s
  let s := { s with log := s.log ++ [(.net, epoch)] }
  pure (if needUpdateMutator c epoch then { s with log := s.log ++ [(.arch, epoch)] } else s)

/-- `n` iterations in one epoch. -/
def epochRun (c : Cfg) (distInit : Bool) (epoch : Int) : Nat → St → Except Err St
  | 0, s => .ok s
  | n + 1, s => do
      let s ← trainStep c distInit epoch s
      epochRun c distInit epoch n s

/-- The epochs `start, start + 1, …, start + k - 1` of `n` iterations each. -/
def train (c : Cfg) (distInit : Bool) (n : Nat) : Nat → Int → St → Except Err St
  | 0, _, s => .ok s
  | k + 1, start, s => do
      let s ← epochRun c distInit start n s
      train c distInit n k (start + 1) s

/-- A newly built algorithm, also the one built to resume a run. -/
def fresh : St := ⟨true, []⟩

end Verif.Dsnas
