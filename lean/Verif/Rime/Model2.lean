/-
Model of africanus/rime/dask_predict.py: the two source reductions and the dask predict_vis.
-/
import Verif.Rime.Model

set_option autoImplicit false

namespace Verif.Rime

/-! ### LinearReduction -/

/-- Keys of the graph of `LinearReduction` (dask_predict.py:142-147): intermediate blocks carry the source block number
in front of the output block number, final blocks only the latter. -/
inductive LKey
  | inter (i : Nat) (out : List Nat)
  | final (out : List Nat)
  deriving DecidableEq, Repr

/-- A task (dask_predict.py:117-141): the block fed in as `base_vis`, and the block numbers (source
block, output block) of which the keys of the other arguments are functions (`_ind_map`, 36-57). -/
structure LTask where
  feed : Option LKey
  src : Nat
  out : List Nat
  deriving DecidableEq, Repr

/-- `itertools.product(*[range(n) for n in blocks])` (rime/dask_predict.py:117). -/
def product : List Nat → List (List Nat)
  | [] => [[]]
  | n :: ns => (List.range n).flatMap fun i => (product ns).map fun l => i :: l

/-- The key and task made for one output index `(i,) + out` (dask_predict.py:116-147). -/
def lrEntry (axBlocks i : Nat) (out : List Nat) : LKey × LTask :=
  let task : LTask := ⟨if i = 0 then none else some (.inter (i - 1) out), i, out⟩
  if (i : Int) = axBlocks - 1 then (.final out, task) else (.inter i out, task)

/-- `LinearReduction._dict` (dask_predict.py:94-151). `axBlocks` is the number of blocks of the reduction
axis, `outBlocks` those of the output axes (`broadcast_dimensions`). -/
def lrDict (axBlocks : Nat) (outBlocks : List Nat) : List (LKey × LTask) :=
  (List.range axBlocks).flatMap fun i => (product outBlocks).map fun out => lrEntry axBlocks i out

/-- `LinearReduction.__len__` (dask_predict.py:159-169): the product of the numbers of blocks of the output
axes. -/
def lrLen (outBlocks : List Nat) : Nat := outBlocks.foldl (· * ·) 1

/-- `dsk[key]` (rime/dask_predict.py:60-222). -/
def lookup (d : List (LKey × LTask)) (k : LKey) : Option LTask := (d.find? fun e => e.1 = k).map Prod.snd

/-- Evaluation of a key by the scheduler: evaluate the fed block, then call the function with the fed
value and the block numbers. `fuel` bounds the length of the chain (dask rejects cyclic graphs) (rime/dask_predict.py:60-222). -/
def lrEval {W : Type*} (d : List (LKey × LTask)) (func : Option W → Nat → List Nat → Except PyErr W) :
    Nat → LKey → Except PyErr W
  | 0, _ => .error .runtimeError
  | fuel + 1, k =>
    match lookup d k with
    | none => .error .keyError
    | some t =>
      match t.feed with
      | none => func none t.src t.out
      | some k' =>
        match lrEval d func fuel k' with
        | .error e => .error e
        | .ok v => func (some v) t.src t.out

/-! ### the two reductions over source chunks -/

section reduce
variable {V : Type*}

/-- The source blocks `off, ..., off+n-1` of the terms (rime/dask_predict.py:225-249). -/
def Terms.dropSources (x : Terms V) (off : Nat) : Terms V :=
  { x with
    dde := x.dde.map fun e => (fun s => e.1 (off + s), fun s => e.2 (off + s))
    coh := x.coh.map fun b s => b (off + s) }

/-- Offset of source block `i` (rime/dask_predict.py:60-222). -/
def srcOff (chunks : List Nat) (i : Nat) : Nat := (chunks.take i).sum

/-- `np_predict_vis` on source block `i` without DIEs and with the given base visibilities
(dask_predict.py:187-204 and 225-247). -/
def predictBlock (k : Kernel V) (chunks : List Nat) (nrow nchan : Nat) (time ant1 ant2 : Nat → Nat)
    (x : Terms V) (bvis : Option (Nat → Nat → V)) (i : Nat) : Except PyErr (Nat → Nat → V) :=
  predictVis k (chunks.getD i 0) nrow nchan time ant1 ant2
    { x.dropSources (srcOff chunks i) with die := none, bvis := bvis }

/-- `linear_reduction` (dask_predict.py:172-222) for one output block: evaluation of its final key. -/
def linearReduction (k : Kernel V) (chunks : List Nat) (nrow nchan : Nat) (time ant1 ant2 : Nat → Nat)
    (x : Terms V) (outBlocks out : List Nat) : Except PyErr (Nat → Nat → V) :=
  lrEval (lrDict chunks.length outBlocks)
    (fun bvis i _ => predictBlock k chunks nrow nchan time ant1 ant2 x bvis i) (chunks.length + 1) (.final out)

/-- The bracketing chosen by dask's tree reduction; leaves are block numbers (for the sum in rime/dask_predict.py:300-302). -/
inductive SumTree
  | leaf (i : Nat)
  | node (l r : SumTree)

/-- The block numbers from left to right (for the sum in rime/dask_predict.py:300-302). -/
def SumTree.leaves : SumTree → List Nat
  | .leaf i => [i]
  | .node l r => l.leaves ++ r.leaves

/-- `coherencies.sum(axis=0)` (dask_predict.py:302), evaluated along a given tree. -/
def SumTree.eval (k : Kernel V) (blk : Nat → Except PyErr (Nat → Nat → V)) :
    SumTree → Except PyErr (Nat → Nat → V)
  | .leaf i => blk i
  | .node l r =>
    match l.eval k blk with
    | .error e => .error e
    | .ok a =>
      match r.eval k blk with
      | .error e => .error e
      | .ok b => .ok fun r f => k.addVis (b r f) (a r f)

/-- `parallel_reduction` (dask_predict.py:266-302). -/
def parallelReduction (k : Kernel V) (chunks : List Nat) (nrow nchan : Nat) (time ant1 ant2 : Nat → Nat)
    (x : Terms V) (tree : SumTree) : Except PyErr (Nat → Nat → V) :=
  tree.eval k fun i => predictBlock k chunks nrow nchan time ant1 ant2 x none i

/-- How sources are reduced (`streams`, dask_predict.py:416-433). -/
inductive Strategy
  | linear (outBlocks out : List Nat)
  | parallel (tree : SumTree)

/-- The call of the chosen reduction (dask_predict.py:422-433). -/
def skySum (k : Kernel V) (chunks : List Nat) (nrow nchan : Nat) (time ant1 ant2 : Nat → Nat)
    (x : Terms V) : Strategy → Except PyErr (Nat → Nat → V)
  | .linear outBlocks out => linearReduction k chunks nrow nchan time ant1 ant2 x outBlocks out
  | .parallel tree => parallelReduction k chunks nrow nchan time ant1 ant2 x tree

/-- The dask `predict_vis` (dask_predict.py:355-455) on one block of rows, times and channels, after the
checks on chunks. Line 407 takes the result type of everything but `base_vis`: with only `base_vis` supplied it
raises `ValueError`. -/
def daskPredict (k : Kernel V) (chunks : List Nat) (nrow nchan : Nat) (time ant1 ant2 : Nat → Nat)
    (x : Terms V) (st : Strategy) : Except PyErr (Nat → Nat → V) :=
  if x.dde.isNone && x.coh.isNone && x.die.isNone then .error .valueError else
  let sum : Except PyErr (Option (Nat → Nat → V)) :=
    if x.coh.isSome || x.dde.isSome then
      match skySum k chunks nrow nchan time ant1 ant2 x st with
      | .error e => .error e
      | .ok v => .ok (some v)
    else .ok none
  match sum with
  | .error e => .error e
  | .ok sum =>
    match x.die, x.bvis, sum with
    | none, none, some v => .ok v
    | none, none, none => .error .valueError
    | die, bvis, sum =>
      let bvis' : Option (Nat → Nat → V) :=
        match sum, bvis with
        | some v, none => some v
        | some v, some b => some fun r f => k.addVis (v r f) (b r f)
        | none, b => b
      predictVis k 0 nrow nchan time ant1 ant2 { dde := none, coh := none, die := die, bvis := bvis' }

end reduce

end Verif.Rime
