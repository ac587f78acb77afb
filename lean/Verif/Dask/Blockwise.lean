/-
A model of the part of `dask.array` that the wrappers of africanus use: arrays cut into blocks, the unification of the
chunks of several arrays, and `blockwise`.

This is a model of a dependency, not of /repo: it is what the theorems of this directory assume of dask 2.x
(`dask.array.core.unify_chunks`, `common_blockdim`, `dask.array.blockwise.blockwise` with `concatenate=None` and
`align_arrays=True`, `dask.blockwise.lol_tuples`). Unknown (nan) chunks, `adjust_chunks` and dtypes are left out.
An array is its extents and a function of the list of its indices.
-/
import Verif.Blocks

set_option autoImplicit false

namespace Verif.Dask

/-- The label of an axis: a name, or `"name-%d" % i`
(a part of the model of dask, for the calls of `blockwise` e.g. in rime/dask.py:30-170 and rime/dask_predict.py:266-352). -/
inductive Label
  | name (s : String)
  | numbered (s : String) (i : Nat)
  deriving DecidableEq

/-- A numpy array
(a part of the model of dask, for the calls of `blockwise` e.g. in rime/dask.py:30-170 and rime/dask_predict.py:266-352). -/
structure NArr (α : Type*) where
  shape : List Nat
  val : List Nat → α

/-- A dask array: the chunks of each axis and the elements
(a part of the model of dask, for the calls of `blockwise` e.g. in rime/dask.py:30-170 and rime/dask_predict.py:266-352). -/
structure DArr (α : Type*) where
  chunks : List (List Nat)
  val : List Nat → α

/-- A lazy result: the declared chunks and what computing each block gives
(a part of the model of dask, for the calls of `blockwise` e.g. in rime/dask.py:30-170 and rime/dask_predict.py:266-352). -/
structure Lazy (α : Type*) where
  chunks : List (List Nat)
  block : List Nat → Except PyErr (NArr α)

/-- What a task receives for one argument: an array, or nested lists of the blocks along the contracted axes
(a part of the model of dask, for the calls of `blockwise` e.g. in rime/dask.py:30-170 and rime/dask_predict.py:266-352). -/
inductive Nest (α : Type*)
  | leaf (a : NArr α)
  | node (l : List (Nest α))

variable {α β : Type*}

/-- `x.compute()` of an array of known elements
(a part of the model of dask, for the calls of `blockwise` e.g. in rime/dask.py:30-170 and rime/dask_predict.py:266-352). -/
def DArr.whole (d : DArr α) : NArr α := ⟨d.chunks.map List.sum, d.val⟩

/-- The block with these block indices
(a part of the model of dask, for the calls of `blockwise` e.g. in rime/dask.py:30-170 and rime/dask_predict.py:266-352). -/
def DArr.block (d : DArr α) (b : List Nat) : NArr α :=
  ⟨List.zipWith blockSize d.chunks b, fun i => d.val (List.zipWith (· + ·) (List.zipWith blockOff d.chunks b) i)⟩

/-- `x[0]`: the first element of a list, the first row of an array
(a part of the model of dask, for the calls of `blockwise` e.g. in rime/dask.py:30-170 and rime/dask_predict.py:266-352). -/
def Nest.item0 : Nest α → Except PyErr (Nest α)
  | .leaf a =>
    match a.shape with
    | [] => .error .indexError
    | n :: rest => if n = 0 then .error .indexError else .ok (.leaf ⟨rest, fun i => a.val (0 :: i)⟩)
  | .node [] => .error .indexError
  | .node (x :: _) => .ok x

/-- Use as an array: a list of blocks is not one
(a part of the model of dask, for the calls of `blockwise` e.g. in rime/dask.py:30-170 and rime/dask_predict.py:266-352). -/
def Nest.array : Nest α → Except PyErr (NArr α)
  | .leaf a => .ok a
  | .node _ => .error .attributeError

/-- `x[0]...[0]` with `k` indices, used as an array
(a part of the model of dask, for the calls of `blockwise` e.g. in rime/dask.py:30-170 and rime/dask_predict.py:266-352). -/
def Nest.firsts : Nat → Nest α → Except PyErr (NArr α)
  | 0, x => x.array
  | k + 1, x =>
    match x.item0 with
    | .error e => .error e
    | .ok y => y.firsts k

/-! ### unification of chunks -/

/-- `min(c[0] for c in chunks)`
(a part of the model of dask, for the calls of `blockwise` e.g. in rime/dask.py:30-170 and rime/dask_predict.py:266-352). -/
def minHead : List (List Nat) → Nat
  | [] => 0
  | [c] => c.headD 0
  | c :: cs => min (c.headD 0) (minHead cs)

/-- Remove `m` elements, at most the first chunk, from the front of an axis
(a part of the model of dask, for the calls of `blockwise` e.g. in rime/dask.py:30-170 and rime/dask_predict.py:266-352). -/
def dropFront (m : Nat) : List Nat → List Nat
  | [] => []
  | c :: cs => if c = m then cs else (c - m) :: cs

/-- The loop of `common_blockdim`: the common refinement of several chunkings; `left` elements of the axis remain.
Every iteration uses up at least one chunk, which bounds `fuel`
(a part of the model of dask, for the calls of `blockwise` e.g. in rime/dask.py:30-170 and rime/dask_predict.py:266-352). -/
def mergeChunks : Nat → Nat → List (List Nat) → List Nat
  | 0, _, _ => []
  | fuel + 1, left, chunks =>
    if 0 < left then
      let m := minHead chunks
      m :: mergeChunks fuel (left - m) (chunks.map (dropFront m))
    else []

/-- `max(blockdims, key=first)`
(a part of the model of dask, for the calls of `blockwise` e.g. in rime/dask.py:30-170 and rime/dask_predict.py:266-352). -/
def maxFirst : List (List Nat) → List Nat
  | [] => []
  | c :: cs => cs.foldl (fun best d => if best.headD 0 < d.headD 0 then d else best) c

/-- `dask.array.core.common_blockdim`
(a part of the model of dask, for the calls of `blockwise` e.g. in rime/dask.py:30-170 and rime/dask_predict.py:266-352). -/
def commonBlockdim (dims : List (List Nat)) : Except PyErr (List Nat) :=
  match dims.filter fun d => 1 < d.length with
  | [] => .ok (maxFirst dims)
  | [d] => .ok d
  | d :: e :: rest =>
    if (e :: rest).all fun x => x.sum = d.sum then
      .ok (mergeChunks ((d :: e :: rest).map List.length).sum d.sum (d :: e :: rest))
    else .error .valueError

/-- The chunks of one label, from those of all axes that carry it: `dask.blockwise.broadcast_dimensions` drops the
sentinel `(1,)` if there is anything else
(a part of the model of dask, for the calls of `blockwise` e.g. in rime/dask.py:30-170 and rime/dask_predict.py:266-352). -/
def consolidate (dims : List (List Nat)) : Except PyErr (List Nat) :=
  let v := dims.dedup
  commonBlockdim (if 1 < v.length then v.filter fun d => d ≠ [1] else v)

/-- An argument with an index: its labels and the chunks of its axes
(a part of the model of dask, for the calls of `blockwise` e.g. in rime/dask.py:30-170 and rime/dask_predict.py:266-352). -/
abbrev Arg := List Label × List (List Nat)

/-- All chunkings of one label
(a part of the model of dask, for the calls of `blockwise` e.g. in rime/dask.py:30-170 and rime/dask_predict.py:266-352). -/
def chunksFor (args : List Arg) (l : Label) : List (List Nat) :=
  args.flatMap fun a => (a.1.zip a.2).filterMap fun p => if p.1 = l then some p.2 else none

/-- The unified chunks of each label
(a part of the model of dask, for the calls of `blockwise` e.g. in rime/dask.py:30-170 and rime/dask_predict.py:266-352). -/
def unified (args : List Arg) (l : Label) : List Nat :=
  match consolidate (chunksFor args l) with
  | .ok c => c
  | .error _ => []

/-- `chunkss[j] if a.shape[n] > 1 else a.shape[n]` of `unify_chunks`
(a part of the model of dask, for the calls of `blockwise` e.g. in rime/dask.py:30-170 and rime/dask_predict.py:266-352). -/
def newChunks (env : Label → List Nat) (l : Label) (c : List Nat) : List Nat :=
  if 1 < c.sum then env l else [c.sum]

/-- `unify_chunks`: fails if a label has no common chunks or an array cannot take them (`rechunk` raises)
(a part of the model of dask, for the calls of `blockwise` e.g. in rime/dask.py:30-170 and rime/dask_predict.py:266-352). -/
def unify (args : List Arg) : Except PyErr (Label → List Nat) :=
  if args.all fun a => a.1.all fun l => match consolidate (chunksFor args l) with | .ok _ => true | .error _ => false then
    if args.all fun a => (a.1.zip a.2).all fun p => (newChunks (unified args) p.1 p.2).sum = p.2.sum then
      .ok (unified args)
    else .error .valueError
  else .error .valueError

/-- `a.rechunk(chunks)` inside `unify_chunks`
(a part of the model of dask, for the calls of `blockwise` e.g. in rime/dask.py:30-170 and rime/dask_predict.py:266-352). -/
def DArr.rechunk (d : DArr α) (env : Label → List Nat) (labels : List Label) : DArr α :=
  ⟨List.zipWith (newChunks env) labels d.chunks, d.val⟩

/-! ### blockwise -/

/-- The block index chosen for a label of the output
(a part of the model of dask, for the calls of `blockwise` e.g. in rime/dask.py:30-170 and rime/dask_predict.py:266-352). -/
def pick (l : Label) : List (Label × Nat) → Option Nat
  | [] => none
  | (k, j) :: rest => if k = l then some j else pick l rest

/-- The blocks of one argument for one output block, as nested lists (`dask.blockwise.lol_tuples`): labels of the output
select a block, the only one if there is just one; the other labels give a list. `done` are the block indices chosen for
the axes before (a part of the model of dask, for the calls of `blockwise` e.g. in rime/dask.py:30-170 and rime/dask_predict.py:266-352). -/
def nest (d : DArr α) (out : List (Label × Nat)) : List Label → List (List Nat) → List Nat → Nest α
  | l :: ls, c :: cs, done =>
    match pick l out with
    | some j => nest d out ls cs (done ++ [if c.length = 1 then 0 else j])
    | none => .node ((List.range c.length).map fun k => nest d out ls cs (done ++ [k]))
  | _, _, done => .leaf (d.block done)

/-- What the task of output block `out` receives for an argument
(a part of the model of dask, for the calls of `blockwise` e.g. in rime/dask.py:30-170 and rime/dask_predict.py:266-352). -/
def fetch (env : Label → List Nat) (d : DArr α) (labels : List Label) (out : List (Label × Nat)) : Nest α :=
  let r := d.rechunk env labels
  nest r out labels r.chunks []

/-- `da.blockwise(f, out_labels, *args, new_axes=...)`: `f` gets the unified chunks and the output block. A label of the
output that is in no argument and not a new axis raises `ValueError`
(a part of the model of dask, for the calls of `blockwise` e.g. in rime/dask.py:30-170 and rime/dask_predict.py:266-352). -/
def blockwise (outLabels : List Label) (newAxes : List (Label × Nat)) (args : List Arg)
    (f : (Label → List Nat) → List (Label × Nat) → Except PyErr (NArr β)) : Except PyErr (Lazy β) :=
  if outLabels.all fun l => (args.any fun a => l ∈ a.1) || (newAxes.any fun p => p.1 = l) then
    match unify args with
    | .error e => .error e
    | .ok env => .ok {
        chunks := outLabels.map fun l => match pick l newAxes with
          | some n => [n]
          | none => env l
        block := fun b => f env (outLabels.zip b) }
  else .error .valueError

/-- The argument as `blockwise` sees it
(a part of the model of dask, for the calls of `blockwise` e.g. in rime/dask.py:30-170 and rime/dask_predict.py:266-352). -/
def DArr.arg (d : DArr α) (labels : List Label) : Arg := (labels, d.chunks)

end Verif.Dask
