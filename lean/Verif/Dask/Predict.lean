/-
Model of `predict_vis` on whole dask arrays: africanus/rime/dask_predict.py, with all chunks and checks. The chain of
`LinearReduction` and the trees of `sum` are those of Verif/Rime/Model2.lean.

The cells of the arrays are visibilities or Jones terms with all their correlations: the correlation axes are in one
block. The checks on the number of axes and on pairs are those of Verif/Rime/Model.lean.
-/
import Verif.Dask.Wsclean
import Verif.Dask.Spec
import Verif.Rime.Model2

set_option autoImplicit false

namespace Verif.Dask

open Verif.Rime

variable {V : Type}

/-! ### `blockwise` without unification of chunks -/

/-- The number of blocks of a label, from the numbers of blocks of all axes that carry it. Part of the model of dask:
`dask.blockwise.broadcast_dimensions`. An axis in one block goes with any number (rime/dask_predict.py:172-222, 266-302, 305-351). -/
def blockCount (counts : List Nat) : Except PyErr Nat :=
  match if 1 < counts.dedup.length then counts.dedup.filter fun n => n ≠ 1 else counts.dedup with
  | [n] => .ok n
  | _ => .error .valueError

/-- The numbers of blocks of all labels are determined (rime/dask_predict.py:172-222, 266-302, 305-351). -/
def countsAlign (args : List Arg) : Bool :=
  args.all fun a => a.1.all fun l => match blockCount ((chunksFor args l).map List.length) with
    | .ok _ => true
    | .error _ => false

/-- The chunks with the most blocks, the first of several (rime/dask_predict.py:172-222, 266-302, 305-351). -/
def mostBlocks : List (List Nat) → List Nat
  | [] => []
  | c :: cs => cs.foldl (fun best d => if best.length < d.length then d else best) c

/-- `da.blockwise(..., align_arrays=False, adjust_chunks={'row': rowChunks})`. Part of the model of dask: numbers of blocks
that do not match raise `ValueError`, at the call or when the graph is built; both count as failure of the call here
(rime/dask_predict.py:172-222, 266-302, 305-351). -/
def blockwiseRaw {β : Type*} (outLabels : List Label) (rowLabel : Label) (rowChunks : List Nat) (args : List Arg)
    (f : List (Label × Nat) → Except PyErr (NArr β)) : Except PyErr (Lazy β) :=
  if countsAlign args ∧ (mostBlocks (chunksFor args rowLabel)).length = rowChunks.length then
    .ok {
      chunks := outLabels.map fun l => if l = rowLabel then rowChunks else mostBlocks (chunksFor args l)
      block := fun b => f (outLabels.zip b) }
  else .error .valueError

/-- What a task gets for an argument whose chunks were left as they are (rime/dask_predict.py:172-222, 266-302, 305-351). -/
def fetchRaw {α : Type*} (d : DArr α) (labels : List Label) (out : List (Label × Nat)) : Nest α :=
  nest d out labels d.chunks []

/-- A dask array of known elements (rime/dask_predict.py:172-222, 266-302, 305-351). -/
def DArr.lazy {α : Type*} (d : DArr α) : Lazy α := ⟨d.chunks, fun b => .ok (d.block b)⟩

/-- The block of a lazy array for an output block, all labels being labels of the output
(rime/dask_predict.py:172-222, 266-302, 305-351). -/
def Lazy.fetchRaw {α : Type*} (l : Lazy α) (labels : List Label) (out : List (Label × Nat)) : Except PyErr (NArr α) :=
  l.block (List.zipWith (fun lb c => if c.length = 1 then 0 else (pick lb out).getD 0) labels l.chunks)

/-! ### predict.py on arrays -/

/-- The arrays of `predict_vis`: numpy (`A = NArr V`) or dask (`A = DArr V`). Axes as in `Terms` (rime/dask_predict.py:354-455). -/
structure Jones (A : Type*) where
  dde : Option (A × A)
  coh : Option A
  die : Option (A × A)
  bvis : Option A

/-- The arrays as functions of their indices (rime/dask_predict.py:354-455). -/
def Jones.terms (x : Jones (NArr V)) : Terms V where
  dde := x.dde.map fun e => (fun s t a f => e.1.val [s, t, a, f], fun s t a f => e.2.val [s, t, a, f])
  coh := x.coh.map fun c s r f => c.val [s, r, f]
  die := x.die.map fun e => (fun t a f => e.1.val [t, a, f], fun t a f => e.2.val [t, a, f])
  bvis := x.bvis.map fun b r f => b.val [r, f]

/-- The number of channels of the output (predict.py:243-277). -/
def Jones.nchan (x : Jones (NArr V)) : Nat :=
  match x.dde, x.coh, x.die, x.bvis with
  | some e, _, _, _ => e.1.shape.getD 3 0
  | none, some c, _, _ => c.shape.getD 2 0
  | none, none, some e, _ => e.1.shape.getD 2 0
  | none, none, none, some b => b.shape.getD 1 0
  | none, none, none, none => 0

/-- The number of sources the loops run over (predict.py:194, 208, 222, 230). -/
def Jones.nsrc (x : Jones (NArr V)) : Nat :=
  match x.dde, x.coh with
  | some e, _ => e.1.shape.getD 0 0
  | none, some c => c.shape.getD 0 0
  | none, none => 0

/-- An array of visibilities (rime/predict.py:430-503). -/
def visArray (n m : Nat) (v : Nat → Nat → V) : NArr V :=
  ⟨[n, m], fun i => match i with
    | [r, f] => v r f
    | _ => v 0 0⟩

/-- The numpy `predict_vis` (predict.py:430-503). Accesses outside the arrays, which numba does not check, are not
modelled. -/
def npPredictVis (k : Kernel V) (time ant1 ant2 : NArr Nat) (x : Jones (NArr V)) : Except PyErr (NArr V) :=
  match predictVis k x.nsrc (time.shape.getD 0 0) x.nchan (fun r => time.val [r]) (fun r => ant1.val [r])
      (fun r => ant2.val [r]) x.terms with
  | .error e => .error e
  | .ok v => .ok (visArray (time.shape.getD 0 0) x.nchan v)

/-! ### dask_predict.py -/

/-- Labels of the four kinds of arrays (dask_predict.py:187-195, 280-281, 331-332). The times carry the label of the
rows. -/
def ddeLabels : List Label := [lSource, lRow, lAnt, lChan]
/-- `cohLabels` (rime/dask_predict.py:172-222, 266-302, 305-351). -/
def cohLabels : List Label := [lSource, lRow, lChan]
/-- `dieLabels` (rime/dask_predict.py:172-222, 266-302, 305-351). -/
def dieLabels : List Label := [lRow, lAnt, lChan]
/-- `visLabels` (rime/dask_predict.py:172-222, 266-302, 305-351). -/
def visLabels : List Label := [lRow, lChan]

/-- The indexed arguments of both source reductions (rime/dask_predict.py:172-222, 266-302, 305-351). -/
def skyArgs (time ant1 ant2 : DArr Nat) (x : Jones (DArr V)) : List Arg :=
  [time.arg [lRow], ant1.arg [lRow], ant2.arg [lRow]] ++
    (match x.dde with
      | some e => [e.1.arg ddeLabels]
      | none => []) ++
    (match x.coh with
      | some c => [c.arg cohLabels]
      | none => []) ++
    (match x.dde with
      | some e => [e.2.arg ddeLabels]
      | none => [])

/-- The DDEs of a task, without the axis of antennas in the labels of the output: the first block of it
(rime/dask_predict.py:172-222, 266-302, 305-351). -/
def fetchDde (out : List (Label × Nat)) : Option (DArr V × DArr V) → Except PyErr (Option (NArr V × NArr V))
  | none => .ok none
  | some e => do
    let a ← (fetchRaw e.1 ddeLabels out).firsts 1
    let b ← (fetchRaw e.2 ddeLabels out).firsts 1
    pure (some (a, b))

/-- The DIEs of a task (rime/dask_predict.py:172-222, 266-302, 305-351). -/
def fetchDie (out : List (Label × Nat)) : Option (DArr V × DArr V) → Except PyErr (Option (NArr V × NArr V))
  | none => .ok none
  | some e => do
    let a ← (fetchRaw e.1 dieLabels out).firsts 1
    let b ← (fetchRaw e.2 dieLabels out).firsts 1
    pure (some (a, b))

/-- The coherencies of a task (rime/dask_predict.py:172-222, 266-302, 305-351). -/
def fetchCoh (out : List (Label × Nat)) : Option (DArr V) → Except PyErr (Option (NArr V))
  | none => .ok none
  | some c => do
    let a ← (fetchRaw c cohLabels out).firsts 0
    pure (some a)

/-- `np_predict_vis` on the blocks of one source block and one output block, with the given base visibilities
(dask_predict.py:117-141 with `_ind_map`, 36-57, and `_predict_coh_wrapper`, 225-247). -/
def skyTask (k : Kernel V) (time ant1 ant2 : DArr Nat) (x : Jones (DArr V)) (feed : Option (NArr V))
    (out : List (Label × Nat)) : Except PyErr (NArr V) := do
  let t ← (fetchRaw time [lRow] out).firsts 0
  let a1 ← (fetchRaw ant1 [lRow] out).firsts 0
  let a2 ← (fetchRaw ant2 [lRow] out).firsts 0
  let dde ← fetchDde out x.dde
  let coh ← fetchCoh out x.coh
  npPredictVis k t a1 a2 ⟨dde, coh, none, feed⟩

/-- The chunks of the last argument that carries the label (dask_predict.py:216-221). -/
def lastChunks (args : List Arg) (l : Label) : List Nat := (chunksFor args l).getLastD []

/-- `linear_reduction` (dask_predict.py:172-222): every block is the end of a chain over the source blocks. -/
def linearSky (k : Kernel V) (time ant1 ant2 : DArr Nat) (x : Jones (DArr V)) : Except PyErr (Lazy V) :=
  let args := skyArgs time ant1 ant2 x
  let count := fun l => blockCount ((chunksFor args l).map List.length)
  if countsAlign args then
    match count lSource, count lRow, count lChan with
    | .ok ns, .ok nr, .ok nc =>
      .ok {
        chunks := [time.axis 0, lastChunks args lChan]
        block := fun b => lrEval (lrDict ns [nr, nc])
          (fun feed i out => skyTask k time ant1 ant2 x feed ((lSource, i) :: visLabels.zip out)) (ns + 1) (.final b) }
    | _, _, _ => .error .valueError
  else .error .valueError

/-- A sum over blocks along a tree, as `SumTree.eval` (rime/dask_predict.py:172-222, 266-302, 305-351). -/
def treeSum (k : Kernel V) (blk : Nat → Except PyErr (NArr V)) : SumTree → Except PyErr (NArr V)
  | .leaf i => blk i
  | .node l r =>
    match treeSum k blk l with
    | .error e => .error e
    | .ok a =>
      match treeSum k blk r with
      | .error e => .error e
      | .ok b => .ok ⟨a.shape, fun i => k.addVis (b.val i) (a.val i)⟩

/-- `parallel_reduction` (dask_predict.py:266-302). The blocks have a leading axis of length one, which `sum` removes; it
is left out. -/
def parallelSky (k : Kernel V) (time ant1 ant2 : DArr Nat) (x : Jones (DArr V)) (tree : SumTree) :
    Except PyErr (Lazy V) :=
  match blockwiseRaw cohLabels lRow (time.axis 0) (skyArgs time ant1 ant2 x) (skyTask k time ant1 ant2 x none) with
  | .error e => .error e
  | .ok l => .ok { chunks := l.chunks.drop 1, block := fun b => treeSum k (fun s => l.block (s :: b)) tree }

/-- `streams`: a chain, or a tree chosen by dask (rime/dask_predict.py:416-433). -/
inductive Reduction
  | chain
  | tree (t : SumTree)

/-- The sum over all sources (dask_predict.py:416-433). -/
def skyLazy (k : Kernel V) (time ant1 ant2 : DArr Nat) (x : Jones (DArr V)) : Reduction → Except PyErr (Lazy V)
  | .chain => linearSky k time ant1 ant2 x
  | .tree t => parallelSky k time ant1 ant2 x t

/-- `base_vis + sum_coherencies` of dask arrays (dask_predict.py:449): blocks are added if the chunks agree, else both are
cut to common chunks first. -/
noncomputable def addLazy [Inhabited V] (k : Kernel V) (bvis : DArr V) (sum : Lazy V) : Except PyErr (Lazy V) :=
  if bvis.chunks = sum.chunks then
    .ok { chunks := sum.chunks
          block := fun b => match sum.block b with
            | .error e => .error e
            | .ok s => .ok ⟨s.shape, fun i => k.addVis (s.val i) ((bvis.block b).val i)⟩ }
  else
    blockwise visLabels [] [bvis.arg visLabels, (visLabels, sum.chunks)] fun env out => do
      let s ← (fetch env (← sum.assemble) visLabels out).firsts 0
      let a ← (fetch env bvis visLabels out).firsts 0
      pure ⟨a.shape, fun i => k.addVis (s.val i) (a.val i)⟩

/-- The indexed arguments of `apply_dies` (rime/dask_predict.py:172-222, 266-302, 305-351). -/
def dieArgs (time ant1 ant2 : DArr Nat) (die : Option (DArr V × DArr V)) (bvis : Option (Lazy V)) : List Arg :=
  [time.arg [lRow], ant1.arg [lRow], ant2.arg [lRow]] ++
    (match die with
      | some e => [e.1.arg dieLabels]
      | none => []) ++
    (match bvis with
      | some b => [(visLabels, b.chunks)]
      | none => []) ++
    (match die with
      | some e => [e.2.arg dieLabels]
      | none => [])

/-- `apply_dies` (dask_predict.py:305-352). -/
def applyDiesDask (k : Kernel V) (time ant1 ant2 : DArr Nat) (die : Option (DArr V × DArr V)) (bvis : Option (Lazy V)) :
    Except PyErr (Lazy V) :=
  blockwiseRaw visLabels lRow (time.axis 0) (dieArgs time ant1 ant2 die bvis) fun out => do
    let t ← (fetchRaw time [lRow] out).firsts 0
    let a1 ← (fetchRaw ant1 [lRow] out).firsts 0
    let a2 ← (fetchRaw ant2 [lRow] out).firsts 0
    let g ← fetchDie out die
    match bvis with
    | none => npPredictVis k t a1 a2 ⟨none, none, g, none⟩
    | some l => do
      let b ← l.fetchRaw visLabels out
      npPredictVis k t a1 a2 ⟨none, none, g, some b⟩

/-- The checks on the chunks of a pair of arrays (dask_predict.py:367-383 and 387-403); `t` and `a` are the positions of
the axes of times and antennas. -/
def badPair (rowChunks : List Nat) (t a : Nat) : Option (DArr V × DArr V) → Bool
  | none => false
  | some e => e.1.dim a ≠ (e.1.axis a).headD 0 ∨ e.2.dim a ≠ (e.2.axis a).headD 0 ∨ e.1.chunks ≠ e.2.chunks ∨
    (e.1.axis t).length ≠ rowChunks.length

/-- The dask `predict_vis` (dask_predict.py:355-455). Line 407 takes the result type of everything but `base_vis`, which
raises `ValueError` with nothing else supplied. -/
noncomputable def daskPredictVis [Inhabited V] (k : Kernel V) (time ant1 ant2 : DArr Nat) (x : Jones (DArr V))
    (red : Reduction) : Except PyErr (Lazy V) :=
  if badPair (time.axis 0) 1 2 x.dde then .error .valueError
  else if badPair (time.axis 0) 0 1 x.die then .error .valueError
  else if x.dde.isNone && x.coh.isNone && x.die.isNone then .error .valueError
  else
    let sum : Except PyErr (Option (Lazy V)) :=
      if x.coh.isSome || x.dde.isSome then
        match skyLazy k time ant1 ant2 x red with
        | .error e => .error e
        | .ok v => .ok (some v)
      else .ok none
    match sum with
    | .error e => .error e
    | .ok sum =>
      match x.die, x.bvis, sum with
      | none, none, some v => .ok v
      | none, none, none => .error .valueError
      | die, none, sum => applyDiesDask k time ant1 ant2 die sum
      | die, some b, none => applyDiesDask k time ant1 ant2 die (some b.lazy)
      | die, some b, some v =>
        match addLazy k b v with
        | .error e => .error e
        | .ok base => applyDiesDask k time ant1 ant2 die (some base)

end Verif.Dask
