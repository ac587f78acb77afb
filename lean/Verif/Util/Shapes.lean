/-
Model of africanus/util/shapes.py, africanus/util/casa_types.py and `grids` of africanus/util/cuda.py.

Chunk tuples are lists of integers.
-/
import Verif.Basic

set_option autoImplicit false

namespace Verif.Util

/-! ### shapes.py -/

/-- State of the aggregation (shapes.py:39-41): for each dimension the finished chunks and the running count.
`chunk_scratch` is recomputed in each iteration before it is read. -/
structure Agg where
  chunks : List (List Int)
  counts : List Int

/-- One chunk position (shapes.py:45-60); `row` holds `chunk[di]` for each dimension. -/
def aggStep (maxs : List Int) (row : List Int) (st : Agg) : Agg :=
  let scratch := List.zipWith (· + ·) st.counts row
  let aggregate := (List.zipWith (fun s m => decide (s > m)) scratch maxs).any id
  if aggregate then
    ⟨List.zipWith (fun l c => l ++ [c]) st.chunks st.counts, row⟩
  else
    ⟨st.chunks, scratch⟩

/-- The aggregation for a sequence of dimensions (shapes.py:33-67). An empty sequence fails at `chunks[0]` (line 42), empty
chunk tuples fail in the final loop, which reads the loop variable `di` (line 65). -/
def aggregateSeq (chunks : List (List Int)) (maxs : List Int) : Except PyErr (List (List Int)) :=
  if chunks.length ≠ maxs.length then .error .valueError
  else match chunks with
    | [] => .error .indexError
    | c0 :: _ =>
      if !(chunks.all fun c => c0.length == c.length) then .error .valueError
      else if c0.length = 0 then .error .unboundLocalError
      else
        let st := forRange c0.length ⟨maxs.map fun _ => [], maxs.map fun _ => 0⟩ fun di st =>
          aggStep maxs (chunks.map fun c => c.getD di 0) st
        .ok (List.zipWith (fun l c => l ++ [c]) st.chunks st.counts)

/-- The two forms of the arguments: one tuple with an integer, or a sequence of tuples with a sequence of integers (util/shapes.py:4-69). -/
inductive ChunkArgs
  | single (chunks : List Int) (max : Int)
  | seq (chunks : List (List Int)) (maxs : List Int)

/-- The two forms of the result (util/shapes.py:4-69). -/
inductive ChunkResult
  | single (chunks : List Int)
  | seq (chunks : List (List Int))
  deriving DecidableEq

/-- The arguments as sequences (shapes.py:27-29). -/
def ChunkArgs.toSeq : ChunkArgs → List (List Int) × List Int
  | .single c m => ([c], [m])
  | .seq c m => (c, m)

/-- `aggregate_chunks` (shapes.py:4-69). -/
def aggregateChunks (a : ChunkArgs) : Except PyErr ChunkResult :=
  let (chunks, maxs) := a.toSeq
  let singleton := maxs.length = 1
  match aggregateSeq chunks maxs with
  | .error e => .error e
  | .ok out => .ok (if singleton then .single (out.headD []) else .seq out)

/-- `corr_shape` (shapes.py:72-111). -/
def corrShape (ncorr : Int) (shape : String) : Except PyErr (List Int) :=
  if shape = "flat" then .ok [ncorr]
  else if shape = "matrix" then
    if ncorr = 1 then .ok [1]
    else if ncorr = 2 then .ok [2]
    else if ncorr = 4 then .ok [2, 2]
    else .error .valueError
  else .error .valueError

/-! ### casa_types.py -/

/-- `STOKES_TYPES` (casa_types.py:4-37). -/
def stokesTypes : List String :=
  ["Undefined", "I", "Q", "U", "V", "RR", "RL", "LR", "LL", "XX", "XY", "YX", "YY", "RX", "RY", "LX", "LY", "XR", "XL",
   "YR", "YL", "PP", "PQ", "QP", "QQ", "RCircular", "LCircular", "Linear", "Ptotal", "Plinear", "PFtotal", "PFlinear",
   "Pangle"]

/-- `d[k] = v` on a dictionary in insertion order: an existing key keeps its place (util/shapes.py:4-69). -/
def dictSet {κ υ : Type} [DecidableEq κ] (d : List (κ × υ)) (k : κ) (v : υ) : List (κ × υ) :=
  if (d.lookup k).isSome then d.map fun p => if p.1 = k then (k, v) else p else d ++ [(k, v)]

/-- A dictionary comprehension over pairs (util/shapes.py:4-69). -/
def dictOf {κ υ : Type} [DecidableEq κ] (l : List (κ × υ)) : List (κ × υ) :=
  l.foldl (fun d p => dictSet d p.1 p.2) []

/-- `STOKES_TYPE_MAP` (casa_types.py:45). -/
def stokesTypeMap : List (String × Nat) := dictOf (stokesTypes.zipIdx)

/-- `STOKES_ID_MAP` (casa_types.py:52). -/
def stokesIdMap : List (Nat × String) := dictOf (stokesTypeMap.map fun p => (p.2, p.1))

/-! ### cuda.py -/

/-- `grids` (cuda.py:73-97): floor division, which raises for a zero block. -/
def grids (dims blocks : List Int) : Except PyErr (List Int) :=
  if dims.length ≠ 3 then .error .valueError
  else if blocks.length ≠ 3 then .error .valueError
  else if 0 ∈ blocks then .error .zeroDivisionError
  else .ok (List.zipWith (fun d b => (d + b - 1).fdiv b) dims blocks)

end Verif.Util
