/-
Model of africanus/gridding/nifty/dask.py: the graph that grids row blocks in a number of streams.

`ms2grid_c` of nifty_gridder is outside the model: it is taken to return the contribution of the block that it is given, added to
`grid_in` if there is one. The channel block is always 0, so a key is the number of its row block.
-/
import Verif.Loops
import Mathlib.Algebra.BigOperators.Intervals

set_option autoImplicit false

namespace Verif.Nifty

/-- A task `(_nifty_grid_streams, …, last_key)` (nifty/dask.py:192-199): the block it grids and the key of `grid_in`. -/
structure GridTask where
  block : ℤ
  gridIn : Option ℤ

/-- `(row_blocks + streams - 1) // streams` (nifty/dask.py:185, 256). -/
def rowBlockChunks (rowBlocks : Nat) (streams : ℤ) : Except PyErr ℤ :=
  if streams = 0 then .error .zeroDivisionError else .ok (Int.fdiv (rowBlocks + streams - 1) streams)

/-- `range(a, b, s)` (nifty/dask.py:187, 259). -/
def pyRange (a b s : ℤ) : Except PyErr (List ℤ) :=
  if s = 0 then .error .valueError
  else if 0 < s then .ok ((List.range ((b - a + s - 1) / s).toNat).map fun i : Nat => a + i * s)
  else .ok ((List.range ((a - b - s - 1) / -s).toNat).map fun i : Nat => a + i * s)

/-- One row block of a stream (nifty/dask.py:191-203); the state is `layers` and `last_key`. -/
def streamStep (st : (ℤ → Option GridTask) × Option ℤ) (rb : ℤ) : (ℤ → Option GridTask) × Option ℤ :=
  (Function.update st.1 rb (some { block := rb, gridIn := st.2 }), some rb)

/-- One stream (nifty/dask.py:188-203): `range(rb_start, rb_end)`. -/
def stream (rowBlocks : Nat) (chunk : ℤ) (layers : ℤ → Option GridTask) (start : ℤ) : ℤ → Option GridTask :=
  let rbEnd := min (start + chunk) rowBlocks
  (((List.range (rbEnd - start).toNat).map fun i : Nat => start + i).foldl streamStep (layers, none)).1

/-- `GridStreamReduction._create_dict` (nifty/dask.py:167-205). -/
def gridStream (rowBlocks : Nat) (streams : ℤ) : Except PyErr (ℤ → Option GridTask) := do
  let chunk ← rowBlockChunks rowBlocks streams
  let starts ← pyRange 0 rowBlocks chunk
  return starts.foldl (stream rowBlocks chunk) fun _ => none

/-- `FinalGridReduction._create_dict` (nifty/dask.py:245-267): the keys whose values are summed. -/
def finalKeys (rowBlocks : Nat) (streams : ℤ) : Except PyErr (List ℤ) := do
  let chunk ← rowBlockChunks rowBlocks streams
  let starts ← pyRange 0 rowBlocks chunk
  return starts.map fun start => min (start + chunk) rowBlocks - 1

/-- An execution of the graph by a scheduler: the values computed so far. A task can run once its input has a value; which one runs
next is up to the scheduler. `G` is the contribution of a block (`ms2grid_c`, nifty/dask.py:113-117). -/
inductive Run {M : Type*} [Add M] (layers : ℤ → Option GridTask) (G : ℤ → M) : (ℤ → Option M) → Prop
  | init : Run layers G fun _ => none
  | first (v : ℤ → Option M) (k : ℤ) (t : GridTask) : Run layers G v → layers k = some t → v k = none → t.gridIn = none →
      Run layers G (Function.update v k (some (G t.block)))
  | next (v : ℤ → Option M) (k : ℤ) (t : GridTask) (k' : ℤ) (g : M) : Run layers G v → layers k = some t → v k = none →
      t.gridIn = some k' → v k' = some g → Run layers G (Function.update v k (some (g + G t.block)))

end Verif.Nifty
