/-
Model of africanus/averaging/dask.py: which numpy call computes each block of each output, which member of
its result is taken, and what is declared or refused when the graph is built.

`dask.array.blockwise` (assumed): task `(i, k, l)` gets block `i` of every "row" axis, block `k` of every
"chan" axis and block `l` of every "corr" axis; an axis that is not an axis of the result arrives as a list
of blocks, or concatenated with `concatenate=True`; an index of the result that no argument has is refused
with `ValueError`. Simplifications: all arrays with a row axis have the same row chunks, all with a channel
axis the same channel chunks, all with a correlation axis the same correlation chunks; the `uvw` axis is
one block.
-/
import Verif.Averaging.Model2
import Verif.Blocks

set_option autoImplicit false

namespace Verif.Averaging

/-- The arrays given to `time_and_channel` (averaging/dask.py:271-278). -/
structure AvgIn (K : Type*) where
  time : Nat → ℚ
  interval : Nat → ℚ
  ant1 : Nat → Int
  ant2 : Nat → Int
  timeCentroid : Option (Nat → K) := none
  exposure : Option (Nat → K) := none
  flagRow : Option (Nat → Nat) := none
  uvw : Option (Nat → Nat → K) := none
  weight : Option (Nat → Nat → K) := none
  sigma : Option (Nat → Nat → K) := none
  chanFreq : Option (Nat → K) := none
  chanWidth : Option (Nat → K) := none
  effectiveBw : Option (Nat → K) := none
  resolution : Option (Nat → K) := none
  vis : Option (Nat → Nat → Nat → K) := none
  flag : Option (Nat → Nat → Nat → Nat) := none
  weightSpectrum : Option (Nat → Nat → Nat → K) := none
  sigmaSpectrum : Option (Nat → Nat → Nat → K) := none

variable {K : Type*}

/-- The block of the arrays that starts at row `r0`, channel `n0` and correlation `c0` (averaging/dask.py:270-338). -/
def AvgIn.block (x : AvgIn K) (r0 n0 c0 : Nat) : AvgIn K where
  time := fun r => x.time (r0 + r)
  interval := fun r => x.interval (r0 + r)
  ant1 := fun r => x.ant1 (r0 + r)
  ant2 := fun r => x.ant2 (r0 + r)
  timeCentroid := x.timeCentroid.map fun a r => a (r0 + r)
  exposure := x.exposure.map fun a r => a (r0 + r)
  flagRow := x.flagRow.map fun a r => a (r0 + r)
  uvw := x.uvw.map fun a r => a (r0 + r)
  weight := x.weight.map fun a r c => a (r0 + r) (c0 + c)
  sigma := x.sigma.map fun a r c => a (r0 + r) (c0 + c)
  chanFreq := x.chanFreq.map fun a f => a (n0 + f)
  chanWidth := x.chanWidth.map fun a f => a (n0 + f)
  effectiveBw := x.effectiveBw.map fun a f => a (n0 + f)
  resolution := x.resolution.map fun a f => a (n0 + f)
  vis := x.vis.map fun a r f c => a (r0 + r) (n0 + f) (c0 + c)
  flag := x.flag.map fun a r f c => a (r0 + r) (n0 + f) (c0 + c)
  weightSpectrum := x.weightSpectrum.map fun a r f c => a (r0 + r) (n0 + f) (c0 + c)
  sigmaSpectrum := x.sigmaSpectrum.map fun a r f c => a (r0 + r) (n0 + f) (c0 + c)

/-- The row columns (averaging/dask.py:270-338). -/
def AvgIn.rowCols (x : AvgIn K) : RowCols K := ⟨x.timeCentroid, x.exposure, x.uvw, x.weight, x.sigma⟩

/-- The (row, chan, corr) columns and the weights (averaging/dask.py:270-338). -/
def AvgIn.cubeCols (x : AvgIn K) : CubeCols K := ⟨x.weight, x.vis, x.flag, x.weightSpectrum, x.sigmaSpectrum⟩

/-- One numpy column; `rowCorr` carries the extent of its correlation axis (averaging/dask.py:77-92, 140-153, 205-215). -/
inductive Col (K : Type*)
  | nats (a : Nat → Nat)
  | rats (a : Nat → ℚ)
  | ints (a : Nat → Int)
  | row (a : Nat → K)
  | uvw (a : Nat → Nat → K)
  | rowCorr (ncorr : Nat) (a : Nat → Nat → K)
  | chan (a : Nat → K)
  | flags (a : Nat → Nat → Nat → Nat)
  | cube (a : Nat → Nat → Nat → K)

/-- `RowMapOutput` as a tuple (time_and_channel_mapping.py:55-56, 333). -/
def RowMapOutput.tuple (o : RowMapOutput) : List (Option (Col K)) :=
  [some (.nats o.map), some (.rats o.time), some (.rats o.interval), o.flagRow.map .nats]

/-- `RowAverageOutput` as a tuple (time_and_channel_avg.py:26-28). -/
def RowAverageOutput.tuple (ncorr : Nat) (o : RowAverageOutput K) : List (Option (Col K)) :=
  [some (.ints o.ant1), some (.ints o.ant2), o.timeCentroid.map .row, o.exposure.map .row,
   o.uvw.map .uvw, o.weight.map (.rowCorr ncorr), o.sigma.map (.rowCorr ncorr)]

/-- `RowChanAverageOutput` as a tuple (time_and_channel_avg.py:479-481). -/
def RowChanAverageOutput.tuple (o : RowChanAverageOutput K) : List (Option (Col K)) :=
  [o.vis.map .cube, o.flag.map .flags, o.weightSpectrum.map .cube, o.sigmaSpectrum.map .cube]

/-- `ChannelAverageOutput` as a tuple (time_and_channel_avg.py:641-642). -/
def ChanAverageOutput.tuple (o : ChanAverageOutput K) : List (Option (Col K)) :=
  [o.chanFreq.map .chan, o.chanWidth.map .chan, o.effectiveBw.map .chan, o.resolution.map .chan]

/-- `AverageOutput` as a tuple (time_and_channel_avg.py:696-700, 828-845). -/
def AverageOutput.tuple (ncorr : Nat) (o : AverageOutput K) : List (Option (Col K)) :=
  [some (.rats o.rows.time), some (.rats o.rows.interval), o.rows.flagRow.map .nats,
   some (.ints o.rowData.ant1), some (.ints o.rowData.ant2), o.rowData.timeCentroid.map .row,
   o.rowData.exposure.map .row, o.rowData.uvw.map .uvw, o.rowData.weight.map (.rowCorr ncorr),
   o.rowData.sigma.map (.rowCorr ncorr),
   o.chanData.chanFreq.map .chan, o.chanData.chanWidth.map .chan, o.chanData.effectiveBw.map .chan,
   o.chanData.resolution.map .chan,
   o.cubeData.vis.map .cube, o.cubeData.flag.map .flags, o.cubeData.weightSpectrum.map .cube,
   o.cubeData.sigmaSpectrum.map .cube]

/-- A lazy column: the extents declared for the axes after the rows where they are known when the graph is
built (`trail`), and the value of each block. Row columns ignore `k` and `l`, channel columns `i` and `l`
(averaging/dask.py:77-92, 140-153, 205-215). -/
structure LazyCol (K : Type*) where
  trail : List Nat
  block : Nat → Nat → Nat → Except PyErr (Option (Col K))

/-- `getitem(tuple, idx)` (averaging/dask.py:82, 145, 208). -/
def getItem {α : Type*} (t : List α) (idx : Nat) : Except PyErr α :=
  match t[idx]? with
  | some a => .ok a
  | none => .error .indexError

section
variable [Field K] [DecidableEq K]

/-- Everything `time_and_channel` is given: chunks, arrays, bin sizes, and the parameters of the numpy model (averaging/dask.py:270-338). -/
structure AvgCall (K : Type*) where
  sqrt : K → K
  junk : Nat → Int
  sentinel : ℚ
  rowChunks : List Nat
  chanChunks : List Nat
  corrChunks : List Nat
  x : AvgIn K
  secs : ℚ
  bin : Nat

/-- One task of `merge_flags` (averaging/dask.py:247-267): row block `i` with all channels and correlations
concatenated. -/
def AvgCall.flags (a : AvgCall K) (i : Nat) : Except PyErr (Option (Nat → Nat)) :=
  let b := a.x.block (blockOff a.rowChunks i) 0 0
  mergeFlags (blockSize a.rowChunks i) a.chanChunks.sum a.corrChunks.sum b.flagRow b.flag

/-- One task of `row_mapper` (averaging/dask.py:62-74). -/
def AvgCall.rowMeta (a : AvgCall K) (i : Nat) : Except PyErr RowMapOutput :=
  match a.flags i with
  | .error e => .error e
  | .ok fr =>
    let b := a.x.block (blockOff a.rowChunks i) 0 0
    rowMapper a.sentinel (blockSize a.rowChunks i) b.time b.interval b.ant1 b.ant2 fr a.secs

/-- One task of `row_average` (averaging/dask.py:95-137): `weight[0]` and `sigma[0]` are the first
correlation blocks. -/
def AvgCall.rowAvg (a : AvgCall K) (i : Nat) : Except PyErr (RowAverageOutput K) :=
  match a.flags i with
  | .error e => .error e
  | .ok fr =>
    match a.rowMeta i with
    | .error e => .error e
    | .ok rm =>
      let b := a.x.block (blockOff a.rowChunks i) 0 (blockOff a.corrChunks 0)
      .ok (rowAverage a.sqrt a.junk (blockSize a.rowChunks i) rm fr b.ant1 b.ant2 b.rowCols
        (blockSize a.corrChunks 0))

/-- One task of `channel_mapper` (averaging/dask.py:51-57). -/
def AvgCall.chanMeta (a : AvgCall K) (k : Nat) : (Nat → Nat) × Nat :=
  channelMapper (blockSize a.chanChunks k) a.bin

/-- One task of `row_chan_average` (averaging/dask.py:159-202). -/
def AvgCall.cube (a : AvgCall K) (i k l : Nat) : Except PyErr (RowChanAverageOutput K) :=
  match a.flags i with
  | .error e => .error e
  | .ok fr =>
    match a.rowMeta i with
    | .error e => .error e
    | .ok rm =>
      let b := a.x.block (blockOff a.rowChunks i) (blockOff a.chanChunks k) (blockOff a.corrChunks l)
      rowChanAverage a.sqrt (blockSize a.rowChunks i) (blockSize a.chanChunks k) (blockSize a.corrChunks l)
        rm fr (a.chanMeta k).1 (a.chanMeta k).2 b.cubeCols

/-- One task of `chan_average` (averaging/dask.py:218-244). -/
def AvgCall.chan (a : AvgCall K) (k : Nat) : ChanAverageOutput K :=
  let b := a.x.block 0 (blockOff a.chanChunks k) 0
  chanAverage (blockSize a.chanChunks k) (a.chanMeta k).1 b.chanFreq b.chanWidth b.effectiveBw b.resolution

/-- `_getitem_row` (averaging/dask.py:77-92) on `row_meta` or the row averages. -/
def getItemRow (tuples : Nat → Except PyErr (List (Option (Col K)))) (idx : Nat) (trail : List Nat) : LazyCol K where
  trail := trail
  block := fun i _ _ => do getItem (← tuples i) idx

/-- `_getitem_row_chan` (averaging/dask.py:140-153). -/
def getItemRowChan (tuples : Nat → Nat → Nat → Except PyErr (List (Option (Col K)))) (idx : Nat) : LazyCol K where
  trail := []
  block := fun i k l => do getItem (← tuples i k l) idx

/-- `_getitem_chan` (averaging/dask.py:205-215). -/
def getItemChan (tuples : Nat → List (Option (Col K))) (idx : Nat) : LazyCol K where
  trail := []
  block := fun _ k _ => getItem (tuples k) idx

/-- `row_average` (averaging/dask.py:95-137): the arguments as (is it an output, is it given, its trailing
extents), and the columns taken from the tuples. -/
def AvgCall.rowAverageCols (a : AvgCall K) (haveFlagRow : Bool) : List (Option (LazyCol K)) :=
  let ncorr := a.corrChunks.sum
  let args : List (Bool × Bool × List Nat) :=
    [(false, true, []), (true, true, []), (true, true, []), (false, haveFlagRow, []),
     (true, a.x.timeCentroid.isSome, []), (true, a.x.exposure.isSome, []), (true, a.x.uvw.isSome, [3]),
     (true, a.x.weight.isSome, [ncorr]), (true, a.x.sigma.isSome, [ncorr])]
  let outArgs := (args.filter fun p => p.1).map fun p => p.2
  outArgs.mapIdx fun i p =>
    if p.1 then some (getItemRow (fun i => (a.rowAvg i).map (RowAverageOutput.tuple (blockSize a.corrChunks 0))) i p.2) else none

/-- `chan_meta is None` (averaging/dask.py:33-50): no array has a channel axis. -/
def AvgCall.noChan (a : AvgCall K) : Bool :=
  !(a.x.vis.isSome || a.x.flag.isSome || a.x.weightSpectrum.isSome || a.x.sigmaSpectrum.isSome ||
    a.x.chanFreq.isSome || a.x.chanWidth.isSome || a.x.effectiveBw.isSome || a.x.resolution.isSome)

/-- `row_chan_average` (averaging/dask.py:159-202): `blockwise` refuses the result index "corr" when no
argument has it. -/
def AvgCall.rowChanCols (a : AvgCall K) : Except PyErr (List (Option (LazyCol K))) :=
  if a.noChan then .ok [none, none, none, none]
  else if !(a.x.weight.isSome || a.x.vis.isSome || a.x.flag.isSome || a.x.weightSpectrum.isSome ||
      a.x.sigmaSpectrum.isSome) then .error .valueError
  else .ok <| [a.x.vis.isSome, a.x.flag.isSome, a.x.weightSpectrum.isSome, a.x.sigmaSpectrum.isSome].mapIdx
    fun j p => if p then some (getItemRowChan (fun i k l => (a.cube i k l).map RowChanAverageOutput.tuple) j)
      else none

/-- `chan_average` (averaging/dask.py:218-244); a two-element `ChannelAverageOutput` is refused. -/
def AvgCall.chanCols (a : AvgCall K) : Except PyErr (List (Option (LazyCol K))) :=
  if a.noChan then namedTuple 4 [none, none]
  else .ok <| [a.x.chanFreq.isSome, a.x.chanWidth.isSome, a.x.effectiveBw.isSome, a.x.resolution.isSome].mapIdx
    fun j p => if p then some (getItemChan (fun k => (a.chan k).tuple) j) else none

/-- `time_and_channel` (averaging/dask.py:270-338). -/
def daskTimeAndChannel (a : AvgCall K) : Except PyErr (List (Option (LazyCol K))) := do
  let haveFlagRow := a.x.flagRow.isSome || a.x.flag.isSome
  let rowTuple := fun i => (a.rowMeta i).map RowMapOutput.tuple
  let rowData := a.rowAverageCols haveFlagRow
  let rowChanData ← a.rowChanCols
  let chanData ← a.chanCols
  .ok ([some (getItemRow rowTuple 1 []), some (getItemRow rowTuple 2 []),
        if haveFlagRow then some (getItemRow rowTuple 3 []) else none] ++ rowData ++ chanData ++ rowChanData)

/-- numpy's `time_and_channel` (time_and_channel_avg.py:785-846) on the rows of row block `i`, all channels and
correlations. -/
def AvgCall.numpy (a : AvgCall K) (i : Nat) : Except PyErr (AverageOutput K) :=
  let b := a.x.block (blockOff a.rowChunks i) 0 0
  timeAndChannel a.sqrt a.junk a.sentinel (blockSize a.rowChunks i) a.chanChunks.sum a.corrChunks.sum b.time
    b.interval b.ant1 b.ant2 b.flagRow b.rowCols b.chanFreq b.chanWidth b.effectiveBw b.resolution b.cubeCols
    a.secs a.bin

end

end Verif.Averaging
