/-
Model of `africanus/averaging/time_and_channel_avg.py` and of the chunk bookkeeping in
`africanus/averaging/dask.py`.

Values live in an arbitrary field `K` (exact arithmetic); `sqrt` is a parameter.
Optional inputs are `Option`s. `np.empty` is modelled by an arbitrary initial array `junk`.
-/
import Verif.Averaging.Model
import Mathlib.Algebra.Field.Basic

set_option autoImplicit false

namespace Verif.Averaging

open Function

/-- `a[o] += x` on a 1-D array (averaging/time_and_channel_avg.py:31-156). -/
def add1 {K : Type*} [Add K] (a : Nat → K) (o : Nat) (x : K) : Nat → K := update a o (a o + x)

/-- `a[o, c] += x` on a 2-D array (averaging/time_and_channel_avg.py:31-156). -/
def add2 {K : Type*} [Add K] (a : Nat → Nat → K) (o c : Nat) (x : K) : Nat → Nat → K :=
  update a o (add1 (a o) c x)

/-- `a[o, f, c] += x` on a 3-D array (averaging/time_and_channel_avg.py:488-638). -/
def add3 {K : Type*} [Add K] (a : Nat → Nat → Nat → K) (o f c : Nat) (x : K) :
    Nat → Nat → Nat → K :=
  update a o (add2 (a o) f c x)

/-- `matching_flag_factory` (time_and_channel_avg.py:15-23). The output flag row is present exactly
when the input flag row is (`output_factory`, time_and_channel_mapping.py:28-36). -/
def flagsMatch (flagRow : Option (Nat → Nat)) (ri : Nat) (outFlagRow : Option (Nat → Nat)) (ro : Nat) :
    Bool :=
  match flagRow, outFlagRow with
  | some f, some g => decide (f ri = g ro)
  | _, _ => true

/-! ### row_average -/

/-- The optional row columns given to `row_average` (time_and_channel_avg.py:32-34); `ncorr` is
`weight.shape[1]`/`sigma.shape[1]`. -/
structure RowCols (K : Type*) where
  timeCentroid : Option (Nat → K)
  exposure : Option (Nat → K)
  uvw : Option (Nat → Nat → K)
  weight : Option (Nat → Nat → K)
  sigma : Option (Nat → Nat → K)

/-- Accumulators of `row_average` (time_and_channel_avg.py:45-80). An accumulator whose input is absent is never
touched and not returned. -/
structure RowAcc (K : Type*) where
  counts : Nat → Nat
  ant1 : Nat → Int
  ant2 : Nat → Int
  timeCentroid : Nat → K
  exposure : Nat → K
  uvw : Nat → Nat → K
  weight : Nat → Nat → K
  sigma : Nat → Nat → K
  sigmaW : Nat → Nat → K

variable {K : Type*} [Field K] [DecidableEq K]

/-- time_and_channel_avg.py:103-116: the loop over correlations for `sigma`. -/
def sigmaAdd (weight : Option (Nat → Nat → K)) (sigma : Nat → Nat → K) (ri ro co : Nat)
    (s : (Nat → Nat → K) × (Nat → Nat → K)) : (Nat → Nat → K) × (Nat → Nat → K) :=
  let sva := sigma ri co ^ 2
  match weight with
  | some w => (add2 s.1 ro co (sva * w ri co ^ 2), add2 s.2 ro co (w ri co))
  | none => (add2 s.1 ro co sva, add2 s.2 ro co 1)

/-- time_and_channel_avg.py:86-118: contribution of one matching input row. -/
def rowAdd (cols : RowCols K) (ncorr : Nat) (ri ro : Nat) (s : RowAcc K) : RowAcc K :=
  let s := match cols.uvw with
    | some u => { s with uvw := add2 (add2 (add2 s.uvw ro 0 (u ri 0)) ro 1 (u ri 1)) ro 2 (u ri 2) }
    | none => s
  let s := match cols.timeCentroid with
    | some t => { s with timeCentroid := add1 s.timeCentroid ro (t ri) }
    | none => s
  let s := match cols.exposure with
    | some e => { s with exposure := add1 s.exposure ro (e ri) }
    | none => s
  let s := match cols.weight with
    | some w => { s with weight := forRange ncorr s.weight fun co a => add2 a ro co (w ri co) }
    | none => s
  let s := match cols.sigma with
    | some sg =>
      let p := forRange ncorr (s.sigma, s.sigmaW) fun co a => sigmaAdd cols.weight sg ri ro co a
      { s with sigma := p.1, sigmaW := p.2 }
    | none => s
  { s with counts := add1 s.counts ro 1 }

/-- time_and_channel_avg.py:83-123: the accumulation loop body. -/
def rowStep (rm : RowMapOutput) (flagRow : Option (Nat → Nat)) (ant1 ant2 : Nat → Int)
    (cols : RowCols K) (ncorr : Nat) (ri : Nat) (s : RowAcc K) : RowAcc K :=
  let ro := rm.map ri
  let s := if flagsMatch flagRow ri rm.flagRow ro then rowAdd cols ncorr ri ro s else s
  { s with ant1 := update s.ant1 ro (ant1 ri), ant2 := update s.ant2 ro (ant2 ri) }

/-- `RowAverageOutput` (time_and_channel_avg.py:26-28). -/
structure RowAverageOutput (K : Type*) where
  ant1 : Nat → Int
  ant2 : Nat → Int
  timeCentroid : Option (Nat → K)
  exposure : Option (Nat → K)
  uvw : Option (Nat → Nat → K)
  weight : Option (Nat → Nat → K)
  sigma : Option (Nat → Nat → K)

/-- `row_average` (time_and_channel_avg.py:39-154) on `n` rows. The normalisation loop (126-149) treats each output
row by itself and is written pointwise. -/
def rowAverage (sqrt : K → K) (junk : Nat → Int) (n : Nat) (rm : RowMapOutput)
    (flagRow : Option (Nat → Nat)) (ant1 ant2 : Nat → Int) (cols : RowCols K) (ncorr : Nat) :
    RowAverageOutput K :=
  let s := forRange n
    ({ counts := fun _ => 0, ant1 := junk, ant2 := junk, timeCentroid := fun _ => 0,
       exposure := fun _ => 0, uvw := fun _ _ => 0, weight := fun _ _ => 0,
       sigma := fun _ _ => 0, sigmaW := fun _ _ => 0 } : RowAcc K)
    (rowStep rm flagRow ant1 ant2 cols ncorr)
  { ant1 := s.ant1
    ant2 := s.ant2
    timeCentroid := cols.timeCentroid.map fun _ => fun o =>
      if s.counts o > 0 then s.timeCentroid o / s.counts o else s.timeCentroid o
    exposure := cols.exposure.map fun _ => s.exposure
    uvw := cols.uvw.map fun _ => fun o k =>
      if s.counts o > 0 ∧ k < 3 then s.uvw o k / s.counts o else s.uvw o k
    weight := cols.weight.map fun _ => s.weight
    sigma := cols.sigma.map fun _ => fun o co =>
      if s.counts o > 0 ∧ co < ncorr then
        let ssva := s.sigma o co
        let wt := s.sigmaW o co
        sqrt (if wt ≠ 0 then ssva / wt ^ 2 else ssva)
      else s.sigma o co }

/-! ### row_chan_average -/

/-- Inputs of shape (row, chan, corr) of `row_chan_average` and the row weights (time_and_channel_avg.py:489-491). -/
structure CubeCols (K : Type*) where
  weight : Option (Nat → Nat → K)
  vis : Option (Nat → Nat → Nat → K)
  flag : Option (Nat → Nat → Nat → Nat)
  weightSpectrum : Option (Nat → Nat → Nat → K)
  sigmaSpectrum : Option (Nat → Nat → Nat → K)

/-- One family (flagged or unflagged) of accumulators (time_and_channel_avg.py:541-559). -/
structure CubeAcc (K : Type*) where
  counts : Nat → Nat → Nat → Nat := fun _ _ _ => 0
  vis : Nat → Nat → Nat → K
  visW : Nat → Nat → Nat → K
  ws : Nat → Nat → Nat → K
  sigma : Nat → Nat → Nat → K
  sigmaW : Nat → Nat → Nat → K

/-- `is_chan_flagged_factory` (time_and_channel_avg.py:457-465). -/
def isChanFlagged (flag : Option (Nat → Nat → Nat → Nat)) (r f c : Nat) : Bool :=
  match flag with
  | some fl => decide (fl r f c ≠ 0)
  | none => false

/-- `vis_add_factory` (time_and_channel_avg.py:183-220): weighted visibility and its weight. -/
def visAdd (cols : CubeCols K) (ro fo ri fi c : Nat) (s : CubeAcc K) : CubeAcc K :=
  match cols.vis, cols.weightSpectrum, cols.weight with
  | none, _, _ => s
  | some v, some w, _ =>
    { s with vis := add3 s.vis ro fo c (v ri fi c * w ri fi c)
             visW := add3 s.visW ro fo c (w ri fi c) }
  | some v, none, some w =>
    { s with vis := add3 s.vis ro fo c (v ri fi c * w ri c)
             visW := add3 s.visW ro fo c (w ri c) }
  | some v, none, none =>
    { s with vis := add3 s.vis ro fo c (v ri fi c)
             visW := add3 s.visW ro fo c 1 }

/-- `chan_add_factory` (time_and_channel_avg.py:267-276) for the weight spectrum. -/
def wsAdd (cols : CubeCols K) (ro fo ri fi c : Nat) (s : CubeAcc K) : CubeAcc K :=
  match cols.weightSpectrum with
  | some w => { s with ws := add3 s.ws ro fo c (w ri fi c) }
  | none => s

/-- `sigma_spectrum_add_factory` (time_and_channel_avg.py:223-264). -/
def sigmaSpecAdd (cols : CubeCols K) (ro fo ri fi c : Nat) (s : CubeAcc K) : CubeAcc K :=
  match cols.sigmaSpectrum, cols.weightSpectrum, cols.weight with
  | none, _, _ => s
  | some sg, some w, _ =>
    { s with sigma := add3 s.sigma ro fo c (sg ri fi c ^ 2 * w ri fi c ^ 2)
             sigmaW := add3 s.sigmaW ro fo c (w ri fi c) }
  | some sg, none, some w =>
    { s with sigma := add3 s.sigma ro fo c (sg ri fi c ^ 2 * w ri c ^ 2)
             sigmaW := add3 s.sigmaW ro fo c (w ri c) }
  | some sg, none, none =>
    { s with sigma := add3 s.sigma ro fo c (sg ri fi c ^ 2)
             sigmaW := add3 s.sigmaW ro fo c 1 }

/-- time_and_channel_avg.py:572-585 / 588-600: add one sample to a family of accumulators. -/
def cubeAdd (cols : CubeCols K) (ro fo ri fi c : Nat) (s : CubeAcc K) : CubeAcc K :=
  let s := { s with counts := add3 s.counts ro fo c 1 }
  sigmaSpecAdd cols ro fo ri fi c (wsAdd cols ro fo ri fi c (visAdd cols ro fo ri fi c s))

/-- Both families of accumulators: `flagged` and `unflagged` (averaging/time_and_channel_avg.py:488-638). -/
structure CubeState (K : Type*) where
  flagged : CubeAcc K
  unflagged : CubeAcc K

/-- time_and_channel_avg.py:570-600: one sample. -/
def cubeStep (cols : CubeCols K) (ro fo ri fi c : Nat) (s : CubeState K) : CubeState K :=
  if isChanFlagged cols.flag ri fi c then
    { s with flagged := cubeAdd cols ro fo ri fi c s.flagged }
  else
    { s with unflagged := cubeAdd cols ro fo ri fi c s.unflagged }

/-- time_and_channel_avg.py:562-600: the accumulation loops over rows, channels and correlations. -/
def cubeLoop (n nchan ncorr : Nat) (rm : RowMapOutput) (flagRow : Option (Nat → Nat))
    (chanMap : Nat → Nat) (cols : CubeCols K) (init : CubeState K) : CubeState K :=
  forRange n init fun ri s =>
    if flagsMatch flagRow ri rm.flagRow (rm.map ri) then
      forRange nchan s fun fi s =>
        forRange ncorr s fun c s => cubeStep cols (rm.map ri) (chanMap fi) ri fi c s
    else s

/-- `RowChanAverageOutput` (time_and_channel_avg.py:479-481). -/
structure RowChanAverageOutput (K : Type*) where
  vis : Option (Nat → Nat → Nat → K)
  flag : Option (Nat → Nat → Nat → Nat)
  weightSpectrum : Option (Nat → Nat → Nat → K)
  sigmaSpectrum : Option (Nat → Nat → Nat → K)

/-- `vis_normaliser_factory` (time_and_channel_avg.py:279-290) writing over `old`. -/
def visNorm (old vis wsum : K) : K := if wsum ≠ 0 then vis / wsum else old

/-- `sigma_spectrum_normaliser_factory` (time_and_channel_avg.py:293-308) writing over `old`. -/
def sigmaNorm (sqrt : K → K) (old sg wsum : K) : K := if wsum = 0 then old else sqrt (sg / wsum ^ 2)

/-- Empty accumulators (averaging/time_and_channel_avg.py:488-638). -/
def CubeAcc.zero : CubeAcc K :=
  { vis := fun _ _ _ => 0, visW := fun _ _ _ => 0, ws := fun _ _ _ => 0
    sigma := fun _ _ _ => 0, sigmaW := fun _ _ _ => 0 }

/-- `row_chan_average` (time_and_channel_avg.py:527-636) on `n` rows, `nchan` channels and `ncorr` correlations with
the channel map `chanMap` onto `outChans` channels. The normalisation loop (602-632) treats each
output sample by itself and is written pointwise; it raises iff some sample has no contribution. -/
def rowChanAverage (sqrt : K → K) (n nchan ncorr : Nat) (rm : RowMapOutput)
    (flagRow : Option (Nat → Nat)) (chanMap : Nat → Nat) (outChans : Nat) (cols : CubeCols K) :
    Except PyErr (RowChanAverageOutput K) :=
  let s := cubeLoop n nchan ncorr rm flagRow chanMap cols ⟨CubeAcc.zero, CubeAcc.zero⟩
  let u := s.unflagged
  let fl := s.flagged
  if (List.range rm.outRows).any fun r => (List.range outChans).any fun f =>
      (List.range ncorr).any fun c => decide (u.counts r f c = 0 ∧ fl.counts r f c = 0) then
    .error .rowChannelAverageException
  else
    .ok {
      vis := cols.vis.map fun _ => fun r f c =>
        if u.counts r f c > 0 then visNorm (u.vis r f c) (u.vis r f c) (u.visW r f c)
        else visNorm (u.vis r f c) (fl.vis r f c) (fl.visW r f c)
      flag := cols.flag.map fun _ => fun r f c =>
        if u.counts r f c > 0 then 0 else 1
      weightSpectrum := cols.weightSpectrum.map fun _ => fun r f c =>
        if u.counts r f c > 0 then u.ws r f c else fl.ws r f c
      sigmaSpectrum := cols.sigmaSpectrum.map fun _ => fun r f c =>
        if u.counts r f c > 0 then
          sigmaNorm sqrt (u.sigma r f c) (u.sigma r f c) (u.sigmaW r f c)
        else sigmaNorm sqrt (u.sigma r f c) (fl.sigma r f c) (fl.sigmaW r f c) }

/-! ### chan_average -/

/-- `ChannelAverageOutput` (time_and_channel_avg.py:641-642). -/
structure ChanAverageOutput (K : Type*) where
  chanFreq : Option (Nat → K)
  chanWidth : Option (Nat → K)
  effectiveBw : Option (Nat → K)
  resolution : Option (Nat → K)

/-- `chan_average` (time_and_channel_avg.py:649-691) over `nchan` channels. All four accumulators use the same loop
(671-684); each is written as its own fold. -/
def chanAverage (nchan : Nat) (chanMap : Nat → Nat)
    (chanFreq chanWidth effectiveBw resolution : Option (Nat → K)) : ChanAverageOutput K :=
  let accum := fun (x : Nat → K) => forRange nchan (fun _ => (0 : K)) fun f a => add1 a (chanMap f) (x f)
  let counts := forRange nchan (fun _ => (0 : Nat)) fun f a => add1 a (chanMap f) 1
  { chanFreq := chanFreq.map fun x => fun o => accum x o / counts o
    chanWidth := chanWidth.map accum
    effectiveBw := effectiveBw.map accum
    resolution := resolution.map accum }

/-! ### merge_flags -/

/-- time_and_channel_avg.py:715-724 / 742-751: are all samples of row `r` flagged (nested loops with `break`). -/
def allFlagged (nchan ncorr : Nat) (flag : Nat → Nat → Nat → Nat) (r : Nat) : Bool :=
  (List.range nchan).all fun f => (List.range ncorr).all fun c => !decide (flag r f c = 0)

/-- `merge_flags` (time_and_channel_avg.py:707-761); `n` is `flag.shape[0]`. -/
def mergeFlags (n nchan ncorr : Nat) (flagRow : Option (Nat → Nat))
    (flag : Option (Nat → Nat → Nat → Nat)) : Except PyErr (Option (Nat → Nat)) :=
  match flagRow, flag with
  | some fr, some fl =>
    match forRangeM n () fun r _ =>
      if decide (fr r ≠ 0) ≠ allFlagged nchan ncorr fl r then .error .valueError
      else (.ok () : Except PyErr Unit) with
    | .error e => .error e
    | .ok _ => .ok (some fr)
  | some fr, none => .ok (some fr)
  | none, some fl => .ok (some (forRange n (fun _ => 0) fun r a =>
      update a r (if allFlagged nchan ncorr fl r then 1 else 0)))
  | none, none => .ok none

/-! ### chan_corrs -/

/-- `find_chan_corr` (time_and_channel_avg.py:359-412) for the dimension of one axis; `none` stands for the axis of an
absent array (`-1`) or an axis the array does not have. -/
def findDim (cur : Nat) (dim : Option Nat) : Except PyErr Nat :=
  match dim with
  | none => .ok cur
  | some d => if cur = 0 then .ok d else if cur ≠ d then .error .valueError else .ok cur

/-- `find_chan_corr` (time_and_channel_avg.py:359-412) on a pair of optional dimensions. -/
def findChanCorr (cur : Nat × Nat) (dims : Option Nat × Option Nat) : Except PyErr (Nat × Nat) :=
  match findDim cur.1 dims.1 with
  | .error e => .error e
  | .ok chan =>
    match findDim cur.2 dims.2 with
    | .error e => .error e
    | .ok corr => .ok (chan, corr)

/-- `chan_corrs` (time_and_channel_avg.py:419-454): the eight arrays in order, each with its (chan, corr) dimensions. -/
def chanCorrs (arrays : List (Option Nat × Option Nat)) : Except PyErr (Nat × Nat) :=
  arrays.foldlM findChanCorr (0, 0)

/-! ### time_and_channel -/

/-- The part of `AverageOutput` (time_and_channel_avg.py:696-700) produced by `time_and_channel`. -/
structure AverageOutput (K : Type*) where
  rows : RowMapOutput
  rowData : RowAverageOutput K
  chanData : ChanAverageOutput K
  cubeData : RowChanAverageOutput K
  outChans : Nat

/-- `time_and_channel` (time_and_channel_avg.py:785-846). `nchan`, `ncorr` are the extents found by `chan_corrs`. -/
def timeAndChannel (sqrt : K → K) (junk : Nat → Int) (sentinel : ℚ) (n nchan ncorr : Nat)
    (time interval : Nat → ℚ) (ant1 ant2 : Nat → Int) (flagRow : Option (Nat → Nat))
    (rowCols : RowCols K) (chanFreq chanWidth effectiveBw resolution : Option (Nat → K))
    (cols : CubeCols K) (secs : ℚ) (chanBinSize : Nat) : Except PyErr (AverageOutput K) :=
  match mergeFlags n nchan ncorr flagRow cols.flag with
  | .error e => .error e
  | .ok fr =>
    match rowMapper sentinel n time interval ant1 ant2 fr secs with
    | .error e => .error e
    | .ok rm =>
      let cm := channelMapper nchan chanBinSize
      match rowChanAverage sqrt n nchan ncorr rm fr cm.1 cm.2 cols with
      | .error e => .error e
      | .ok cube => .ok
        { rows := rm
          rowData := rowAverage sqrt junk n rm fr ant1 ant2 rowCols ncorr
          chanData := chanAverage nchan cm.1 chanFreq chanWidth effectiveBw resolution
          cubeData := cube
          outChans := cm.2 }

/-! ### dask.py -/

/-- `chan_metadata` (averaging/dask.py:33-49): the channel chunks of the first row-chan array
present, otherwise of the first channel array present. -/
def chanMetadataChunks (rowChanArrays chanArrays : List (Option (List Nat))) : Option (List Nat) :=
  match rowChanArrays.findSome? id with
  | some c => some c
  | none => chanArrays.findSome? id

/-- `adjust_chunks["chan"]` (averaging/dask.py:170-173 and 224-226): the declared output chunks. -/
def declaredChanChunks (chanBinSize : Nat) (chunks : List Nat) : List Nat :=
  chunks.map fun c => (c + chanBinSize - 1) / chanBinSize

/-- Lengths actually computed by the blocks: each channel chunk is mapped by `channel_mapper`
(averaging/dask.py:53-54). -/
def computedChanChunks (chanBinSize : Nat) (chunks : List Nat) : List Nat :=
  chunks.map fun c => (channelMapper c chanBinSize).2

/-- Declared channel chunks of the row-chan outputs of `time_and_channel` (dask.py:306-311):
`chan_bin_size` is passed on. -/
def daskRowChanDeclared (chanBinSize : Nat) (chunks : List Nat) : List Nat :=
  declaredChanChunks chanBinSize chunks

/-- Declared channel chunks of the channel outputs of `time_and_channel` (dask.py:313-317):
`chan_bin_size` is not passed on, so the default `1` of `chan_average` (averaging/dask.py:219) is used. -/
def daskChanDeclared (_chanBinSize : Nat) (chunks : List Nat) : List Nat :=
  declaredChanChunks 1 chunks

/-- Construction of a `namedtuple` with the given number of fields (averaging/dask.py:222). -/
def namedTuple {α : Type*} (nfields : Nat) (args : List α) : Except PyErr (List α) :=
  if args.length = nfields then .ok args else .error .typeError

/-- `chan_average` in dask.py (218-244): what is returned for the four channel arrays. -/
def daskChanAverage {α : Type*} (chanMeta : Option (List Nat)) (arrays : List (Option α)) :
    Except PyErr (List (Option α)) :=
  match chanMeta with
  | none => namedTuple 4 [none, none]
  | some _ => namedTuple 4 arrays

/-- `row_chan_average` in dask.py (159-202), lines 165-166 and 202. -/
def daskRowChanAverage {α : Type*} (chanMeta : Option (List Nat)) (arrays : List (Option α)) :
    Except PyErr (List (Option α)) :=
  match chanMeta with
  | none => namedTuple 4 [none, none, none, none]
  | some _ => namedTuple 4 arrays

end Verif.Averaging
