/-
Model of `africanus/averaging/support.py` and `africanus/averaging/time_and_channel_mapping.py`.

Arrays are functions of the index together with an explicit extent; only the values below the
extent are meaningful. Times and intervals are exact rationals (every finite float is a rational;
rounding of the arithmetic is not modelled).
-/
import Verif.Basic
import Mathlib.Data.Rat.Defs
import Mathlib.Algebra.Order.Field.Rat
import Mathlib.Order.Basic

namespace Verif.Averaging

open Function

/-! ### support.py -/

/-- `np.argsort(data, kind='mergesort')` (support.py:24, time_and_channel_mapping.py:297):
the stable merge sort of the indices by key. -/
def argsort {α : Type*} [LE α] [DecidableLE α] (n : Nat) (key : Nat → α) : List Nat :=
  (List.range n).mergeSort (fun i j => decide (key i ≤ key j))

/-- The four results of `_unique_internal` (support.py:53). -/
structure UniqueOut (α : Type*) where
  uniq : List α
  idx : List Nat
  inv : Nat → Nat
  counts : List Nat

/-- Loop state of `_unique_internal` (support.py:31-50). `i` is the loop variable, `prev` is
`aux[i-1]`, `uniq`/`idx` are `aux[mask]`/`perm[mask]` collected so far, `cuts` is the list `counts`. -/
structure UState (α : Type*) where
  i : Nat
  prev : α
  cumsum : Nat
  uniq : List α
  idx : List Nat
  inv : Nat → Nat
  cuts : List Nat

/-- One iteration of the loop support.py:39-48. -/
def uniqueStep {α : Type*} [DecidableEq α] (data : Nat → α) (s : UState α) (p : Nat) : UState α :=
  let aux := data p
  if aux ≠ s.prev then
    { i := s.i + 1, prev := aux, cumsum := s.cumsum + 1,
      uniq := s.uniq ++ [aux], idx := s.idx ++ [p],
      inv := update s.inv p (s.cumsum + 1 - 1),
      cuts := s.cuts ++ [s.i] }
  else
    { s with i := s.i + 1, prev := aux, inv := update s.inv p (s.cumsum - 1) }

/-- `np.diff` of a list of naturals (support.py:53). -/
def diff : List Nat → List Nat
  | a :: b :: l => (b - a) :: diff (b :: l)
  | _ => []

/-- `_unique_internal` (support.py:10-53) for a 1-D array of length `n`.
The dimension check (12-14) is discharged by the type. -/
def uniqueInternal {α : Type*} [LE α] [DecidableLE α] [DecidableEq α] (n : Nat) (data : Nat → α) :
    UniqueOut α :=
  match argsort n data with
  | [] => ⟨[], [], fun _ => 0, []⟩
  | p :: ps =>
    let s := ps.foldl (uniqueStep data)
      { i := 1, prev := data p, cumsum := 1, uniq := [data p], idx := [p],
        inv := update (fun _ => 0) p 0, cuts := [0] }
    ⟨s.uniq, s.idx, s.inv, diff (s.cuts ++ [n])⟩

/-- Two int32 values viewed as one (little-endian) int64 (support.py:80-88). -/
def pack32 (a b : Int) : Int := b * 2 ^ 32 + a % 2 ^ 32

/-- An int64 value viewed as two int32 values (support.py:93). -/
def unpack32 (v : Int) : Int × Int := ((v + 2 ^ 31) % 2 ^ 32 - 2 ^ 31, v / 2 ^ 32)

/-- `unique_baselines` (support.py:68-97) on int32 antenna arrays of length `n`
(the dtype check 71-75 is discharged by the range hypothesis of the theorems). -/
def uniqueBaselines (n : Nat) (ant1 ant2 : Nat → Int) : UniqueOut (Int × Int) :=
  let u := uniqueInternal n (fun r => pack32 (ant1 r) (ant2 r))
  ⟨u.uniq.map unpack32, u.idx, u.inv, u.counts⟩

/-- `unique_time` (support.py:56-65). -/
def uniqueTime (n : Nat) (time : Nat → ℚ) : UniqueOut ℚ := uniqueInternal n time

/-! ### time_and_channel_mapping.py -/

/-- `is_flagged_factory` (time_and_channel_mapping.py:17-25). -/
def isFlagged (flagRow : Option (Nat → Nat)) (r : Nat) : Bool :=
  match flagRow with
  | some f => decide (f r ≠ 0)
  | none => false

/-- `set_flag_row_factory` (time_and_channel_mapping.py:39-52). -/
def setFlagRow (flagRow : Option (Nat → Nat)) (inRow : Nat) (outFlagRow : Option (Nat → Nat))
    (outRow : Nat) (flagged : Bool) : Except PyErr (Option (Nat → Nat)) :=
  match flagRow with
  | some f =>
    if f inRow = 0 ∧ flagged then .error .rowMapperError
    else .ok (outFlagRow.map fun o => update o outRow (if flagged then 1 else 0))
  | none => .ok outFlagRow

/-- Rows `[bl, :]` of the scratch arrays together with the loop variables of the per-baseline loop
(time_and_channel_mapping.py:226-230). The loop over `bl` only touches row `bl` of each array, so
each baseline is modelled separately. `binLookup` has `none` for the initial `-1`. -/
structure BlState where
  tbin : Nat := 0
  binCount : Nat := 0
  binFlagCount : Nat := 0
  binLow : ℚ := 0
  timeLookup : Nat → ℚ := fun _ => 0
  intervalLookup : Nat → ℚ := fun _ => 0
  binFlagged : Nat → Bool := fun _ => false
  binLookup : Nat → Option Nat := fun _ => none

/-- time_and_channel_mapping.py:248-265: set the lower edge, or close the bin when the sample does not fit. -/
def openBin (secs sentinel : ℚ) (t half : ℚ) (s : BlState) : BlState :=
  if s.binCount = 0 then
    { s with binLow := t - half }
  else if t + half - s.binLow > secs then
    let s' :=
      if s.binCount > 0 then
        { s with
          timeLookup := update s.timeLookup s.tbin (s.timeLookup s.tbin / s.binCount)
          binFlagged := update s.binFlagged s.tbin (decide (s.binCount = s.binFlagCount)) }
      else
        { s with
          timeLookup := update s.timeLookup s.tbin sentinel
          binFlagged := update s.binFlagged s.tbin false }
    { s' with tbin := s'.tbin + 1, binCount := 0, binFlagCount := 0 }
  else s

/-- time_and_channel_mapping.py:267-278: add the sample of row `r` (time index `t`) to the current bin. -/
def addSample (time interval : Nat → ℚ) (flagged : Nat → Bool) (t r : Nat) (s : BlState) : BlState :=
  { s with
    binLookup := update s.binLookup t (some s.tbin)
    timeLookup := update s.timeLookup s.tbin (s.timeLookup s.tbin + time r)
    intervalLookup := update s.intervalLookup s.tbin (s.intervalLookup s.tbin + interval r)
    binCount := s.binCount + 1
    binFlagCount := if flagged r then s.binFlagCount + 1 else s.binFlagCount }

/-- Body of the loop over unique times (time_and_channel_mapping.py:232-278). `rowOf t` is `row_lookup[bl, t]`. -/
def blStep (time interval : Nat → ℚ) (flagged : Nat → Bool) (secs sentinel : ℚ)
    (rowOf : Nat → Option Nat) (t : Nat) (s : BlState) : BlState :=
  match rowOf t with
  | none => s
  | some r =>
    addSample time interval flagged t r
      (openBin secs sentinel (time r) (interval r * (1 / 2)) s)

/-- time_and_channel_mapping.py:280-292: normalise the last bin and pad with the sentinel up to `ntime`. -/
def blFinish (sentinel : ℚ) (ntime : Nat) (s : BlState) : BlState :=
  let s' :=
    if s.binCount > 0 then
      { s with
        timeLookup := update s.timeLookup s.tbin (s.timeLookup s.tbin / s.binCount)
        binFlagged := update s.binFlagged s.tbin (decide (s.binCount = s.binFlagCount))
        tbin := s.tbin + 1 }
    else s
  { s' with
    timeLookup := fun b => if s'.tbin ≤ b ∧ b < ntime then sentinel else s'.timeLookup b
    binFlagged := fun b => if s'.tbin ≤ b ∧ b < ntime then false else s'.binFlagged b }

/-- One iteration of the loop over baselines (time_and_channel_mapping.py:226-292); the final `tbin` field is what is
added to `out_rows`. -/
def blLoop (time interval : Nat → ℚ) (flagged : Nat → Bool) (secs sentinel : ℚ) (ntime : Nat)
    (rowOf : Nat → Option Nat) : BlState :=
  blFinish sentinel ntime
    (forRange ntime {} (blStep time interval flagged secs sentinel rowOf))

/-- time_and_channel_mapping.py:210-222: the `(baseline, time) → row` lookup, raising on duplicates. -/
def rowLookup (n : Nat) (blInv timeInv : Nat → Nat) :
    Except PyErr (Nat → Nat → Option Nat) :=
  forRangeM n (fun _ _ => none) fun r lk =>
    match lk (blInv r) (timeInv r) with
    | none => .ok (update lk (blInv r) (update (lk (blInv r)) (timeInv r) (some r)))
    | some _ => .error .valueError

/-- time_and_channel_mapping.py:300-301: `inv_argsort[a] = i` for `i, a in enumerate(argsort)`. -/
def invPerm (l : List Nat) : Nat → Nat :=
  l.zipIdx.foldl (fun inv p => update inv p.1 p.2) (fun _ => 0)

/-- `RowMapOutput` (time_and_channel_mapping.py:55); `outRows` is the extent of `time`, `interval` and `flagRow`. -/
structure RowMapOutput where
  map : Nat → Nat
  outRows : Nat
  time : Nat → ℚ
  interval : Nat → ℚ
  flagRow : Option (Nat → Nat)

/-- State of the final loop (time_and_channel_mapping.py:304-328). -/
structure FinalState where
  rowMap : Nat → Nat
  outFlagRow : Option (Nat → Nat)

/-- Body of the final loop (time_and_channel_mapping.py:310-328). A `bin_lookup` of `-1` (never produced, see `C06`) is
reported as an `indexError`. -/
def finalStep (bls : Nat → BlState) (blInv timeInv : Nat → Nat) (ntime outRows : Nat)
    (inv : Nat → Nat) (flagRow : Option (Nat → Nat)) (r : Nat) (s : FinalState) :
    Except PyErr FinalState :=
  match (bls (blInv r)).binLookup (timeInv r) with
  | none => .error .indexError
  | some tbin =>
    let outRow := inv (blInv r * ntime + tbin)
    if outRow ≥ outRows then .error .rowMapperError
    else
      match setFlagRow flagRow r s.outFlagRow outRow ((bls (blInv r)).binFlagged tbin) with
      | .error e => .error e
      | .ok fr => .ok ⟨update s.rowMap r outRow, fr⟩

/-- `row_mapper` (time_and_channel_mapping.py:187-333) on `n` rows. `sentinel` stands for
`np.finfo(time.dtype).max`. `time_lookup.ravel()[k]` is `time_lookup[k / ntime, k % ntime]`. -/
def rowMapper (sentinel : ℚ) (n : Nat) (time interval : Nat → ℚ) (ant1 ant2 : Nat → Int)
    (flagRow : Option (Nat → Nat)) (secs : ℚ) : Except PyErr RowMapOutput := do
  let ub := uniqueBaselines n ant1 ant2
  let ut := uniqueTime n time
  let nbl := ub.uniq.length
  let ntime := ut.uniq.length
  let rl ← rowLookup n ub.inv ut.inv
  let bls := fun bl => blLoop time interval (isFlagged flagRow) secs sentinel ntime (rl bl)
  let outRows := forRange nbl 0 fun bl acc => acc + (bls bl).tbin
  let flatTime := fun k => (bls (k / ntime)).timeLookup (k % ntime)
  let flatInt := fun k => (bls (k / ntime)).intervalLookup (k % ntime)
  let order := argsort (nbl * ntime) flatTime
  let inv := invPerm order
  let fin ← forRangeM n (⟨fun _ => 0, flagRow.map fun _ => fun _ => 0⟩ : FinalState)
    (finalStep bls ub.inv ut.inv ntime outRows inv flagRow)
  return { map := fin.rowMap
           outRows := outRows
           time := fun i => flatTime (order.getD i 0)
           interval := fun i => flatInt (order.getD i 0)
           flagRow := fin.outFlagRow }

/-- Loop body of `channel_mapper` (time_and_channel_mapping.py:344-351); the state is
`(chan_map, chan_bin, bin_count)`. -/
def chanStep (chanBinSize : Nat) (c : Nat) (s : (Nat → Nat) × Nat × Nat) : (Nat → Nat) × Nat × Nat :=
  let m := update s.1 c s.2.1
  let cnt := s.2.2 + 1
  if cnt = chanBinSize then (m, s.2.1 + 1, 0) else (m, s.2.1, cnt)

/-- `channel_mapper` (time_and_channel_mapping.py:338-356): the map and the number of output
channels. -/
def channelMapper (nchan chanBinSize : Nat) : (Nat → Nat) × Nat :=
  let s := forRange nchan ((fun _ => 0), 0, 0) (chanStep chanBinSize)
  (s.1, if s.2.2 > 0 then s.2.1 + 1 else s.2.1)

end Verif.Averaging
