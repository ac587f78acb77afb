/-
Model of africanus/rime/predict.py: argument checks, the RIME kernel and apply_gains.

Arrays are functions of their indices, with the extents used by loops as separate arguments. Complex
numbers are an arbitrary commutative ring `K` with a conjugation; arithmetic is exact. Accesses outside the
extents are not modelled (numba does not check them).
-/
import Verif.Basic
import Mathlib.Algebra.Star.Basic
import Mathlib.Data.Matrix.Basic
import Mathlib.LinearAlgebra.Matrix.Notation

set_option autoImplicit false

namespace Verif.Rime

open Function

/-! ### predict_checks -/

/-- The six optional arrays of `predict_vis`, in the order of its arguments, each described by some
datum of type `α` (`none` when the argument is `None`) (rime/predict.py:349-427). -/
structure Six (α : Type*) where
  dde1 : Option α
  coh : Option α
  dde2 : Option α
  die1 : Option α
  bvis : Option α
  die2 : Option α

/-- The tuple returned by `predict_checks` (predict.py:425-426). -/
structure Have where
  dde1 : Bool
  coh : Bool
  dde2 : Bool
  die1 : Bool
  bvis : Bool
  die2 : Bool
  deriving DecidableEq, Repr

/-- `x.ndim not in (a, b)` for a supplied array (predict.py:376-395). -/
def badNdim (x : Option Nat) (a b : Nat) : Bool :=
  match x with
  | none => false
  | some n => !(n == a || n == b)

/-- The rows of `expected_sizes` (predict.py:400-416) for the supplied arrays; entries are integers. -/
def expectedSizes (s : Six Nat) : List (List Int) :=
  (match s.dde1, s.dde2 with
    | some n, some _ => [[(n : Int), n - 1, n - 2, n - 1]]
    | _, _ => []) ++
  (match s.coh with
    | some n => [[(n : Int) + 1, n, n - 1, n]]
    | none => []) ++
  (match s.die1, s.die2 with
    | some n, some _ => [[(n : Int) + 1, n, n - 1, n]]
    | _, _ => []) ++
  (match s.bvis with
    | some n => [[(n : Int) + 2, n + 1, n, n + 1]]
    | none => [])

/-- `not all(expected_sizes[0] == s for s in expected_sizes[1:])` (predict.py:418). On an empty list the
generator is empty, `expected_sizes[0]` is never evaluated and `all` is true. -/
def sizesDiffer (l : List (List Int)) : Bool :=
  match l with
  | [] => false
  | x :: xs => !(xs.all fun y => x == y)

/-- `predict_checks` (predict.py:349-426); each array is given by its number of axes. The assertions
on the index arrays (361-363) are discharged by their types. -/
def predictChecks (s : Six Nat) : Except PyErr Have :=
  if s.dde1.isSome ^^ s.dde2.isSome then .error .valueError
  else if s.die1.isSome ^^ s.die2.isSome then .error .valueError
  else if badNdim s.dde1 5 6 then .error .valueError
  else if badNdim s.dde2 5 6 then .error .valueError
  else if s.dde1.isSome && s.dde2.isSome && s.dde1 != s.dde2 then .error .valueError
  else if badNdim s.coh 4 5 then .error .valueError
  else if badNdim s.die1 4 5 then .error .valueError
  else if badNdim s.bvis 3 4 then .error .valueError
  else if badNdim s.die2 4 5 then .error .valueError
  else if s.die1.isSome && s.die2.isSome && s.die1 != s.die2 then .error .valueError
  else if sizesDiffer (expectedSizes s) then .error .valueError
  else .ok ⟨s.dde1.isSome, s.coh.isSome, s.dde2.isSome, s.die1.isSome, s.bvis.isSome, s.die2.isSome⟩

/-- `JONES_1_OR_2` and `JONES_2X2` (predict.py:10-12); `JONES_NOT_PRESENT` is `none`. -/
inductive JType
  | diag | full
  deriving DecidableEq, Repr

/-- `_get_jones_types` (predict.py:15-54). -/
def getJonesType (x : Option Nat) (d1 d2 : Nat) : Except PyErr (Option JType) :=
  match x with
  | none => .ok none
  | some n => if n = d1 then .ok (some .diag) else if n = d2 then .ok (some .full) else .error .valueError

/-- The generation-time part of `predict_vis` (predict.py:434-465): the checks, the output dtype
(`np.result_type` of nothing raises `ValueError`) and the common Jones type. -/
def predictTypes (s : Six Nat) : Except PyErr (Have × JType) := do
  let h ← predictChecks s
  if (!h.dde1 && !h.coh && !h.dde2 && !h.die1 && !h.bvis && !h.die2) then throw .valueError
  let t1 ← getJonesType s.dde1 5 6
  let t2 ← getJonesType s.coh 4 5
  let t3 ← getJonesType s.dde2 5 6
  let t4 ← getJonesType s.die1 4 5
  let t5 ← getJonesType s.bvis 3 4
  let t6 ← getJonesType s.die2 4 5
  match [t1, t2, t3, t4, t5, t6].filterMap id with
  | [] => throw .valueError
  | p :: ps => if ps.all (· == p) then pure (h, p) else throw .valueError

/-! ### the kernels -/

section kernels
variable {K : Type*} [CommRing K] [StarRing K]

/-- 2x2 storage for the (corr, corr) axes (rime/predict.py:57-342). -/
abbrev M2 (K : Type*) := Matrix (Fin 2) (Fin 2) K

/-- What `jones_mul_factory` and the coherency loops do to one output cell of type `V` (rime/predict.py:57-342). -/
structure Kernel (V : Type*) where
  zero : V
  /-- DDEs and coherencies, accumulating -/
  ddeCoh : V → V → V → V → V
  /-- DDEs without coherencies, accumulating -/
  dde : V → V → V → V
  /-- coherencies without DDEs, accumulating -/
  coh : V → V → V
  /-- `out += base_vis` -/
  addVis : V → V → V
  /-- DIEs applied in place: `blj` and `out` are the same memory -/
  dies : V → V → V → V

/-- `jones_mul`, one or two correlations, `accumulate=True`, DDEs and coherencies (predict.py:93-96). -/
def diagDdeCoh (ncorr : Nat) (a1j blj a2j out : Nat → K) : Nat → K :=
  forRange ncorr out fun c out => update out c (out c + a1j c * blj c * star (a2j c))

/-- `jones_mul`, one or two correlations, `accumulate=True`, DDEs only (predict.py:127-130). -/
def diagDde (ncorr : Nat) (a1j a2j out : Nat → K) : Nat → K :=
  forRange ncorr out fun c out => update out c (out c + a1j c * star (a2j c))

/-- The coherency loop over the correlation axis (predict.py:229-234). -/
def diagCoh (ncorr : Nat) (blj out : Nat → K) : Nat → K :=
  forRange ncorr out fun c out => update out c (out c + blj c)

/-- `jones_mul`, one or two correlations, `accumulate=False`, DDEs and coherencies with `blj` the same memory
as `out` (predict.py:93-98 as called from 317-318 and 332-334). -/
def diagDies (ncorr : Nat) (a1j a2j out : Nat → K) : Nat → K :=
  forRange ncorr out fun c out => update out c (a1j c * out c * star (a2j c))

/-- `jones_mul`, 2x2, DDEs and coherencies: the four right hand sides (predict.py:102-121). -/
def fullRhs (a1j blj a2j : M2 K) : M2 K :=
  let a2xx := star (a2j 0 0)
  let a2xy := star (a2j 0 1)
  let a2yx := star (a2j 1 0)
  let a2yy := star (a2j 1 1)
  let xx := blj 0 0 * a2xx + blj 0 1 * a2xy
  let xy := blj 0 0 * a2yx + blj 0 1 * a2yy
  let yx := blj 1 0 * a2xx + blj 1 1 * a2xy
  let yy := blj 1 0 * a2yx + blj 1 1 * a2yy
  !![a1j 0 0 * xx + a1j 0 1 * yx, a1j 0 0 * xy + a1j 0 1 * yy;
     a1j 1 0 * xx + a1j 1 1 * yx, a1j 1 0 * xy + a1j 1 1 * yy]

/-- `jones_mul`, 2x2, accumulating (predict.py:112-116). -/
def fullDdeCoh (a1j blj a2j out : M2 K) : M2 K :=
  let x := fullRhs a1j blj a2j
  !![out 0 0 + x 0 0, out 0 1 + x 0 1; out 1 0 + x 1 0, out 1 1 + x 1 1]

/-- `jones_mul`, 2x2, DDEs only (predict.py:136-146). -/
def fullDde (a1j a2j out : M2 K) : M2 K :=
  let a2xx := star (a2j 0 0)
  let a2xy := star (a2j 0 1)
  let a2yx := star (a2j 1 0)
  let a2yy := star (a2j 1 1)
  !![out 0 0 + (a1j 0 0 * a2xx + a1j 0 1 * a2xy), out 0 1 + (a1j 0 0 * a2yx + a1j 0 1 * a2yy);
     out 1 0 + (a1j 1 0 * a2xx + a1j 1 1 * a2xy), out 1 1 + (a1j 1 0 * a2yx + a1j 1 1 * a2yy)]

/-- The coherency loops over both correlation axes (predict.py:221-227). -/
def fullCoh (blj out : M2 K) : M2 K :=
  !![out 0 0 + blj 0 0, out 0 1 + blj 0 1; out 1 0 + blj 1 0, out 1 1 + blj 1 1]

/-- `jones_mul`, 2x2, `accumulate=False`, called with `blj` the same memory as `out`: all of `blj` is read
before anything is written (predict.py:102-121 as called from 317-318). -/
def fullDies (a1j a2j out : M2 K) : M2 K := fullRhs a1j out a2j

/-- The functions used for Jones terms with one or two correlations (rime/predict.py:57-342). -/
def diagKernel (ncorr : Nat) : Kernel (Nat → K) where
  zero := fun _ => 0
  ddeCoh := diagDdeCoh ncorr
  dde := diagDde ncorr
  coh := diagCoh ncorr
  addVis := fun b out c => out c + b c
  dies := diagDies ncorr

/-- The functions used for 2x2 Jones terms (rime/predict.py:57-342). -/
def fullKernel : Kernel (M2 K) where
  zero := 0
  ddeCoh := fullDdeCoh
  dde := fullDde
  coh := fullCoh
  addVis := fun b out => out + b
  dies := fullDies

end kernels

/-! ### predict_vis -/

section predict
variable {V : Type*}

/-- `vis[row, f] = x` (rime/predict.py:192-238). -/
def upd2 (a : Nat → Nat → V) (r f : Nat) (x : V) : Nat → Nat → V := update a r (update (a r) f x)

/-- The arrays given to `predict_vis`; `dde` and `die` are pairs since both or none are supplied.
`dde` is indexed by (source, time, antenna, channel), `coh` by (source, row, channel), `die` by (time,
antenna, channel) and `bvis` by (row, channel) (rime/predict.py:430-503). -/
structure Terms (V : Type*) where
  dde : Option ((Nat → Nat → Nat → Nat → V) × (Nat → Nat → Nat → Nat → V))
  coh : Option (Nat → Nat → Nat → V)
  die : Option ((Nat → Nat → Nat → V) × (Nat → Nat → Nat → V))
  bvis : Option (Nat → Nat → V)

/-- `sum_coh_fn` (predict.py:192-238). -/
def sumCoh (k : Kernel V) (nsrc nrow nchan : Nat) (time ant1 ant2 : Nat → Nat) (tmin : Nat)
    (x : Terms V) (out : Nat → Nat → V) : Nat → Nat → V :=
  match x.dde, x.coh with
  | some (a1j, a2j), some blj =>
    forRange nsrc out fun s out => forRange nrow out fun r out =>
      let ti := time r - tmin
      forRange nchan out fun f out =>
        upd2 out r f (k.ddeCoh (a1j s ti (ant1 r) f) (blj s r f) (a2j s ti (ant2 r) f) (out r f))
  | some (a1j, a2j), none =>
    forRange nsrc out fun s out => forRange nrow out fun r out =>
      let ti := time r - tmin
      forRange nchan out fun f out =>
        upd2 out r f (k.dde (a1j s ti (ant1 r) f) (a2j s ti (ant2 r) f) (out r f))
  | none, some blj =>
    forRange nsrc out fun s out => forRange nrow out fun r out => forRange nchan out fun f out =>
      upd2 out r f (k.coh (blj s r f) (out r f))
  | none, none => out

/-- `add_coh` (predict.py:284-293). -/
def addCoh (k : Kernel V) (x : Terms V) (out : Nat → Nat → V) : Nat → Nat → V :=
  match x.bvis with
  | some b => fun r f => k.addVis (b r f) (out r f)
  | none => out

/-- `apply_dies` (predict.py:296-342); its two non-trivial branches have the same text. -/
def applyDies (k : Kernel V) (nrow nchan : Nat) (time ant1 ant2 : Nat → Nat) (tmin : Nat)
    (x : Terms V) (out : Nat → Nat → V) : Nat → Nat → V :=
  match x.die with
  | some (g1, g2) =>
    forRange nrow out fun r out =>
      let ti := time r - tmin
      forRange nchan out fun f out =>
        upd2 out r f (k.dies (g1 ti (ant1 r) f) (g2 ti (ant2 r) f) (out r f))
  | none => out

/-- `time_index.min()` (predict.py:486) over `nrow` rows; `ValueError` on an empty array. -/
def timeMin (nrow : Nat) (time : Nat → Nat) : Except PyErr Nat :=
  match nrow with
  | 0 => .error .valueError
  | n + 1 => .ok (forRange n (time 0) fun i a => min a (time (i + 1)))

/-- `predict_vis` (predict.py:430-503) once the Jones type, hence the kernel `k`, is known. `nsrc`,
`nchan` are the extents of the supplied arrays. A call without any array fails in the checks
(`predictTypes`); here `ValueError`. -/
def predictVis (k : Kernel V) (nsrc nrow nchan : Nat) (time ant1 ant2 : Nat → Nat) (x : Terms V) :
    Except PyErr (Nat → Nat → V) :=
  if x.dde.isNone && x.coh.isNone && x.die.isNone && x.bvis.isNone then .error .valueError else
  match timeMin nrow time with
  | .error e => .error e
  | .ok tmin =>
    let out := fun _ _ => k.zero
    let out := sumCoh k nsrc nrow nchan time ant1 ant2 tmin x out
    let out := addCoh k x out
    .ok (applyDies k nrow nchan time ant1 ant2 tmin x out)

/-- `apply_gains` (predict.py:507-517). -/
def applyGains (k : Kernel V) (nrow nchan : Nat) (time ant1 ant2 : Nat → Nat)
    (die1 : Nat → Nat → Nat → V) (vis : Nat → Nat → V) (die2 : Nat → Nat → Nat → V) :
    Except PyErr (Nat → Nat → V) :=
  predictVis k 0 nrow nchan time ant1 ant2
    { dde := none, coh := none, die := some (die1, die2), bvis := some vis }

end predict

end Verif.Rime
