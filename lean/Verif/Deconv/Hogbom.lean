/-
Model of africanus/deconv/hogbom/clean.py (Hogbom CLEAN).

Images are functions of two indices with explicit extents; the arithmetic is that of any ordered field, without
rounding and without nan. Logging is not modelled.
-/
import Verif.Loops
import Mathlib.Algebra.Order.Field.Basic
import Mathlib.Algebra.Order.AbsoluteValue.Basic

set_option autoImplicit false

namespace Verif.Deconv

variable {K : Type*} [Field K] [LinearOrder K]

/-- `a.min()` of a non-empty image (deconv/hogbom/clean.py:74). -/
def imgMin (nx ny : Nat) (a : Nat → Nat → K) : K :=
  forRange nx (a 0 0) fun x s => forRange ny s fun y s => if a x y < s then a x y else s

/-- `a.max()` of a non-empty image (deconv/hogbom/clean.py:75). -/
def imgMax (nx ny : Nat) (a : Nat → Nat → K) : K :=
  forRange nx (a 0 0) fun x s => forRange ny s fun y s => if s < a x y then a x y else s

/-- Variables of the search; `-1` is `none` (deconv/hogbom/clean.py:70-101). -/
structure PeakState (K : Type*) where
  minAt : Option (Nat × Nat)
  maxAt : Option (Nat × Nat)
  peak : K

/-- The body of the double loop (deconv/hogbom/clean.py:85-94). -/
def peakStep (a : Nat → Nat → K) (minPeak maxPeak : K) (x y : Nat) (s : PeakState K) : PeakState K :=
  let intensity := a x y
  let s := if intensity = minPeak then { s with minAt := some (x, y) } else s
  if intensity = maxPeak then { s with maxAt := some (x, y), peak := intensity } else s

/-- Result of `find_peak` (deconv/hogbom/clean.py:70-101). -/
structure Peak (K : Type*) where
  maxx : Nat
  maxy : Nat
  minx : Nat
  miny : Nat
  intensity : K

/-- `find_peak` (deconv/hogbom/clean.py:71-101); the reductions of an image without pixels raise `ValueError`. -/
def findPeak (nx ny : Nat) (a : Nat → Nat → K) : Except PyErr (Peak K) :=
  if nx = 0 ∨ ny = 0 then .error .valueError
  else
    let minPeak := imgMin nx ny a
    let maxPeak := imgMax nx ny a
    let s := forRange nx ⟨none, none, -1⟩ fun x s => forRange ny s fun y s => peakStep a minPeak maxPeak x y s
    match s.minAt with
    | none => .error .valueError
    | some (minx, miny) =>
      match s.maxAt with
      | none => .error .valueError
      | some (maxx, maxy) => .ok ⟨maxx, maxy, minx, miny, s.peak⟩

/-- `build_cleanmap` (deconv/hogbom/clean.py:104-106). -/
def buildCleanmap (clean : Nat → Nat → K) (intensity gamma : K) (p q : Nat) : Nat → Nat → K :=
  fun x y => if x = p ∧ y = q then clean x y + intensity * gamma else clean x y

/-- `update_residual` (deconv/hogbom/clean.py:109-113): element `(x, y)` of the slice of `psf` is
`psf[npix - 1 - p + x, npix - 1 - q + y]`. `p` and `q` are positions found by `find_peak`, hence below `npix`, so that no
bound of the slice is negative. -/
def updateResidual (residual : Nat → Nat → K) (intensity gamma : K) (p q npix : Nat) (psf : Nat → Nat → K) :
    Nat → Nat → K :=
  fun x y => residual x y - gamma * intensity * psf (npix - 1 - p + x) (npix - 1 - q + y)

/-- Loop variables of `hogbom_clean` (deconv/hogbom/clean.py:116-232). -/
structure CleanState (K : Type*) where
  clean : Nat → Nat → K
  residuals : Nat → Nat → K
  p : Nat
  q : Nat
  intensity : K
  i : Nat

/-- The body of the `while` loop (deconv/hogbom/clean.py:175-190). -/
def cleanStep (npix : Nat) (psf : Nat → Nat → K) (gamma : K) (s : CleanState K) : Except PyErr (CleanState K) :=
  let clean := buildCleanmap s.clean s.intensity gamma s.p s.q
  let residuals := updateResidual s.residuals s.intensity gamma s.p s.q npix psf
  match findPeak npix npix residuals with
  | .error e => .error e
  | .ok pk => .ok ⟨clean, residuals, pk.maxx, pk.maxy, pk.intensity, s.i + 1⟩

/-- `while np.abs(intensity) > threshold and i <= niter` (deconv/hogbom/clean.py:175-190). The first argument only makes
the recursion structural: it is `niter + 1` at the start and `i` grows by one in every iteration. -/
def cleanLoop (npix : Nat) (psf : Nat → Nat → K) (gamma threshold : K) (niter : Int) :
    Nat → CleanState K → Except PyErr (CleanState K)
  | 0, s => .ok s
  | fuel + 1, s =>
    if |s.intensity| > threshold ∧ (s.i : Int) ≤ niter then
      match cleanStep npix psf gamma s with
      | .error e => .error e
      | .ok s => cleanLoop npix psf gamma threshold niter fuel s
    else .ok s

/-- `hogbom_clean` (deconv/hogbom/clean.py:116-194) for a dirty image of shape `(nx, ny)` and a psf of shape `(px, py)`.
`none` for `threshold` and `niter` is `"default"`. -/
def hogbomClean (nx ny px py : Nat) (dirty psf : Nat → Nat → K) (gamma : K) (threshold : Option K)
    (niter : Option Int) : Except PyErr ((Nat → Nat → K) × (Nat → Nat → K)) :=
  let residuals := dirty
  if px ≠ 2 * nx ∨ py ≠ 2 * ny then .error .valueError
  else
    let clean : Nat → Nat → K := fun _ _ => 0
    if nx ≠ ny then .error .assertionError
    else
      let npix := nx
      let niter : Int := niter.getD (3 * npix)
      match findPeak npix npix residuals with
      | .error e => .error e
      | .ok pk =>
        let threshold := match threshold with
          | none => (1 / 5) * |pk.intensity|
          | some t => t * |pk.intensity|
        match cleanLoop npix psf gamma threshold niter (niter + 1).toNat
            ⟨clean, residuals, pk.maxx, pk.maxy, pk.intensity, 0⟩ with
        | .error e => .error e
        | .ok s => .ok (s.clean, s.residuals)

end Verif.Deconv
