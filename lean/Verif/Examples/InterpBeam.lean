/-
Model of `interpolate_beam` of africanus/model/spi/examples/simple_spi_fitter.py. Floating point numbers are real
numbers. The files found by `glob` are a list; their order is that of the file system. The four images are taken to
have the shape of the header of the first one. The warning about bandwidths is left out, as is the final `squeeze`.
-/
import Verif.Basic
import Verif.Rime.ModelBeam

set_option autoImplicit false

namespace Verif.Examples

open Verif.Rime

/-- The header entries read by `interpolate_beam` (simple_spi_fitter.py:160-191). -/
structure CubeHeader where
  cunit1 : String
  cunit2 : String
  ctype3 : String
  naxis1 : Nat
  naxis2 : Nat
  naxis3 : Nat
  crpix1 : ℝ
  crpix2 : ℝ
  crpix3 : ℝ
  cdelt1 : ℝ
  cdelt2 : ℝ
  cdelt3 : ℝ
  crval3 : ℝ

/-- A file found by `glob(args.beammodel + '_**_**.fits')` (simple_spi_fitter.py:135): its path, header and data, the
data indexed as in Python by frequency, second and first FITS axis. -/
structure CubeFile where
  path : String
  hdr : CubeHeader
  data : Nat → Nat → Nat → ℝ

/-- `s in path` of Python (model/spi/examples/simple_spi_fitter.py:138-150). -/
def inPath (s path : String) : Bool := decide (s.toList <:+: path.toList)

/-- The variables set by the loop over the files (simple_spi_fitter.py:136-153). -/
structure Scanned where
  hdr : Option CubeHeader := none
  re1 : Option (Nat → Nat → Nat → ℝ) := none
  im1 : Option (Nat → Nat → Nat → ℝ) := none
  re2 : Option (Nat → Nat → Nat → ℝ) := none
  im2 : Option (Nat → Nat → Nat → ℝ) := none

/-- The body of the loop over the files (simple_spi_fitter.py:138-153). -/
def scanFile (s : Scanned) (f : CubeFile) : Except PyErr Scanned :=
  if inPath "xx" f.path || inPath "XX" f.path || inPath "rr" f.path || inPath "RR" f.path then
    if inPath "re" f.path then
      .ok { s with re1 := some f.data, hdr := s.hdr.or (some f.hdr) }
    else if inPath "im" f.path then .ok { s with im1 := some f.data }
    else .error .notImplementedError
  else if inPath "yy" f.path || inPath "YY" f.path || inPath "ll" f.path || inPath "LL" f.path then
    if inPath "re" f.path then .ok { s with re2 := some f.data }
    else if inPath "im" f.path then .ok { s with im2 := some f.data }
    else .error .notImplementedError
  else .ok s

/-- The loop over the files and the amplitude (simple_spi_fitter.py:136-155), with the header; a variable that was never
set stops the program. -/
noncomputable def beamPower (files : List CubeFile) : Except PyErr (CubeHeader × (Nat → Nat → Nat → ℝ)) := do
  let s ← files.foldlM scanFile {}
  match s.re1, s.im1, s.re2, s.im2, s.hdr with
  | some r1, some i1, some r2, some i2, some h =>
    .ok (h, fun k y x => (r1 k y x ^ 2 + i1 k y x ^ 2 + r2 k y x ^ 2 + i2 k y x ^ 2) / 2)
  | _, _, _, _, _ => .error .unboundLocalError

/-- The extents of an axis (simple_spi_fitter.py:165-166, 173-174). -/
noncomputable def cubeExtents (n : Nat) (ref delta : ℝ) : ℝ × ℝ := ((1 - ref) * delta, (1 + n - ref) * delta)

/-- The frequencies of the cube (simple_spi_fitter.py:190). -/
noncomputable def cubeFreqs (h : CubeHeader) : Int → ℝ := fun k => h.crval3 + (1 - h.crpix3 + k) * h.cdelt3

/-- `interpolate_beam` (simple_spi_fitter.py:116-202) for a beam other than `eidos`: the value for each component and
band, the components given by their coordinates. The smallest coordinate of an empty list is a `ValueError`. The
check of the frequency axis comes after that of the extents. Comparing the extents with the smallest and largest
coordinate compares them with every coordinate. The cube is transposed to second axis, first axis, frequency. -/
noncomputable def interpolateBeam (name : String) (files : List CubeFile) (coords : List (ℝ × ℝ)) (freqs : List ℝ) :
    Except PyErr (List (List ℂ)) :=
  open Classical in
  if name = "eidos" then .error .notImplementedError else do
  let (h, power) ← beamPower files
  if h.cunit1 ≠ "DEG" ∧ h.cunit1 ≠ "deg" then throw .valueError
  let le := cubeExtents h.naxis1 h.crpix1 h.cdelt1
  if h.cunit2 ≠ "DEG" ∧ h.cunit2 ≠ "deg" then throw .valueError
  let me := cubeExtents h.naxis2 h.crpix2 h.cdelt2
  if coords = [] then throw .valueError
  if ∃ c ∈ coords, le.1 > c.1 ∨ me.1 > c.2 ∨ le.2 < c.1 ∨ me.2 < c.2 then throw .valueError
  if h.ctype3 ≠ "FREQ" then throw .valueError
  coords.mapM fun c => freqs.mapM fun f =>
    beamCubeDde h.naxis2 h.naxis1 h.naxis3 (fun i j k => ((power k.toNat i.toNat j.toNat : ℝ) : ℂ)) (le, me)
      (cubeFreqs h) c.1 c.2 0 0 0 1 1 f

end Verif.Examples
