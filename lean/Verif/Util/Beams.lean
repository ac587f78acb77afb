/-
Model of africanus/util/beams.py.

Text is a list of ASCII characters. A FITS header is given by the value stored under each key the code reads; a missing key
is `none`. Numbers are real.
-/
import Verif.Util.Shapes
import Mathlib.Analysis.SpecialFunctions.Trigonometric.Basic

set_option autoImplicit false

namespace Verif.Util.Beams

open Verif.Util

/-- White space, as removed by `str.strip` (beams.py:25, 30). -/
def isWs (c : Char) : Bool :=
  c == ' ' || (9 ≤ c.toNat && c.toNat ≤ 13) || (28 ≤ c.toNat && c.toNat ≤ 31)

/-- `str.strip` (beams.py:25, 30). -/
def strip (s : List Char) : List Char := ((s.dropWhile isWs).reverse.dropWhile isWs).reverse

/-- `str.upper` (beams.py:30, 177, 179, 234). -/
def upper (s : List Char) : List Char := s.map Char.toUpper

/-- `str.lower` (beams.py:233, 302). -/
def lower (s : List Char) : List Char := s.map Char.toLower

/-- The keys of one axis read by `FitsAxes` (beams.py:24-31): `NAXISn`, `CTYPEn`, `CRVALn`, `CRPIXn`, `CDELTn`, `CUNITn`. -/
structure AxisKeys where
  naxis : Option Nat
  ctype : Option (List Char)
  crval : Option ℝ
  crpix : Option ℝ
  cdelt : Option ℝ
  cunit : Option (List Char)

/-- A header: `NAXIS`, the keys of axis `n` (counted from one) and the keys `G<ctype><j>` of irregular grids. No header
(`header=None`) has no axes, as `NAXIS = 0` (util/beams.py:18-98). -/
structure Header where
  naxis : Option Nat
  axis : Nat → AxisKeys
  irregular : List Char → Nat → Option ℝ

/-- What `FitsAxes.__init__` and `BeamAxes.__init__` store about one axis (util/beams.py:18-98). -/
structure Axis where
  naxis : Nat
  ctype : List Char
  grid : Nat → ℝ

/-- `np.deg2rad` (beams.py:93-94). -/
noncomputable def deg2rad (x : ℝ) : ℝ := x * (Real.pi / 180)

/-- An irregular grid is used if all of its points are present (beams.py:73-80). -/
def isIrregular (h : Header) (ctype : List Char) (naxis : Nat) : Bool :=
  (List.range naxis).all fun j => (h.irregular ctype (j + 1)).isSome

/-- The grid of an axis (beams.py:82-98): point `j` is `(j - crpix) * cdelt + crval`, where `crpix` was decremented when it
was read (line 28) and `cdelt` and `crval` are converted if the unit is `DEG`. An irregular grid is used as it is. -/
noncomputable def axisGrid (h : Header) (k : AxisKeys) (ctype : List Char) (naxis : Nat) (crpix : ℝ) : Nat → ℝ :=
  let crval := k.crval.getD 0
  let cdelt := k.cdelt.getD 1
  let cunit := upper (strip (k.cunit.getD []))
  let crval := if cunit = "DEG".toList then deg2rad crval else crval
  let cdelt := if cunit = "DEG".toList then deg2rad cdelt else cdelt
  if isIrregular h ctype naxis then fun j => (h.irregular ctype (j + 1)).getD 0
  else fun j => ((j : ℝ) - crpix) * cdelt + crval

/-- The axes of `FitsAxes` and `BeamAxes` (beams.py:18-98) for the first `n` axes. The attribute lists are built one
attribute at a time, so the errors come in this order: an axis without `CTYPE` (its default, an integer, has no `strip`),
one without `CRPIX`, one without `NAXISn` (`None + 1`). -/
noncomputable def beamAxes (h : Header) : Except PyErr (List Axis) :=
  match h.naxis with
  | none => .error .keyError
  | some n =>
    let keys := (List.range n).map fun i => h.axis (i + 1)
    if keys.any fun k => k.ctype.isNone then .error .attributeError
    else if keys.any fun k => k.crpix.isNone then .error .keyError
    else if keys.any fun k => k.naxis.isNone then .error .typeError
    else .ok (keys.map fun k =>
      let ctype := strip (k.ctype.getD [])
      ⟨k.naxis.getD 0, ctype, axisGrid h k ctype (k.naxis.getD 0) (k.crpix.getD 0 - 1)⟩)

/-- The sign `axis_and_sign` returns with a default axis (beams.py:34-45): no text or empty text is the default. -/
def axisSign (ax : Option (List Char)) : ℝ :=
  match ax with
  | none => 1
  | some [] => 1
  | some (c :: _) => if c = '-' then -1 else 1

/-- The search for the axes (beams.py:173-182): positions counted from zero; a later axis replaces an earlier one. -/
def findAxes (axes : List Axis) : Option Nat × Option Nat × Option Nat :=
  forRange axes.length (none, none, none) fun i s =>
    let ctype := (axes.map Axis.ctype).getD i []
    if upper ctype ∈ ["L".toList, "X".toList, "PX".toList] then (some i, s.2.1, s.2.2)
    else if upper ctype ∈ ["M".toList, "Y".toList, "PY".toList] then (s.1, some i, s.2.2)
    else if ctype = "FREQ".toList then (s.1, s.2.1, some i)
    else s

/-- `beam_grids` (beams.py:133-203). A grid is its number of points and its values. -/
noncomputable def beamGrids (h : Header) (lAxis mAxis : Option (List Char)) :
    Except PyErr ((Nat × Nat × (Nat → ℝ)) × (Nat × Nat × (Nat → ℝ)) × (Nat × Nat × (Nat → ℝ))) :=
  match beamAxes h with
  | .error e => .error e
  | .ok axes =>
    let get (i : Nat) : Nat × (Nat → ℝ) := ((axes.map Axis.naxis).getD i 0, (axes.map Axis.grid).getD i fun _ => 0)
    match findAxes axes with
    | (none, _, _) => .error .valueError
    | (some _, none, _) => .error .valueError
    | (some _, some _, none) => .error .valueError
    | (some l, some m, some f) =>
      .ok ((l + 1, (get l).1, fun j => (get l).2 j * axisSign lAxis), (m + 1, (get m).1, fun j => (get m).2 j * axisSign mAxis),
        (f + 1, get f))

/-! ### file names -/

/-- First character of an identifier; the pattern ignores case (beams.py:219-220, `string.Template`). -/
def idStart (c : Char) : Bool := c == '_' || c.isAlpha

/-- Further characters of an identifier (beams.py:219-220, `string.Template`). -/
def idChar (c : Char) : Bool := idStart c || c.isDigit

/-- `template.substitute` with the pattern of `FitsFilenameTemplate` (beams.py:206-220): after the delimiter come another
delimiter, an identifier, or an identifier in parentheses; anything else is invalid (`ValueError`). Unknown identifiers raise
`KeyError`. -/
def substitute (env : List Char → Option (List Char)) : Nat → List Char → Except PyErr (List Char)
  | 0, _ => .ok []
  | _ + 1, [] => .ok []
  | n + 1, c :: t =>
    if c ≠ '$' then (substitute env n t).map (c :: ·)
    else match t with
      | [] => .error .valueError
      | d :: t' =>
        if d = '$' then (substitute env n t').map ('$' :: ·)
        else if idStart d then
          match env (t.takeWhile idChar) with
          | none => .error .keyError
          | some v => (substitute env n (t.dropWhile idChar)).map (v ++ ·)
        else if d = '(' then
          if (t'.head?.any idStart) then
            match t'.dropWhile idChar with
            | [] => .error .valueError
            | e :: t'' =>
              if e = ')' then
                match env (t'.takeWhile idChar) with
                | none => .error .keyError
                | some v => (substitute env n t'').map (v ++ ·)
              else .error .valueError
          else .error .valueError
        else .error .valueError

/-- The four variables (beams.py:233-236). -/
def fileEnv (corr reim : List Char) (name : List Char) : Option (List Char) :=
  if name = "corr".toList then some (lower corr)
  else if name = "CORR".toList then some (upper corr)
  else if name = "reim".toList then some (lower reim)
  else if name = "REIM".toList then some (upper reim)
  else none

/-- `_re_im_filenames` (beams.py:228-247): an unknown variable is reported as `ValueError`. -/
def reImFilenames (corr schema : List Char) : Except PyErr (List (List Char)) :=
  match substitute (fileEnv corr "re".toList) (schema.length + 1) schema with
  | .error _ => .error .valueError
  | .ok re => match substitute (fileEnv corr "im".toList) (schema.length + 1) schema with
    | .error _ => .error .valueError
    | .ok im => .ok [re, im]

/-- The names of the correlations (beams.py:294-302). -/
def corrNames : List Int → Except PyErr (List (List Char))
  | [] => .ok []
  | t :: rest =>
    match (if t < 0 then none else stokesIdMap.lookup t.toNat) with
    | none => .error .valueError
    | some s => match corrNames rest with
      | .error e => .error e
      | .ok l => .ok (lower s.toList :: l)

/-- The pairs of the generator (beams.py:304-305). -/
def filePairs (schema : List Char) : List (List Char) → Except PyErr (List (List Char × List (List Char)))
  | [] => .ok []
  | c :: rest => match reImFilenames c schema with
    | .error e => .error e
    | .ok f => match filePairs schema rest with
      | .error e => .error e
      | .ok l => .ok ((c, f) :: l)

/-- `beam_filenames` (beams.py:250-305). -/
def beamFilenames (schema : List Char) (corrTypes : List Int) : Except PyErr (List (List Char × List (List Char))) :=
  match corrNames corrTypes with
  | .error e => .error e
  | .ok names => match filePairs schema names with
    | .error e => .error e
    | .ok pairs => .ok (dictOf pairs)

end Verif.Util.Beams
