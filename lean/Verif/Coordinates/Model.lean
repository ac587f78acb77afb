/-
Model of africanus/coordinates/coordinates.py, in exact real arithmetic.

The square root of a negative number is a `domain` failure (the code computes nan), the arcsine outside [-1, 1] likewise;
division by zero raises `ZeroDivisionError`, as numba's default error model does. Functions of an array of coordinates
apply to each source independently; arrays are functions of source and component.
-/
import Verif.Basic
import Mathlib.Analysis.SpecialFunctions.Trigonometric.Arctan
import Mathlib.Analysis.SpecialFunctions.Trigonometric.Inverse
import Mathlib.Analysis.SpecialFunctions.Sqrt

set_option autoImplicit false

namespace Verif.Coordinates

/-- Outcome for one source: coordinates or nan (coordinates/coordinates.py:28-162). -/
inductive Num
  | val (x : ℝ)
  | nan

/-- `np.sqrt` (coordinates/coordinates.py:28-162). -/
noncomputable def npSqrt (x : ℝ) : Num := if x < 0 then .nan else .val (Real.sqrt x)

/-- `np.arcsin` (coordinates/coordinates.py:28-162). -/
noncomputable def npArcsin (x : ℝ) : Num := if x < -1 ∨ 1 < x then .nan else .val (Real.arcsin x)

/-- `_create_phase_centre` and `_return_phase_centre` (coordinates/coordinates.py:23-25). -/
def centre (pc : Option (ℝ × ℝ)) : ℝ × ℝ := pc.getD (0, 0)

/-- `l` and `m` of one source (coordinates/coordinates.py:48-58, 87-97). -/
noncomputable def lmOf (pc : ℝ × ℝ) (ra dec : ℝ) : ℝ × ℝ :=
  let raDelta := ra - pc.1
  (Real.cos dec * Real.sin raDelta,
    Real.sin dec * Real.cos pc.2 - Real.cos dec * Real.sin pc.2 * Real.cos raDelta)

/-- `radec_to_lmn` (coordinates/coordinates.py:28-64): `components` is the extent of the second axis. -/
noncomputable def radecToLmn (components : Nat) (radec : Nat → ℝ × ℝ) (pc : Option (ℝ × ℝ)) :
    Except PyErr (Nat → ℝ × ℝ × Num) :=
  if components ≠ 2 then .error .valueError
  else .ok fun s =>
    let lm := lmOf (centre pc) (radec s).1 (radec s).2
    (lm.1, lm.2, npSqrt (1 - lm.1 ^ 2 - lm.2 ^ 2))

/-- `radec_to_lm` (coordinates/coordinates.py:67-101). -/
noncomputable def radecToLm (components : Nat) (radec : Nat → ℝ × ℝ) (pc : Option (ℝ × ℝ)) :
    Except PyErr (Nat → ℝ × ℝ) :=
  if components ≠ 2 then .error .valueError
  else .ok fun s => lmOf (centre pc) (radec s).1 (radec s).2

/-- One source of `lmn_to_radec` and `lm_to_radec` (coordinates/coordinates.py:124-127, 154-158): right ascension and
declination. -/
noncomputable def radecOf (pc : ℝ × ℝ) (l m n : ℝ) : Except PyErr (ℝ × Num) :=
  let dec := npArcsin (m * Real.cos pc.2 + n * Real.sin pc.2)
  let den := n * Real.cos pc.2 - m * Real.sin pc.2
  if den = 0 then .error .zeroDivisionError
  else .ok (pc.1 + Real.arctan (l / den), dec)

/-- `lmn_to_radec` (coordinates/coordinates.py:104-131). -/
noncomputable def lmnToRadec (sources components : Nat) (lmn : Nat → ℝ × ℝ × ℝ) (pc : Option (ℝ × ℝ)) :
    Except PyErr (Nat → ℝ × Num) :=
  if components ≠ 3 then .error .valueError
  else forRangeM sources (fun _ => (0, .nan)) fun s out =>
    match radecOf (centre pc) (lmn s).1 (lmn s).2.1 (lmn s).2.2 with
    | .error e => .error e
    | .ok v => .ok (Function.update out s v)

/-- `lm_to_radec` (coordinates/coordinates.py:134-162): a nan for `n` makes both coordinates nan, which is recorded in the
declination only. -/
noncomputable def lmToRadec (sources components : Nat) (lm : Nat → ℝ × ℝ) (pc : Option (ℝ × ℝ)) :
    Except PyErr (Nat → ℝ × Num) :=
  if components ≠ 2 then .error .valueError
  else forRangeM sources (fun _ => (0, .nan)) fun s out =>
    match npSqrt (1 - (lm s).1 ^ 2 - (lm s).2 ^ 2) with
    | .nan => .ok (Function.update out s (0, .nan))
    | .val n =>
      match radecOf (centre pc) (lm s).1 (lm s).2 n with
      | .error e => .error e
      | .ok v => .ok (Function.update out s v)

end Verif.Coordinates
