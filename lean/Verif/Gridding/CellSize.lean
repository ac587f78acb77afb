/-
Model of `estimate_cell_size` (africanus/gridding/util.py:6-101). Floating point numbers are real numbers; a division by zero is
infinity (`⊤`) if NumPy does it and an exception if Python does it.
-/
import Verif.Basic
import Mathlib.Data.Real.Basic
import Mathlib.Analysis.Real.Pi.Bounds

set_option autoImplicit false

namespace Verif.CellSize

/-- An argument: an array, a float (of NumPy or of Python), or something else (gridding/util.py:5-100). -/
inductive Arg where
  | array (xs : List ℝ)
  | float (numpy : Bool) (x : ℝ)
  | other

/-- Whether arithmetic with the argument is done by NumPy (gridding/util.py:5-100). -/
def Arg.numpy : Arg → Bool
  | .array _ => true
  | .float b _ => b
  | .other => false

/-- `.max()`; of nothing, an exception (gridding/util.py:5-100). -/
noncomputable def amax : List ℝ → Except PyErr ℝ
  | [] => .error .valueError
  | x :: xs => .ok (xs.foldl max x)

/-- `.min()` (gridding/util.py:5-100). -/
noncomputable def amin : List ℝ → Except PyErr ℝ
  | [] => .error .valueError
  | x :: xs => .ok (xs.foldl min x)

/-- Largest and smallest absolute value of a coordinate (util.py:59-75). -/
noncomputable def extent : Arg → Except PyErr (ℝ × ℝ)
  | .array xs => do
    let hi ← amax (xs.map fun x => |x|)
    let lo ← amin (xs.map fun x => |x|)
    return (hi, lo)
  | .float _ x => .ok (|x|, |x|)
  | .other => .error .typeError

/-- `wave_min` (util.py:77-82). -/
noncomputable def waveMin : Arg → Except PyErr ℝ
  | .array xs => amin xs
  | .float _ x => .ok x
  | .other => .error .typeError

/-- `1.0 / x` (gridding/util.py:5-100). -/
noncomputable def recip (numpy : Bool) (x : ℝ) : Except PyErr (WithTop ℝ) :=
  if x = 0 then (if numpy then .ok ⊤ else .error .zeroDivisionError) else .ok ((1 / x : ℝ) : WithTop ℝ)

/-- `cell * n < bound` (util.py:92, 96); an infinite cell size times `n` is infinite or not a number, and less than nothing. -/
noncomputable def tooSmall (cell : WithTop ℝ) (n : ℝ) (bound : WithTop ℝ) : Prop :=
  match cell with
  | ⊤ => False
  | (c : ℝ) => ((c * n : ℝ) : WithTop ℝ) < bound

open Classical in
/-- The check of one axis (util.py:92-94, 96-98). -/
noncomputable def check (numpy : Bool) (cell : WithTop ℝ) (n : Option ℝ) (lo : ℝ) : Except PyErr Unit :=
  match n with
  | none => .ok ()
  | some n => do
    let bound ← recip numpy lo
    if tooSmall cell n bound then .error .valueError else .ok ()

/-- `rad2deg(cell) * 3600` (util.py:101). -/
noncomputable def arcsec : WithTop ℝ → WithTop ℝ
  | ⊤ => ⊤
  | (c : ℝ) => ((c * (180 / Real.pi) * 3600 : ℝ) : WithTop ℝ)

/-- `estimate_cell_size` (util.py:6-101). A smallest wavelength of zero is an exception here; NumPy would go on with infinities. -/
noncomputable def estimate (u v wavelength : Arg) (factor : ℝ) (ny nx : Option ℝ) : Except PyErr (WithTop ℝ × WithTop ℝ) := do
  let (uhi, ulo) ← extent u
  let (vhi, vlo) ← extent v
  let w ← waveMin wavelength
  if w = 0 then .error .zeroDivisionError else
  let nu := u.numpy || wavelength.numpy
  let nv := v.numpy || wavelength.numpy
  let ucell ← recip nu (2 * factor * (uhi / w))
  let vcell ← recip nv (2 * factor * (vhi / w))
  check nu ucell ny (ulo / w)
  check nv vcell nx (vlo / w)
  return (arcsec ucell, arcsec vcell)

end Verif.CellSize
