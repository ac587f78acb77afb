/-
Model of africanus/coordinates/dask.py, on top of the model of africanus/coordinates/coordinates.py.
-/
import Verif.Dask.Blockwise
import Verif.Coordinates.Model

set_option autoImplicit false

namespace Verif.Dask

open Verif.Coordinates

/-- `a, b = row` and `a, b, c = row` of an array of rows (reads past the row are excluded by the callers)
(coordinates/coordinates.py:50, 89, 154). -/
def NArr.pair (a : NArr ℝ) (s : Nat) : ℝ × ℝ := (a.val [s, 0], a.val [s, 1])
/-- `NArr.triple` (coordinates/coordinates.py:124). -/
def NArr.triple (a : NArr ℝ) (s : Nat) : ℝ × ℝ × ℝ := (a.val [s, 0], a.val [s, 1], a.val [s, 2])

/-- `pc_ra, pc_dec = phase_centre` (coordinates/coordinates.py:45, 84, 119, 149): unpacking checks the length. -/
def centreOf : Option (NArr ℝ) → Except PyErr (Option (ℝ × ℝ))
  | none => .ok none
  | some a => if a.shape = [2] then .ok (some (a.val [0], a.val [1])) else .error .valueError

/-- `radec_to_lmn` on arrays (coordinates/coordinates.py:28-64). -/
noncomputable def npRadecToLmn (radec : NArr ℝ) (pc : Option (NArr ℝ)) : Except PyErr (NArr Num) :=
  match radec.shape with
  | [n, c] =>
    if c ≠ 2 then .error .valueError
    else match centreOf pc with
      | .error e => .error e
      | .ok pc => match radecToLmn c radec.pair pc with
        | .error e => .error e
        | .ok f => .ok ⟨[n, 3], fun i => match i with
          | [s, 0] => .val (f s).1
          | [s, 1] => .val (f s).2.1
          | [s, _] => (f s).2.2
          | _ => .nan⟩
  | _ => .error .typeError

/-- `radec_to_lm` on arrays (coordinates/coordinates.py:67-101). -/
noncomputable def npRadecToLm (radec : NArr ℝ) (pc : Option (NArr ℝ)) : Except PyErr (NArr Num) :=
  match radec.shape with
  | [n, c] =>
    if c ≠ 2 then .error .valueError
    else match centreOf pc with
      | .error e => .error e
      | .ok pc => match radecToLm c radec.pair pc with
        | .error e => .error e
        | .ok f => .ok ⟨[n, 2], fun i => match i with
          | [s, 0] => .val (f s).1
          | [s, _] => .val (f s).2
          | _ => .nan⟩
  | _ => .error .typeError

/-- `lmn_to_radec` on arrays (coordinates/coordinates.py:104-131). -/
noncomputable def npLmnToRadec (lmn : NArr ℝ) (pc : Option (NArr ℝ)) : Except PyErr (NArr Num) :=
  match lmn.shape with
  | [n, c] =>
    if c ≠ 3 then .error .valueError
    else match centreOf pc with
      | .error e => .error e
      | .ok pc => match lmnToRadec n c lmn.triple pc with
        | .error e => .error e
        | .ok f => .ok ⟨[n, 2], fun i => match i with
          | [s, 0] => .val (f s).1
          | [s, _] => (f s).2
          | _ => .nan⟩
  | _ => .error .valueError

/-- `lm_to_radec` on arrays (coordinates/coordinates.py:134-162). -/
noncomputable def npLmToRadec (lm : NArr ℝ) (pc : Option (NArr ℝ)) : Except PyErr (NArr Num) :=
  match lm.shape with
  | [n, c] =>
    if c ≠ 2 then .error .valueError
    else match centreOf pc with
      | .error e => .error e
      | .ok pc => match lmToRadec n c lm.pair pc with
        | .error e => .error e
        | .ok f => .ok ⟨[n, 2], fun i => match i with
          | [s, 0] => .val (f s).1
          | [s, _] => (f s).2
          | _ => .nan⟩
  | _ => .error .valueError

/-- A label of coordinates/dask.py:21-78. -/
def lSource : Label := .name "source"
/-- A label of coordinates/dask.py:21-78. -/
def lRadec : Label := .name "radec"
/-- A label of coordinates/dask.py:21-78. -/
def lLmn : Label := .name "lmn"
/-- A label of coordinates/dask.py:21-78. -/
def lLm : Label := .name "lm"

/-- `phase_centre[0] if phase_centre else None` (coordinates/dask.py:22, 52): the list has a block for each chunk. -/
def firstOf {α : Type*} : Option (Nest α) → Except PyErr (Option (NArr α))
  | none => .ok none
  | some (.node []) => .ok none
  | some x => some <$> x.firsts 1

/-- An optional array argument, used as it is (coordinates/dask.py:37, 67). -/
def arrayOf {α : Type*} : Option (Nest α) → Except PyErr (Option (NArr α))
  | none => .ok none
  | some x => some <$> x.firsts 0

/-- `radec_to_lmn` (coordinates/dask.py:21-33). -/
noncomputable def daskRadecToLmn (radec : DArr ℝ) (pc : Option (DArr ℝ)) : Except PyErr (Lazy Num) :=
  blockwise [lSource, lLmn] [(lLmn, 3)] (radec.arg [lSource, lRadec] :: pc.toList.map fun p => p.arg [lRadec]) fun env out => do
    npRadecToLmn (← (fetch env radec [lSource, lRadec] out).firsts 1) (← firstOf (pc.map fun p => fetch env p [lRadec] out))

/-- `radec_to_lm` (coordinates/dask.py:51-63). -/
noncomputable def daskRadecToLm (radec : DArr ℝ) (pc : Option (DArr ℝ)) : Except PyErr (Lazy Num) :=
  blockwise [lSource, lLm] [(lLm, 2)] (radec.arg [lSource, lRadec] :: pc.toList.map fun p => p.arg [lRadec]) fun env out => do
    npRadecToLm (← (fetch env radec [lSource, lRadec] out).firsts 1) (← firstOf (pc.map fun p => fetch env p [lRadec] out))

/-- `lmn_to_radec` (coordinates/dask.py:36-48): "radec" is a label of the output, so the phase centre is not contracted. -/
noncomputable def daskLmnToRadec (lmn : DArr ℝ) (pc : Option (DArr ℝ)) : Except PyErr (Lazy Num) :=
  blockwise [lSource, lRadec] [(lRadec, 2)] (lmn.arg [lSource, lLmn] :: pc.toList.map fun p => p.arg [lRadec]) fun env out => do
    npLmnToRadec (← (fetch env lmn [lSource, lLmn] out).firsts 1) (← arrayOf (pc.map fun p => fetch env p [lRadec] out))

/-- `lm_to_radec` (coordinates/dask.py:66-78). -/
noncomputable def daskLmToRadec (lm : DArr ℝ) (pc : Option (DArr ℝ)) : Except PyErr (Lazy Num) :=
  blockwise [lSource, lRadec] [(lRadec, 2)] (lm.arg [lSource, lLm] :: pc.toList.map fun p => p.arg [lRadec]) fun env out => do
    npLmToRadec (← (fetch env lm [lSource, lLm] out).firsts 1) (← arrayOf (pc.map fun p => fetch env p [lRadec] out))

end Verif.Dask
