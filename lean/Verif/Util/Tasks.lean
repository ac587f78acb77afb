/-
Model of `key_bin` and of the sums of `TaskData` of africanus/util/dask_util.py.
-/
import Verif.Util.Progress

set_option autoImplicit false

namespace Verif.Util.Progress

/-- Keys of Dask graphs, as far as `key_bin` tells them apart (util/dask_util.py:41-51). -/
inductive Key where
  | str (s : String)
  | bytes (b : List UInt8)
  | tuple (l : List Key)
  /-- any other object, by a number -/
  | object (n : Nat)

/-- Exceptions of `key_bin` (util/dask_util.py:41-51). -/
inductive KeyErr where
  | indexError | unicodeDecodeError
deriving DecidableEq, Repr

/-- `key_bin` (dask_util.py:41-51): `decode` is `bytes.decode`, `str` is Python's `str`; both give none if they raise. -/
def keyBin (decode : List UInt8 → Option String) (str : Key → Option String) (key : Key) : Except KeyErr String := do
  let key ← match key with
    | .tuple [] => Except.error .indexError
    | .tuple (k :: _) => .ok k
    | k => .ok k
  let key ← match key with
    | .bytes b => match decode b with
      | none => Except.error .unicodeDecodeError
      | some s => .ok (.str s)
    | k => .ok k
  match str key with
  | some s => .ok s
  | none => .ok "other"

/-- `TaskData.__add__` (dask_util.py:68-71). -/
def TaskData.add (a b : TaskData) : TaskData := ⟨a.completed + b.completed, a.total + b.total, a.timeSum + b.timeSum⟩

/-- `a += b` for two objects (dask_util.py:62-66), one statement after the other; the objects may be the same. -/
def iadd {I : Type} [DecidableEq I] (a b : I) (heap : I → TaskData) : I → TaskData :=
  let heap := Function.update heap a { heap a with completed := (heap a).completed + (heap b).completed }
  let heap := Function.update heap a { heap a with total := (heap a).total + (heap b).total }
  Function.update heap a { heap a with timeSum := (heap a).timeSum + (heap b).timeSum }

end Verif.Util.Progress
