/-
Model of africanus/util/testing.py and of the environment of templates in africanus/util/jinja2.py.
-/
import Verif.Util.Requirements

set_option autoImplicit false

namespace Verif.Util.Templates

open Verif.Util.Requirements

/-- The argument of `mark_in_pytest`: a boolean or anything else (util/testing.py:26-32). -/
inductive Mark where
  | bool (b : Bool)
  | other
deriving DecidableEq

/-- `mark_in_pytest` (testing.py:26-32): the marker afterwards, or a `TypeError`. The marker is changed while the lock is held, so
that calls of several threads come one after the other. -/
def mark (_marker : Bool) : Mark → Except PyErr Bool
  | .other => .error .typeError
  | .bool b => .ok b

/-- `in_pytest` (testing.py:20-23) after calls of `mark_in_pytest`, of which some may have raised; at first the marker is false
(testing.py:10). -/
def inPytest (calls : List Mark) : Bool :=
  calls.foldl (fun s c => match mark s c with
    | .ok s' => s'
    | .error _ => s) false

/-- The environment of templates (util/jinja2.py:74-127). -/
inductive Kind where
  | real | fake
deriving DecidableEq

/-- `_jinja2_env_factory` (jinja2.py:104-124): `imp` is what importing a package does and `names` whether jinja2 has the three names
that are imported from it. Making the environment itself is taken to succeed. -/
def factory (imp : String → Import) (names : Bool) : Except Err Kind :=
  match imp "jinja2" with
  | .importError => .ok .fake
  | .raises => .error .fromImport
  | .ok => if names then .ok .real else .ok .fake

/-- Importing the module (jinja2.py:74-101, 127): the six methods of `FakeEnvironment` are decorated when the class is made. -/
def load (onRtd : Bool) (imp : String → Import) (names : Bool) : Except Err (Kind × Decorated) := do
  let d ← requiresOptional onRtd imp [.pkg "jinja2"]
  let k ← factory imp names
  return (k, d)

/-- Uses of the environment: reading, writing and deleting items and attributes; `getattr` is for attributes that are not found on
the object itself (util/jinja2.py:74-127). -/
inductive Use where
  | getitem | setitem | delitem | getattr | setattr | delattr
deriving DecidableEq

/-- What a use does (util/jinja2.py:74-127). -/
inductive Used where
  /-- the environment of jinja2 is used -/
  | real
  /-- nothing happens -/
  | nothing
  | notImplemented
  | raises (e : Err)
deriving DecidableEq

/-- A use of the environment (jinja2.py:79-101): all methods of the fake one are alike. -/
def use (calls : List Mark) (pytestOk : Bool) : Kind × Decorated → Use → Used
  | (.real, _), _ => .real
  | (.fake, d), _ => match call (inPytest calls) pytestOk d with
    | .original => .notImplemented
    | .nothing => .nothing
    | .raises e => .raises e

end Verif.Util.Templates
