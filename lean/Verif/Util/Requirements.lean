/-
Model of africanus/util/requirements.py.
-/
import Verif.Basic

set_option autoImplicit false

namespace Verif.Util.Requirements

/-- A requirement handed to the decorator, by the branch it takes (requirements.py:90-111). -/
inductive Req
  | none
  | importErr (msg : String)
  | pkg (name : String)
  | force
  | other
deriving DecidableEq

/-- What importing a package does (requirements.py:98-103); exceptions that are not `ImportError` are not caught. -/
inductive Import
  | ok
  | importError
  | raises
deriving DecidableEq

/-- Exceptions that can come out (util/requirements.py:70-147). -/
inductive Err
  | typeError
  | importError
  | fromImport
  /-- `MissingPackageException` naming packages and the given import errors -/
  | missing (pkgs : List String) (errs : List String)
  /-- `pytest.skip` naming packages and the given import errors -/
  | skipped (pkgs : List String) (errs : List String)
deriving DecidableEq

/-- The variables of the loop (requirements.py:81-85); `have_requirements` is false iff something is missing. -/
structure Acc where
  haveReqs : Bool
  missing : List String
  honour : Bool
  imports : List String
  errors : List String
deriving DecidableEq

/-- The loop over the requirements (requirements.py:87-111). -/
def scan (imp : String → Import) : List Req → Acc → Except Err Acc
  | [], s => .ok s
  | .none :: l, s => scan imp l s
  | .importErr m :: l, s => scan imp l { s with errors := s.errors ++ [m] }
  | .pkg n :: l, s => match imp n with
    | .importError => scan imp l { s with missing := s.missing ++ [n], haveReqs := false }
    | .raises => .error .fromImport
    | .ok => scan imp l { s with imports := s.imports ++ [n] }
  | .force :: l, s => scan imp l { s with honour := false }
  | .other :: _, _ => .error .typeError

/-- What the decorator makes of a function (requirements.py:71-79, 122-149): the function itself, a function that does
nothing, or a function that reports the missing packages. -/
inductive Decorated
  | original
  | nothing
  | failing (honour : Bool) (missing : List String) (errors : List String)
deriving DecidableEq

/-- `requires_optional(*requirements)(fn)` (requirements.py:27-151). -/
def requiresOptional (onRtd : Bool) (imp : String → Import) (reqs : List Req) : Except Err Decorated :=
  if onRtd then .ok .nothing
  else match scan imp reqs ⟨true, [], true, [], []⟩ with
    | .error e => .error e
    | .ok s =>
      if s.haveReqs = true ∧ s.errors.length > 0 then .error .importError
      else if s.haveReqs then .ok .original
      else .ok (.failing s.honour s.missing s.errors)

/-- What calling the decorated function does (util/requirements.py:70-147). -/
inductive Outcome
  /-- the original function is called -/
  | original
  /-- nothing is done and None returned -/
  | nothing
  | raises (e : Err)
deriving DecidableEq

/-- A call of the decorated function (requirements.py:74-75, 125, 128-147), with the marker of testing.py and whether pytest
can be imported. -/
def call (inPytest pytestOk : Bool) : Decorated → Outcome
  | .original => .original
  | .nothing => .nothing
  | .failing honour missing errors =>
    if honour && inPytest then
      if pytestOk then .raises (.skipped missing errors) else .raises .importError
    else .raises (.missing missing errors)

end Verif.Util.Requirements
