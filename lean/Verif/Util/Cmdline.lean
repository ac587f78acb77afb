/-
Model of africanus/util/cmdline.py.

`ast.parse` is a parameter giving the statements of a string. Expressions are the two cases the code tells apart: calls, and
everything else, which goes to `ast.literal_eval`; that and calling a builtin are parameters. The calls made are recorded.
-/
import Verif.Util.Shapes

set_option autoImplicit false

namespace Verif.Util.Cmdline

open Verif.Util

/-- An expression (cmdline.py:47-74). The function of a call is a name or something else, which has no `id`. -/
inductive Expr (E : Type)
  | lit (e : E)
  | call (func : Option String) (args : List (Expr E)) (kws : List (Option String × Expr E))

/-- An assignment target (cmdline.py:91-124); the elements of a tuple or list are names or something else. -/
inductive Target
  | name (x : String)
  | seq (elts : List (Option String))
  | other

/-- A statement (cmdline.py:82-88). -/
inductive Stmt (E : Type)
  | assign (targets : List Target) (value : Expr E)
  | other

/-- The Python functions used: `ast.literal_eval`, calling a builtin by name, and the elements of a value that is a tuple or
list (cmdline.py:71, 74, 107). -/
structure Env (E V : Type) where
  literalEval : E → Except PyErr V
  builtin : String → List V → List (Option String × V) → Except PyErr V
  elements : V → Option (List V)

variable {E V : Type}

/-- `_BUILTIN_WHITELIST` (cmdline.py:9). -/
def whitelist : List String := ["slice"]

/-- Names of the builtins called so far, with a result (util/cmdline.py:15-126). -/
abbrev Logged (α : Type) := List String × Except PyErr α

mutual
/-- `_eval_value` (cmdline.py:47-74). -/
def evalValue (env : Env E V) : Expr E → Logged V
  | .lit e => ([], env.literalEval e)
  | .call none _ _ => ([], .error .attributeError)
  | .call (some f) args kws =>
    if f ∉ whitelist then ([], .error .valueError)
    else match evalArgs env args with
      | (l1, .error e) => (l1, .error e)
      | (l1, .ok vs) => match evalKws env kws with
        | (l2, .error e) => (l1 ++ l2, .error e)
        | (l2, .ok ks) => (l1 ++ l2 ++ [f], env.builtin f vs (dictOf ks))
/-- The arguments (cmdline.py:60). -/
def evalArgs (env : Env E V) : List (Expr E) → Logged (List V)
  | [] => ([], .ok [])
  | e :: rest => match evalValue env e with
    | (l1, .error x) => (l1, .error x)
    | (l1, .ok v) => match evalArgs env rest with
      | (l2, .error x) => (l1 ++ l2, .error x)
      | (l2, .ok vs) => (l1 ++ l2, .ok (v :: vs))
/-- The keyword arguments (cmdline.py:66-67). -/
def evalKws (env : Env E V) : List (Option String × Expr E) → Logged (List (Option String × V))
  | [] => ([], .ok [])
  | (k, e) :: rest => match evalValue env e with
    | (l1, .error x) => (l1, .error x)
    | (l1, .ok v) => match evalKws env rest with
      | (l2, .error x) => (l1 ++ l2, .error x)
      | (l2, .ok vs) => (l1 ++ l2, .ok ((k, v) :: vs))
end

/-- Binding one target (cmdline.py:92-124). -/
def bindTarget (env : Env E V) (vars : List (String × V)) (values : V) : Target → Except PyErr (List (String × V))
  | .name x => .ok (dictSet vars x values)
  | .seq elts =>
    if elts.any Option.isNone then .error .valueError
    else
      let elements := match env.elements values with
        | none => [values]
        | some l => l
      if elts.length ≠ elements.length then .error .valueError
      else .ok (((elts.map fun e => e.getD "").zip elements).foldl (fun d p => dictSet d p.1 p.2) vars)
  | .other => .error .typeError

/-- The targets of a statement (cmdline.py:91). -/
def bindTargets (env : Env E V) (values : V) : List Target → List (String × V) → Except PyErr (List (String × V))
  | [], vars => .ok vars
  | t :: rest, vars => match bindTarget env vars values t with
    | .error e => .error e
    | .ok vars' => bindTargets env values rest vars'

/-- The statements (cmdline.py:82-126). -/
def run (env : Env E V) : List (Stmt E) → List (String × V) → Logged (List (String × V))
  | [], vars => ([], .ok vars)
  | .other :: _, _ => ([], .error .valueError)
  | .assign targets value :: rest, vars => match evalValue env value with
    | (l, .error e) => (l, .error e)
    | (l, .ok v) => match bindTargets env v targets vars with
      | .error e => (l, .error e)
      | .ok vars' => match run env rest vars' with
        | (l', r) => (l ++ l', r)

/-- `parse_python_assigns` (cmdline.py:15-126). -/
def parsePythonAssigns (env : Env E V) (parse : String → Except PyErr (List (Stmt E))) (s : String) : Logged (List (String × V)) :=
  if s = "" then ([], .ok [])
  else match parse s with
    | .error e => ([], .error e)
    | .ok stmts => run env stmts []

end Verif.Util.Cmdline
