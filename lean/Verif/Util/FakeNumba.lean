/-
Model of the decorators used while the documentation is built: africanus/util/docs.py:8-12 and africanus/util/numba.py:9-30.
Simplified: calls have positional arguments only. The package `decorator` is external; what is used of it is stated at
`decorate`.
-/
import Verif.Basic
import Mathlib.Data.Real.Basic

set_option autoImplicit false

namespace Verif.Util.FakeNumba

/-- A Python function, such as those decorated in rime/predict.py and gridding/perleypolyhedron/kernels.py:16: the number of
arguments without a default, the defaults of the others, whether it has `*args`, and what it does with a complete list of
arguments. `self` is the function as an object that can be passed on. -/
structure Fn (V : Type) where
  self : V
  required : Nat
  defaults : List V
  varargs : Bool
  body : List V → Except PyErr V

/-- The arguments of a call with the defaults for those not given; a wrong number is a `TypeError`
(the rule of Python for calls such as util/numba.py:14). -/
def Fn.bind {V : Type} (f : Fn V) (args : List V) : Except PyErr (List V) :=
  if args.length < f.required then .error .typeError
  else if f.required + f.defaults.length < args.length then if f.varargs then .ok args else .error .typeError
  else .ok (args ++ f.defaults.drop (args.length - f.required))

/-- A call (the rule of Python for calls such as util/numba.py:14). -/
def Fn.call {V : Type} (f : Fn V) (args : List V) : Except PyErr V := do
  f.body (← f.bind args)

/-- `decorate(fn, caller)` of the package `decorator` (util/numba.py:16; external): a function with the signature of `fn`, which
calls `caller` with `fn` itself and all arguments, defaults included. `obj` is the new function as an object. -/
def decorate {V : Type} (obj : V) (fn : Fn V) (caller : List V → Except PyErr V) : Fn V :=
  { fn with self := obj, body := fun args => caller (fn.self :: args) }

/-- `_fake_decorator(…)(fn)` (util/numba.py:11-18), whatever the arguments of the decorator are. -/
def fake {V : Type} (obj : V) (fn : Fn V) : Fn V := decorate obj fn fun args => fn.call args

/-- What a name stands for after `@d def fn…`: a function, or, for a decorator used without arguments, `decorator` of
util/numba.py:12-16, which waits for the function to be decorated. -/
inductive Decorated (V : Type)
  | fn (f : Fn V)
  | decorator

/-- `@jit(…)`, or `@jit` if not `withArgs` (util/numba.py:11-27): without arguments the function is taken for an argument of
the decorator. -/
def onRtd {V : Type} (withArgs : Bool) (obj : V) (fn : Fn V) : Decorated V :=
  if withArgs then .fn (fake obj fn) else .decorator

/-- A call of the name (util/numba.py:12-18). `decorator` takes one argument; `wrap` is the object it makes of that argument by
`decorate`, which may raise. -/
def Decorated.call {V : Type} (wrap : V → Except PyErr V) : Decorated V → List V → Except PyErr V
  | .fn f, args => f.call args
  | .decorator, [a] => wrap a
  | .decorator, _ => .error .typeError

/-- `_on_rtd` (util/docs.py:8): the variable READTHEDOCS is set and not empty. -/
def readthedocs (env : Option String) : Bool :=
  match env with
  | none => false
  | some s => s ≠ ""

/-- The value used for pi (constants/consts.py:10-14). -/
noncomputable def piUsed (rtd : Bool) (pi : ℝ) : ℝ := if rtd then 3.14 else pi

/-- `two_pi_over_c`, `DEG2RAD` and `ARCSEC2RAD` (constants/consts.py:10-14). -/
noncomputable def constants (rtd : Bool) (pi c : ℝ) : ℝ × ℝ × ℝ :=
  (2 * piUsed rtd pi / c, piUsed rtd pi / 180, piUsed rtd pi / (180 * 3600))

end Verif.Util.FakeNumba
