/-
Model of africanus/averaging/splines.py, over an ordered field (no rounding). Division by zero raises, as in numba's
default error model. Reads outside an array, which numba does not check, return an arbitrary value `junk`. Arrays of knots
have at least two elements.
-/
import Verif.Loops
import Mathlib.Algebra.Order.Field.Basic

set_option autoImplicit false

namespace Verif.Splines

variable {K : Type*} [Field K] [LinearOrder K]

/-- `diag` (columns `A`, `B`, `C`) and `v` (averaging/splines.py:21-22). -/
structure Tri (K : Type*) where
  a : Nat → K
  b : Nat → K
  c : Nat → K
  v : Nat → K

/-- Division, raising `ZeroDivisionError` (averaging/splines.py:30-31). -/
def divE (p q : K) : Except PyErr K := if q = 0 then .error .zeroDivisionError else .ok (p / q)

/-- One interior row (averaging/splines.py:27-31). -/
def buildRow (x y : Nat → K) (i : Nat) (t : Tri K) : Except PyErr (Tri K) :=
  match divE (y (i + 1) - y i) (x (i + 1) - x i) with
  | .error e => .error e
  | .ok r =>
    match divE (y i - y (i - 1)) (x i - x (i - 1)) with
    | .error e => .error e
    | .ok l => .ok
      { a := Function.update t.a i ((1 / 3) * (x i - x (i - 1)))
        b := Function.update t.b i ((2 / 3) * (x (i + 1) - x (i - 1)))
        c := Function.update t.c i ((1 / 3) * (x (i + 1) - x i))
        v := Function.update t.v i (r - l) }

/-- The loop over interior rows (averaging/splines.py:26-31). -/
def build (n : Nat) (x y : Nat → K) : Except PyErr (Tri K) :=
  forRangeM (n - 2) ⟨fun _ => 0, fun _ => 0, fun _ => 0, fun _ => 0⟩ fun k t => buildRow x y (k + 1) t

/-- Left end point (averaging/splines.py:34-43). -/
def leftEnd (x y : Nat → K) (leftType : Int) (leftValue : K) (t : Tri K) : Except PyErr (Tri K) :=
  if leftType = 2 then
    .ok { t with a := Function.update t.a 0 0, b := Function.update t.b 0 2, c := Function.update t.c 0 leftValue }
  else if leftType = 1 then
    match divE (y 1 - y 0) (x 1 - x 0) with
    | .error e => .error e
    | .ok r => .ok { t with
        a := Function.update t.a 0 (1 * (x 1 - x 0))
        b := Function.update t.b 0 (2 * (x 1 - x 0))
        v := Function.update t.v 0 (3 * (-leftValue + r)) }
  else .error .valueError

/-- Right end point (averaging/splines.py:46-55). -/
def rightEnd (n : Nat) (x y : Nat → K) (leftType rightType : Int) (rightValue : K) (t : Tri K) : Except PyErr (Tri K) :=
  if rightType = 2 then
    .ok { t with
      b := Function.update t.b (n - 1) 2, c := Function.update t.c (n - 1) 0
      v := Function.update t.v (n - 1) rightValue }
  else if leftType = 1 then
    match divE (y (n - 1) - y (n - 2)) (x (n - 1) - x (n - 2)) with
    | .error e => .error e
    | .ok r => .ok { t with
        b := Function.update t.b (n - 1) (2 * (x (n - 1) - x (n - 2)))
        c := Function.update t.c (n - 1) (1 * (x (n - 1) - x (n - 2)))
        v := Function.update t.v (n - 1) (3 * (rightValue - r)) }
  else .error .valueError

/-- One step of the elimination (averaging/splines.py:59-61). -/
def elimRow (i : Nat) (t : Tri K) : Tri K :=
  let w := t.a i - t.b (i - 1)
  let b := Function.update t.b i (t.b i - w * t.c (i - 1))
  { t with b := b, v := Function.update t.v i (t.v i - w * t.v (i - 1)) }

/-- Elimination (averaging/splines.py:58-61). -/
def eliminate (n : Nat) (t : Tri K) : Tri K := forRange (n - 1) t fun k t => elimRow (k + 1) t

/-- One step of the back substitution (averaging/splines.py:68). -/
def backRow (n : Nat) (junk : K) (t : Tri K) (i : Nat) (z : Nat → K) : Except PyErr (Nat → K) :=
  match divE (t.v i - t.c i * (if i + 1 < n then z (i + 1) else junk)) (t.b i) with
  | .error e => .error e
  | .ok q => .ok (Function.update z i q)

/-- Back substitution (averaging/splines.py:64-68); the first iteration reads `z[n]`. -/
def backSubst (n : Nat) (junk : K) (t : Tri K) : Except PyErr (Nat → K) :=
  match divE (t.v (n - 1)) (t.b (n - 1)) with
  | .error e => .error e
  | .ok last =>
    forRangeM n (Function.update (fun _ => 0) (n - 1) last) fun k z =>
      backRow n junk t (n - 1 - k) z

/-- `solve_trid_system` (averaging/splines.py:13-70). -/
def solveTrid (n : Nat) (junk : K) (x y : Nat → K) (leftType rightType : Int) (leftValue rightValue : K) :
    Except PyErr (Nat → K) :=
  match build n x y with
  | .error e => .error e
  | .ok t =>
    match leftEnd x y leftType leftValue t with
    | .error e => .error e
    | .ok t =>
      match rightEnd n x y leftType rightType rightValue t with
      | .error e => .error e
      | .ok t => backSubst n junk (eliminate n t)

/-- A `Spline` (averaging/splines.py:10). -/
structure Spline (K : Type*) where
  n : Nat
  a : Nat → K
  b : Nat → K
  c : Nat → K
  x : Nat → K
  y : Nat → K

/-- One interval (averaging/splines.py:83-85). -/
def coeffRow (x y b : Nat → K) (i : Nat) (ac : (Nat → K) × (Nat → K)) : Except PyErr ((Nat → K) × (Nat → K)) :=
  match divE (b (i + 1) - b i) (3 * (x (i + 1) - x i)) with
  | .error e => .error e
  | .ok ai =>
    match divE (y (i + 1) - y i) (x (i + 1) - x i) with
    | .error e => .error e
    | .ok s => .ok (Function.update ac.1 i ai,
        Function.update ac.2 i (s - (2 * b i + b (i + 1)) * (x (i + 1) - x i) / 3))

/-- The coefficient loop of `fit_cubic_spline` (averaging/splines.py:77-91), for given `b`. -/
def coeffs (n : Nat) (x y b : Nat → K) : Except PyErr (Spline K) :=
  match forRangeM (n - 1) (fun _ => 0, fun _ => 0) (fun i ac => coeffRow x y b i ac) with
  | .error e => .error e
  | .ok ac =>
    let h := x (n - 2) - x (n - 1)
    let a := Function.update ac.1 (n - 1) 0
    .ok ⟨n, a, b, Function.update ac.2 (n - 1) (3 * a (n - 2) * h * h + 2 * b (n - 2) * h + ac.2 (n - 2)), x, y⟩

/-- `fit_cubic_spline` (averaging/splines.py:73-91). -/
def fitCubicSpline (n : Nat) (junk : K) (x y : Nat → K) (leftType rightType : Int) (leftValue rightValue : K) :
    Except PyErr (Spline K) :=
  match solveTrid n junk x y leftType rightType leftValue rightValue with
  | .error e => .error e
  | .ok b => coeffs n x y b

/-- `max(np.searchsorted(mx, p, side='right') - 1, 0)`: the number of knots not above `p`, less one (averaging/splines.py:107);
knots are sorted. -/
def segment (s : Spline K) (p : K) : Nat := ((List.range s.n).filter fun j => s.x j ≤ p).length - 1

/-- `mb[n-1]` and the like with `n` the number of query points (averaging/splines.py:113). -/
def at? (s : Spline K) (junk : K) (f : Nat → K) (i : Nat) : K := if i < s.n then f i else junk

/-- `evaluate_spline` (averaging/splines.py:94-142) at `m` query points. The comparisons that choose between extrapolation
and evaluation use the first and last *query*. -/
def evaluateSpline (s : Spline K) (junk : K) (m : Nat) (q : Nat → K) (order : Int) : Except PyErr (Nat → K) :=
  if order = 0 then .ok fun i =>
    let p := q i
    let j := segment s p
    let h := p - s.x j
    if p < q 0 then (s.b 0 * h + s.c 0) * h + s.y 0
    else if q (m - 1) < p then
      (at? s junk s.b (m - 1) * h + at? s junk s.c (m - 1)) * h + at? s junk s.y (m - 1)
    else ((s.a j * h + s.b j) * h + s.c j) * h + s.y j
  else if order = 1 then .ok fun i =>
    let p := q i
    let j := segment s p
    let h := p - s.x j
    if p < q 0 then 2 * s.b 0 * h + s.c 0
    else if q (m - 1) < p then 2 * at? s junk s.b (m - 1) * h + at? s junk s.c (m - 1)
    else (3 * s.a j * h + 2 * s.b j) * h + s.c j
  else if order = 2 then .ok fun i =>
    let p := q i
    let j := segment s p
    let h := p - s.x j
    if p < q 0 then 2 * s.b 0 * h
    else if q (m - 1) < p then 2 * at? s junk s.b (m - 1)
    else 6 * s.a j * h + 2 * s.b j
  else .error .valueError

end Verif.Splines
