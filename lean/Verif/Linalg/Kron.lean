/-
Model of africanus/linalg/kronecker_tools.py.

Matrices and vectors are functions on indices with explicit extents. `np.reshape`, `flatten` and `einsum` are modelled with
their documented C-order semantics; sums are exact.
-/
import Verif.Basic
import Mathlib.Algebra.BigOperators.Group.Finset.Basic
import Mathlib.Algebra.Ring.Defs

set_option autoImplicit false

namespace Verif.Linalg.Kron

open Finset

variable {K : Type}

/-- A 2-dimensional array (linalg/kronecker_tools.py:7-185). -/
structure Mat (K : Type) where
  rows : Nat
  cols : Nat
  at' : Nat → Nat → K

/-- A 1-dimensional array (linalg/kronecker_tools.py:7-185). -/
structure Vec (K : Type) where
  size : Nat
  at' : Nat → K

/-- `kron_N` (kronecker_tools.py:7-26); the float product is taken to be exact. -/
def kronN (A : List (Mat K)) : Nat := (A.map Mat.rows).prod

variable [CommRing K]

/-- `np.reshape(x, (g, r))` for a 1-dimensional `x`: one of the extents may be `-1`, which stands for what is left; other
negative extents and a wrong total raise `ValueError` (linalg/kronecker_tools.py:29-98). -/
def reshape (x : Vec K) (g r : Int) : Except PyErr (Mat K) :=
  if 0 ≤ g ∧ 0 ≤ r then
    if g * r = x.size then .ok ⟨g.toNat, r.toNat, fun i j => x.at' (i * r.toNat + j)⟩ else .error .valueError
  else if g = -1 ∧ 0 < r then
    if (x.size : Int) % r = 0 then .ok ⟨x.size / r.toNat, r.toNat, fun i j => x.at' (i * r.toNat + j)⟩ else .error .valueError
  else if r = -1 ∧ 0 < g then
    if (x.size : Int) % g = 0 then .ok ⟨g.toNat, x.size / g.toNat, fun i j => x.at' (i * (x.size / g.toNat) + j)⟩
    else .error .valueError
  else .error .valueError

/-- `np.einsum("ab,bc->ac", M, X)` followed by the transposition and `flatten` (kronecker_tools.py:56-58, 93-95). Different
extents raise `ValueError` (an extent of one is broadcast by `einsum`, which is not modelled: it is taken as an error). -/
def mulT (M X : Mat K) : Except PyErr (Vec K) :=
  if M.cols = X.rows then
    .ok ⟨X.cols * M.rows, fun i => ∑ b ∈ range M.cols, M.at' (i % M.rows) b * X.at' b (i / M.rows)⟩
  else .error .valueError

/-- One turn of the loop of `kron_matvec` (kronecker_tools.py:53-58); `N // 0` raises. -/
def matvecStep (N : Nat) (M : Mat K) (x : Vec K) : Except PyErr (Vec K) :=
  if M.rows = 0 then .error .zeroDivisionError
  else match reshape x M.rows ((N / M.rows : Nat) : Int) with
    | .error e => .error e
    | .ok X => mulT M X

/-- The loop (kronecker_tools.py:53-58). -/
def matvecLoop (N : Nat) : List (Mat K) → Vec K → Except PyErr (Vec K)
  | [], x => .ok x
  | M :: Ms, x => match matvecStep N M x with
    | .error e => .error e
    | .ok x => matvecLoop N Ms x

/-- `kron_matvec` (kronecker_tools.py:29-59). -/
def kronMatvec (A : List (Mat K)) (b : Vec K) : Except PyErr (Vec K) := matvecLoop b.size A b

/-- The value of a non-negative integer stored into an `int8` array (wrapping, as numpy 1 does) (linalg/kronecker_tools.py:7-26). -/
def toInt8 (n : Nat) : Int := ((n : Int) + 128) % 256 - 128

/-- The loop of `kron_tensorvec` (kronecker_tools.py:89-97). `done` holds the entries of `G` that were replaced; the remaining
entries are those of the remaining matrices. -/
def tensorvecLoop : List Int → List (Mat K) → Vec K → Except PyErr (Vec K)
  | _, [], x => .ok x
  | done, M :: Ms, x =>
    match reshape x (toInt8 M.cols) (done.prod * (Ms.map fun M => toInt8 M.cols).prod) with
    | .error e => .error e
    | .ok X => match mulT M X with
      | .error e => .error e
      | .ok x => tensorvecLoop (done ++ [toInt8 M.rows]) Ms x

/-- `kron_tensorvec` (kronecker_tools.py:62-98). -/
def kronTensorvec (A : List (Mat K)) (b : Vec K) : Except PyErr (Vec K) := tensorvecLoop [] A b

/-- One column (kronecker_tools.py:124, 153). Storing a column of another size raises `ValueError`. -/
def column (f : Vec K → Except PyErr (Vec K)) (N : Nat) (B : Mat K) (i : Nat) (C : Nat → Nat → K) :
    Except PyErr (Nat → Nat → K) :=
  match f ⟨B.rows, fun j => B.at' j i⟩ with
  | .error e => .error e
  | .ok x => if x.size = N then .ok fun r c => if c = i then x.at' r else C r c else .error .valueError

/-- The loops of `kron_matmat` and `kron_tensormat` (kronecker_tools.py:119-125, 148-154) for a function `f` applied to the
columns. -/
def columns (f : Vec K → Except PyErr (Vec K)) (N : Nat) (B : Mat K) : Except PyErr (Mat K) :=
  match forRangeM B.cols (fun _ _ => 0) (column f N B) with
  | .error e => .error e
  | .ok C => .ok ⟨N, B.cols, C⟩

/-- `kron_matmat` (kronecker_tools.py:101-125). -/
def kronMatmat (A : List (Mat K)) (B : Mat K) : Except PyErr (Mat K) := columns (kronMatvec A) (kronN A) B

/-- `kron_tensormat` (kronecker_tools.py:128-154). -/
def kronTensormat (A : List (Mat K)) (B : Mat K) : Except PyErr (Mat K) := columns (kronTensorvec A) (kronN A) B

/-- `A[i] + 1e-13*np.eye(A[i].shape[0])` (kronecker_tools.py:184); `np.eye` is square, so a matrix that is not square raises. -/
def jittered (eps : K) (M : Mat K) : Except PyErr (Mat K) :=
  if M.rows = M.cols then .ok ⟨M.rows, M.cols, fun i j => M.at' i j + (if i = j then eps else 0)⟩ else .error .valueError

/-- One factor of `kron_cholesky` (kronecker_tools.py:181-184); `chol` stands for `np.linalg.cholesky`. -/
def cholFactor (chol : Mat K → Except PyErr (Mat K)) (eps : K) (M : Mat K) : Except PyErr (Mat K) :=
  match chol M with
  | .ok L => .ok L
  | .error _ => match jittered eps M with
    | .error e => .error e
    | .ok M' => chol M'

/-- `kron_cholesky` (kronecker_tools.py:157-185). -/
def kronCholesky (chol : Mat K → Except PyErr (Mat K)) (eps : K) : List (Mat K) → Except PyErr (List (Mat K))
  | [] => .ok []
  | M :: Ms => match cholFactor chol eps M with
    | .error e => .error e
    | .ok L => match kronCholesky chol eps Ms with
      | .error e => .error e
      | .ok Ls => .ok (L :: Ls)

end Verif.Linalg.Kron
