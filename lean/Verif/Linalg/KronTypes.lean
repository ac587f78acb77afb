/-
Element types of the Kronecker functions (/repo/africanus/linalg/kronecker_tools.py): the arrays the results are stored into have
a type of their own, and storing converts.
-/
import Verif.Linalg.Kron

set_option autoImplicit false

namespace Verif.Linalg.Kron

variable {K : Type} [CommRing K]

/-- One column stored into `C` (kronecker_tools.py:124, 153), `store` being the conversion to the element type of `C`. -/
def columnInto (store : K → K) (f : Vec K → Except PyErr (Vec K)) (N : Nat) (B : Mat K) (i : Nat) (C : Nat → Nat → K) :
    Except PyErr (Nat → Nat → K) :=
  match f ⟨B.rows, fun j => B.at' j i⟩ with
  | .error e => .error e
  | .ok x => if x.size = N then .ok fun r c => if c = i then store (x.at' r) else C r c else .error .valueError

/-- The loops of `kron_matmat` and `kron_tensormat` (kronecker_tools.py:119-125, 148-154). `C = np.zeros([N, M])` has type
`float64` whatever the type of the operands: `store` takes the real part of complex numbers (with a `ComplexWarning`). -/
def columnsInto (store : K → K) (f : Vec K → Except PyErr (Vec K)) (N : Nat) (B : Mat K) : Except PyErr (Mat K) :=
  match forRangeM B.cols (fun _ _ => 0) (columnInto store f N B) with
  | .error e => .error e
  | .ok C => .ok ⟨N, B.cols, C⟩

/-- `kron_matmat` with its storage (kronecker_tools.py:101-125). -/
def kronMatmatInto (store : K → K) (A : List (Mat K)) (B : Mat K) : Except PyErr (Mat K) :=
  columnsInto store (kronMatvec A) (kronN A) B

/-- `kron_tensormat` with its storage (kronecker_tools.py:128-154). -/
def kronTensormatInto (store : K → K) (A : List (Mat K)) (B : Mat K) : Except PyErr (Mat K) :=
  columnsInto store (kronTensorvec A) (kronN A) B

/-- `L[i] = …` (kronecker_tools.py:182-186): `L = np.zeros_like(A)` has the type of `A`. For an array of objects `store` is the
identity; for a stack of integer matrices it drops the fractions. -/
def storeFactor (store : K → K) (L : Mat K) : Mat K := ⟨L.rows, L.cols, fun i j => store (L.at' i j)⟩

/-- `kron_cholesky` with its storage (kronecker_tools.py:157-185). -/
def kronCholeskyInto (store : K → K) (chol : Mat K → Except PyErr (Mat K)) (eps : K) (A : List (Mat K)) :
    Except PyErr (List (Mat K)) :=
  match kronCholesky chol eps A with
  | .error e => .error e
  | .ok L => .ok (L.map (storeFactor store))

end Verif.Linalg.Kron
