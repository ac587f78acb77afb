/-
The radio interferometer measurement equation as written in the documentation of predict_vis
(predict.py:520-530): `V_pq = G_p (B_pq + sum_s E_ps X_pqs E_qs^H) G_q^H`.
-/
import Mathlib.Algebra.Star.Basic
import Mathlib.Algebra.BigOperators.Group.Finset.Basic
import Mathlib.Algebra.Ring.Basic

set_option autoImplicit false

namespace Verif.Rime

/-- The RIME for one baseline, time and channel over any ring with an adjoint (`star`): 2x2 matrices with
the conjugate transpose, or scalars with conjugation. Absent Jones terms and coherencies are 1, absent
base visibilities are 0; without DDEs and coherencies there is no sky part. -/
def rime {R : Type*} [Ring R] [StarRing R] (nsrc : Nat) (E : Option ((Nat → R) × (Nat → R)))
    (X : Option (Nat → R)) (B : Option R) (G : Option (R × R)) : R :=
  let sky : R := if E.isNone ∧ X.isNone then 0 else
    ∑ s ∈ Finset.range nsrc,
      (E.elim 1 fun e => e.1 s) * (X.elim 1 fun x => x s) * star (E.elim 1 fun e => e.2 s)
  (G.elim 1 fun g => g.1) * (B.getD 0 + sky) * star (G.elim 1 fun g => g.2)

/-- `m` is the smallest of `time 0, ..., time (n-1)`. -/
def IsMin (n : Nat) (time : Nat → Nat) (m : Nat) : Prop :=
  (∃ r < n, time r = m) ∧ ∀ r < n, m ≤ time r

end Verif.Rime
