/-
Model of africanus/gps/examples/generate_phase_only_gains.py, in exact real arithmetic.

Tables, the sky model and random numbers are inputs. `np.linalg.cholesky` is a parameter, as in `Verif.Linalg.Kron`.
-/
import Verif.Gps.Model
import Verif.Linalg.Kron
import Mathlib.Analysis.SpecialFunctions.Complex.Circle

set_option autoImplicit false

namespace Verif.Examples

open Verif.Gps Verif.Linalg.Kron

/-- `x -= x.min(); x /= x.max()` (generate_phase_only_gains.py:37-38, 48-49). The minimum of no numbers is a `ValueError`.
If all numbers are equal the result is NaN, which `np.linalg.cholesky` rejects with `LinAlgError`, with and without jitter;
as this is a `ValueError`, it is reported here. -/
noncomputable def normalise (x : List ℝ) : Except PyErr (List ℝ) := by
  classical
  exact match x.min? with
  | none => .error .valueError
  | some lo => match (x.map (· - lo)).max? with
    | none => .error .valueError
    | some hi => if hi = 0 then .error .valueError else .ok (x.map fun v => (v - lo) / hi)

/-- The matrix of `exponential_squared` (gps/kernels.py:8-47). -/
noncomputable def covariance (x : Nd) (sigmaf l : ℝ) : Except PyErr (Mat ℝ) :=
  match exponentialSquared x x sigmaf l false with
  | .error e => .error e
  | .ok (.matrix n np m) => .ok ⟨n, np, m⟩
  | .ok (.vector _ _) => .error .valueError

/-- A list as an array of one dimension (gps/examples/generate_phase_only_gains.py:36-52). -/
def ofList (x : List ℝ) : Nd := ⟨[x.length], fun i => x.getD i 0⟩

/-- `kron_cholesky(np.array([time_cov, freq_cov, lm_cov], dtype=object))` (generate_phase_only_gains.py:62-63): matrices of
one and the same shape make an array of three dimensions, whose parts are matrices of objects; `np.linalg.cholesky`
rejects those with `TypeError`, with and without jitter. -/
noncomputable def gainFactors (chol : Mat ℝ → Except PyErr (Mat ℝ)) (eps : ℝ) (kt kf kl : Mat ℝ) :
    Except PyErr (List (Mat ℝ)) :=
  if kt.rows = kf.rows ∧ kf.rows = kl.rows then .error .typeError else kronCholesky chol eps [kt, kf, kl]

/-- generate_phase_only_gains.py:36-76 for one antenna and correlation (the turns of the loop over antennas assign
different parts of the array): `times` are the unique times, `lm` the coordinates of the sources, `xi` the random numbers.
The result is indexed by time, channel and direction. -/
noncomputable def phaseGains (chol : Mat ℝ → Except PyErr (Mat ℝ)) (eps : ℝ) (times freqs : List ℝ) (ndir : Nat)
    (lm : Nat → ℝ) (xi : Nat → ℝ) : Except PyErr (Nat → Nat → Nat → ℂ) :=
  match normalise times with
  | .error e => .error e
  | .ok t => match normalise freqs with
    | .error e => .error e
    | .ok f => match covariance (ofList t) (1 / 4) (1 / 5), covariance (ofList f) 1 (1 / 4),
        covariance ⟨[ndir, 2], lm⟩ 1 (1 / 2) with
      | .ok kt, .ok kf, .ok kl => match gainFactors chol eps kt kf kl with
        | .error e => .error e
        | .ok L => match kronMatvec L ⟨t.length * f.length * ndir, xi⟩ with
          | .error e => .error e
          | .ok samp => .ok fun i j d => Complex.exp (Complex.I * (samp.at' ((i * f.length + j) * ndir + d) : ℝ))
      | .error e, _, _ => .error e
      | _, .error e, _ => .error e
      | _, _, .error e => .error e

end Verif.Examples
