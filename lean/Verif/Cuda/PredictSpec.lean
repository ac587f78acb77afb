/-
Arguments for which the CUDA version of predict_vis is compared with the CPU version, and their elements.
-/
import Verif.Cuda.Predict
import Verif.Cuda.Spec

set_option autoImplicit false

namespace Verif.Cuda

open Verif.Rime (Terms M2)

/-- The extents of the arguments of `predict_vis`; `corrs` are those of the correlations. -/
structure HasShapes (nsrc ntime na nrow nchan : Nat) (corrs : List Nat) (x : GTerms) : Prop where
  dde : ∀ d ∈ x.dde, d.1.shape = [nsrc, ntime, na, nchan] ++ corrs ∧ d.2.shape = [nsrc, ntime, na, nchan] ++ corrs
  coh : ∀ c ∈ x.coh, c.shape = [nsrc, nrow, nchan] ++ corrs
  die : ∀ g ∈ x.die, g.1.shape = [ntime, na, nchan] ++ corrs ∧ g.2.shape = [ntime, na, nchan] ++ corrs
  bvis : ∀ b ∈ x.bvis, b.shape = [nrow, nchan] ++ corrs

/-- No array has more than `2^31` elements, nor has the result. -/
structure Small (nrow nchan ncorr : Nat) (x : GTerms) : Prop where
  out : nrow * (nchan * ncorr) ≤ 2 ^ 31
  dde : ∀ d ∈ x.dde, size d.1.shape ≤ 2 ^ 31
  coh : ∀ c ∈ x.coh, size c.shape ≤ 2 ^ 31
  die : ∀ g ∈ x.die, size g.1.shape ≤ 2 ^ 31

/-- Antennas and times are indices of the Jones terms, if there are any. -/
def IndicesOk (ntime na nrow : Nat) (time ant1 ant2 : Nat → Nat) (tmin : Nat) (x : GTerms) : Prop :=
  (x.dde.isSome ∨ x.die.isSome) → ∀ r < nrow, time r - tmin < ntime ∧ ant1 r < na ∧ ant2 r < na

/-- The elements of the arguments, as 2x2 matrices. -/
def fullTerms (x : GTerms) : Terms (M2 ℂ) where
  dde := x.dde.map fun d => (fun s t a f => .of fun i j => d.1.at [s, t, a, f, i, j],
    fun s t a f => .of fun i j => d.2.at [s, t, a, f, i, j])
  coh := x.coh.map fun c s r f => .of fun i j => c.at [s, r, f, i, j]
  die := x.die.map fun g => (fun t a f => .of fun i j => g.1.at [t, a, f, i, j],
    fun t a f => .of fun i j => g.2.at [t, a, f, i, j])
  bvis := x.bvis.map fun b r f => .of fun i j => b.at [r, f, i, j]

/-- The elements of the arguments, with one axis of correlations. -/
def diagTerms (x : GTerms) : Terms (Nat → ℂ) where
  dde := x.dde.map fun d => (fun s t a f c => d.1.at [s, t, a, f, c], fun s t a f c => d.2.at [s, t, a, f, c])
  coh := x.coh.map fun c s r f k => c.at [s, r, f, k]
  die := x.die.map fun g => (fun t a f c => g.1.at [t, a, f, c], fun t a f c => g.2.at [t, a, f, c])
  bvis := x.bvis.map fun b r f c => b.at [r, f, c]

end Verif.Cuda
