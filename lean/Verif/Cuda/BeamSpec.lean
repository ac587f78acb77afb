/-
What the arguments of the CUDA version of `beam_cube_dde` look like, and what the CPU version computes from them.
-/
import Verif.Cuda.Beam

set_option autoImplicit false

namespace Verif.Cuda

open Verif.Rime (beamCubeDde)

/-- The shapes given in the documentation, with one or two axes of correlations. -/
structure BeamShapes (a : BeamArgs) (lw mh nud nsrc ntime na nchan : Nat) (corrs : List Nat) : Prop where
  beam : a.beam.shape = [lw, mh, nud] ++ corrs
  ext : a.ext.shape = [2, 2]
  freqMap : a.freqMap.shape = [nud]
  lm : a.lm.shape = [nsrc, 2]
  pa : a.pa.shape = [ntime, na]
  pe : a.pe.shape = [ntime, na, nchan, 2]
  scaling : a.scaling.shape = [na, nchan, 2]
  freq : a.freq.shape = [nchan]
  corrs : corrs.length = 1 ∨ corrs.length = 2

/-- The last stride is that of adjacent elements. -/
def Pairs (a : GArr ℝ) : Prop := ∃ st, a.strides = st ++ [1] ∧ st.length + 1 = a.shape.length

/-- The beam is contiguous, the pairs of numbers in other arrays lie next to each other. -/
structure BeamMemory (a : BeamArgs) : Prop where
  beam : a.beam.Contiguous
  lm : Pairs a.lm
  pe : Pairs a.pe
  scaling : Pairs a.scaling

/-- All positions in arrays fit in 32 bits. -/
structure BeamSmall (lw mh nud nsrc ntime na nchan ncorr : Nat) : Prop where
  out : nsrc * (ntime * (na * (nchan * ncorr))) ≤ 2 ^ 31
  beam : lw * mh * nud * ncorr ≤ 2 ^ 31
  pe : 2 * (ntime * na * nchan) ≤ 2 ^ 31
  lm : 2 * nsrc ≤ 2 ^ 31

/-- The result of the CPU version for one source, time, antenna, channel and correlation. -/
noncomputable def cpuBeam (a : BeamArgs) (lw mh nud s t p f : Nat) (c : List Nat) : Except PyErr ℂ :=
  beamCubeDde lw mh nud (fun i j k => a.beam.at ([i.toNat, j.toNat, k.toNat] ++ c))
    ((a.ext.at [0, 0], a.ext.at [0, 1]), (a.ext.at [1, 0], a.ext.at [1, 1])) (fun k => a.freqMap.at [k.toNat])
    (a.lm.at [s, 0]) (a.lm.at [s, 1]) (a.pa.at [t, p]) (a.pe.at [t, p, f, 0]) (a.pe.at [t, p, f, 1])
    (a.scaling.at [p, f, 0]) (a.scaling.at [p, f, 1]) (a.freq.at [f])

end Verif.Cuda
