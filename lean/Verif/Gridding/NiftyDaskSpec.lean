/-
What gridding and degridding of whole arrays give, and what it means to compute a lazy grid.
-/
import Verif.Gridding.NiftyDask
import Verif.Dask.Spec
import Mathlib.Algebra.Group.Pi.Basic

set_option autoImplicit false

namespace Verif.Nifty

open Verif.Dask

variable {R K : Type}

/-- A sample takes part: it is not flagged and its w is in range. -/
def Selected (lib : Lib R K) (uvw : DArr R) (flags : DArr Bool) (freq : DArr R) (wmin wmax : R) (c r f : Nat) : Bool :=
  !flags.val [r, f, c] && lib.inRange (fun k => uvw.val [r, k]) (freq.val [f]) wmin wmax

/-- Pixel `(u, v)` of the grid of correlation `c`: the contributions of all samples that take part. -/
def gridPixel [AddCommMonoid K] (lib : Lib R K) (vis : DArr K) (uvw : DArr R) (flags : DArr Bool) (weights freq : DArr R)
    (wmin wmax : R) (c u v : Nat) : K :=
  ∑ r ∈ Finset.range (uvw.dim 0), ∑ f ∈ Finset.range (freq.dim 0),
    if Selected lib uvw flags freq wmin wmax c r f then
      lib.contrib (fun k => uvw.val [r, k]) (freq.val [f]) (vis.val [r, f, c]) (weights.val [r, f, c]) u v else 0

/-- The visibility of row `r`, channel `f` and correlation `c` degridded from a grid. -/
def degridVis [Zero K] (lib : Lib R K) (grid : DArr K) (uvw : DArr R) (flags : DArr Bool) (freq : DArr R) (wmin wmax : R)
    (r f c : Nat) : K :=
  if Selected lib uvw flags freq wmin wmax c r f then
    lib.sample (fun k => uvw.val [r, k]) (freq.val [f]) fun u v => grid.val [u, v, c] else 0

/-- Computing the lazy grid of a correlation can give `g`: all row blocks are gridded and their sum is `g`. With
streams, some execution of the graph by a scheduler has computed all values that are added up. -/
def CorrGrid.Evaluates [AddCommMonoid K] (x : CorrGrid K) (g : Nat → Nat → K) : Prop :=
  ∃ part : ℤ → Nat → Nat → K, (∀ i < x.blocks, x.part i = .ok (part i)) ∧
    match x.streams with
    | none => g = ∑ i ∈ Finset.range x.blocks, part i
    | some s => ∃ layers keys v, gridStream x.blocks s = .ok layers ∧ finalKeys x.blocks s = .ok keys ∧
        Run layers part v ∧ (∀ k ∈ keys, v k ≠ none) ∧ g = (keys.map fun k => (v k).getD 0).sum

/-- Arrays of the documented shapes with the same chunks along the rows. The channels of `freq` are in one chunk; those of
the visibilities, flags and weights are in the chunks `cv`, `cf` and `cw`. -/
structure GridArgs (vis : DArr K) (uvw : DArr R) (flags : DArr Bool) (weights freq : DArr R) (rows cv cf cw : List Nat)
    (nchan ncorr : Nat) : Prop where
  goodRows : GoodChunks rows
  uvw : uvw.chunks = [rows, [3]]
  freq : freq.chunks = [[nchan]]
  vis : ∃ c, vis.chunks = [rows, cv, c] ∧ c.sum = ncorr
  flags : ∃ c, flags.chunks = [rows, cf, c] ∧ c.sum = ncorr
  weights : ∃ c, weights.chunks = [rows, cw, c] ∧ c.sum = ncorr
  goodVis : GoodChunks cv ∧ cv.sum = nchan
  goodFlags : GoodChunks cf ∧ cf.sum = nchan
  goodWeights : GoodChunks cw ∧ cw.sum = nchan
  someCorr : 0 < ncorr

/-- Arguments of `degrid` of the documented shapes: the rows of uvw and flags in the same chunks, the frequencies in one
chunk, the grid in the chunks `cu` and `cv` and the channels of the flags in the chunks `cf`. -/
structure DegridArgs (grid : DArr K) (uvw : DArr R) (flags : DArr Bool) (freq : DArr R) (rows cu cv cf : List Nat)
    (nchan ncorr : Nat) : Prop where
  goodRows : GoodChunks rows
  uvw : uvw.chunks = [rows, [3]]
  freq : freq.chunks = [[nchan]]
  grid : ∃ c, grid.chunks = [cu, cv, c] ∧ c.sum = ncorr
  flags : ∃ c, flags.chunks = [rows, cf, c] ∧ c.sum = ncorr
  goodGrid : GoodChunks cu ∧ GoodChunks cv
  goodFlags : GoodChunks cf ∧ cf.sum = nchan
  someCorr : 0 < ncorr

/-- The visibilities degridded from whole arrays. -/
def degridWhole [Zero K] (lib : Lib R K) (grid : DArr K) (uvw : DArr R) (flags : DArr Bool) (freq : DArr R) (wmin wmax : R)
    (ncorr : Nat) : NArr K :=
  ⟨[uvw.dim 0, freq.dim 0, ncorr], fun i => match i with
    | [r, f, c] => degridVis lib grid uvw flags freq wmin wmax r f c
    | _ => 0⟩

end Verif.Nifty
