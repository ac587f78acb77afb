/-
Model of africanus/gridding/perleypolyhedron/dask.py.

A task works on views of the arrays of the caller, so what `gridder` does to its arguments is seen by the next facet of the same
block. Blocks of different rows work on different parts of the arrays; all facets are in one chunk when gridding.
-/
import Verif.Gridding.Gridder
import Verif.Blocks

set_option autoImplicit false

namespace Verif.Gridding

/-- The arrays of a block while `__grid` runs (gridding/perleypolyhedron/dask.py:179-221). -/
structure BlockState where
  uvw : Nat → ℝ
  vis : Nat → Nat → Nat → ℂ
  stack : Nat → ℤ → ℂ

/-- One facet (gridding/perleypolyhedron/dask.py:212-219). -/
noncomputable def gridFacet (cfg : Cfg) (centres : Nat → RaDec) (npix nrow nchan ur uc : Nat) (norm : Bool) (junk : ℤ → ℂ) (f : Nat)
    (b : BlockState) : Except PyErr BlockState := do
  let s ← gridder { cfg with imageCentre := centres f } npix nrow nchan ur uc b.uvw b.vis norm junk
  return { uvw := s.uvw, vis := s.vis, stack := Function.update b.stack f s.grid }

/-- `__grid` (gridding/perleypolyhedron/dask.py:179-220) for `nf` facets. -/
noncomputable def gridBlock (cfg : Cfg) (centres : Nat → RaDec) (nf npix nrow nchan ur uc : Nat) (uvw : Nat → ℝ)
    (vis : Nat → Nat → Nat → ℂ) (norm : Bool) (junk : ℤ → ℂ) : Except PyErr BlockState :=
  forRangeM nf { uvw := uvw, vis := vis, stack := fun _ _ => 0 } fun f b => gridFacet cfg centres npix nrow nchan ur uc norm junk f b

/-- The block of row chunk `j`: only the first chunk of the channels of `vis`, `lambdas` and `chanmap` is used
(gridding/perleypolyhedron/dask.py:205-208). -/
noncomputable def gridRowBlock (cfg : Cfg) (centres : Nat → RaDec) (nf npix uvwCols : Nat) (rowChunks uvwChunks chanChunks : List Nat)
    (uvw : Nat → ℝ) (vis : Nat → Nat → Nat → ℂ) (norm : Bool) (junk : ℤ → ℂ) (j : Nat) : Except PyErr BlockState :=
  gridBlock { cfg with nlam := blockSize chanChunks 0, nmap := blockSize chanChunks 0 } centres nf npix (blockSize rowChunks j)
    (blockSize chanChunks 0) (blockSize uvwChunks j) uvwCols (fun i => uvw (3 * blockOff rowChunks j + i))
    (fun r => vis (blockOff rowChunks j + r)) norm junk

/-- One step of the sum over row blocks of `grids.mean(axis=0)` (gridding/perleypolyhedron/dask.py:317). -/
noncomputable def addBlock (acc : Nat → ℤ → ℂ) (block : Except PyErr BlockState) : Except PyErr (Nat → ℤ → ℂ) := do
  let b ← block
  return fun f a => acc f a + b.stack f a

/-- `gridder` (gridding/perleypolyhedron/dask.py:223-317): blocks of rows and the mean over them. The sizes of the axes are the
sums of the chunks; `cfg.nlam` and `cfg.nmap` are not used. -/
noncomputable def daskGridder (cfg : Cfg) (centres : Nat → RaDec) (nf npix uvwCols : Nat)
    (rowChunks uvwChunks chanChunks lamChunks mapChunks : List Nat) (uvw : Nat → ℝ) (vis : Nat → Nat → Nat → ℂ) (norm : Bool)
    (junk : ℤ → ℂ) : Except PyErr (Nat → ℤ → ℂ) :=
  if lamChunks ≠ chanChunks then .error .valueError
  else if mapChunks ≠ chanChunks then .error .valueError
  else if rowChunks ≠ uvwChunks then .error .valueError
  else do
    let total ← forRangeM rowChunks.length (fun _ _ => (0 : ℂ)) fun j acc =>
      addBlock acc (gridRowBlock cfg centres nf npix uvwCols rowChunks uvwChunks chanChunks uvw vis norm junk j)
    return fun f a => total f a / (rowChunks.length : ℂ)

/-- One facet of `__degrid` (gridding/perleypolyhedron/dask.py:62-79). Only modelled for the policies "None": the code passes the
array of all image centres where one centre is expected, which those policies do not look at. -/
noncomputable def degridFacet (cfg : Cfg) (gb npix nx nrow uc : Nat) (uvw : Nat → ℝ) (stack : Nat → ℤ → ℂ) (f : Nat)
    (vis : Nat → Nat → Nat → ℂ) : Except PyErr (Nat → Nat → Nat → ℂ) := do
  let s ← degridder { cfg with baseline := "None", phase := "None" } gb npix nx nrow uc uvw (stack f)
  return fun r c i => vis r c i + s.vis r c i

/-- `__degrid` (gridding/perleypolyhedron/dask.py:21-80) for `nf` facets. -/
noncomputable def degridBlock (cfg : Cfg) (nf gb npix nx nrow uc : Nat) (uvw : Nat → ℝ) (stack : Nat → ℤ → ℂ) :
    Except PyErr (Nat → Nat → Nat → ℂ) := do
  if uc ≠ 3 then .error .valueError
  else if cfg.nmap ≠ cfg.nlam then .error .valueError
  else
    let _ ← ncorrOutPy cfg.stokes
    forRangeM nf (fun _ _ _ => 0) fun f vis => degridFacet cfg gb npix nx nrow uc uvw stack f vis

/-- The block of rows `j` and channels `k` of the dask `degridder` (gridding/perleypolyhedron/dask.py:137-176): of the facets only
the first chunk is used (line 48); the grids are in one chunk along the other axes. `ncentres` is the number of image centres. -/
noncomputable def daskDegridder (cfg : Cfg) (ncentres gb npix nx uvwCols : Nat) (rowChunks chanChunks facetChunks : List Nat)
    (uvw : Nat → ℝ) (stack : Nat → ℤ → ℂ) (j k : Nat) : Except PyErr (Nat → Nat → Nat → ℂ) :=
  if facetChunks.sum ≠ ncentres then .error .valueError
  else do
    let _ ← ncorrOutPy cfg.stokes
    degridBlock { cfg with nlam := blockSize chanChunks k, nmap := blockSize chanChunks k,
                           wavelengths := fun c => cfg.wavelengths (blockOff chanChunks k + c),
                           chanmap := fun c => cfg.chanmap (blockOff chanChunks k + c) }
      (blockSize facetChunks 0) gb npix nx (blockSize rowChunks j) uvwCols (fun i => uvw (3 * blockOff rowChunks j + i)) stack

end Verif.Gridding
