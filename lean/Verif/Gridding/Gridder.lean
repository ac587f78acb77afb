/-
Model of africanus/gridding/perleypolyhedron: policies/convolution_policies.py, gridder.py and degridder.py.

Floating point numbers are real and complex numbers. The code is compiled by numba: names of policies are resolved before a
kernel runs, so a wrong name raises whatever the arrays hold; arrays are not checked for bounds, and a negative index counts
from the end of its axis. Arrays that the code writes through are therefore memory: functions from addresses, with the array at
address zero and whatever else the process holds around it.
-/
import Verif.Gridding.Policies

set_option autoImplicit false

namespace Verif.Gridding

/-- The value of a call whose policy name was resolved before the kernel ran (see `resolve`)
(gridding/perleypolyhedron/gridder.py:13-116). -/
def okOr {α : Type*} (d : α) : Except PyErr α → α
  | .ok a => a
  | .error _ => d

/-- `np.round`: to the nearest integer, halves to even (convolution_policies.py:33-34). -/
noncomputable def npRound (x : ℝ) : ℤ :=
  if x - ⌊x⌋ < 1 / 2 then ⌊x⌋
  else if 1 / 2 < x - ⌊x⌋ then ⌊x⌋ + 1
  else if ⌊x⌋ % 2 = 0 then ⌊x⌋ else ⌊x⌋ + 1

/-- `int(x)`: truncation towards zero (convolution_policies.py:35-36). -/
noncomputable def pyInt (x : ℝ) : ℤ := if 0 ≤ x then ⌊x⌋ else ⌈x⌉

/-- An index of numba: negative ones count from the end (no other check is made) (gridding/perleypolyhedron/gridder.py:94-99). -/
def wrap (n : Nat) (i : ℤ) : ℤ := if i < 0 then i + n else i

/-- The arguments `convolution_kernel` (its memory and length), `convolution_kernel_width`, `convolution_kernel_oversampling`
(gridding/perleypolyhedron/gridder.py:13-31). -/
structure Kern where
  mem : ℤ → ℝ
  len : Nat
  W : Nat
  os : Nat

/-- `disc_u` (convolution_policies.py:31-34). -/
noncomputable def disc (npix : Nat) (scaled : ℝ) : ℤ := npRound (scaled + ((npix / 2 : Nat) : ℝ))

/-- `frac_u` (convolution_policies.py:35-36). -/
noncomputable def frac (k : Kern) (npix : Nat) (scaled : ℝ) : ℤ :=
  pyInt ((-(scaled + ((npix / 2 : Nat) : ℝ)) + (disc npix scaled : ℝ)) * (k.os : ℝ))

/-- The tap read by the unpacked policies (convolution_policies.py:39-40, 43-45). -/
noncomputable def unpackedTap (k : Kern) (npix : Nat) (scaled : ℝ) (t : Nat) : ℝ :=
  k.mem (wrap k.len (((t : ℤ) + 1) * k.os + frac k npix scaled))

/-- The tap read by the packed policies (convolution_policies.py:84-85, 98-99, 102-103). -/
noncomputable def packedTap (k : Kern) (npix : Nat) (scaled : ℝ) (t : Nat) : ℝ :=
  k.mem (wrap k.len ((t : ℤ) + (if frac k npix scaled < 0 then 0 else 1) + frac k npix scaled * ((k.W : ℤ) + 2)))

/-- The cell of tap `t` (`grid_v_lookup`, convolution_policies.py:41, 46). -/
noncomputable def lookup (k : Kern) (npix : Nat) (scaled : ℝ) (t : Nat) : ℤ := disc npix scaled + t - ((k.W / 2 : Nat) : ℤ)

/-- The bounds check of the two dimensional policies (convolution_policies.py:47-48). -/
def inGrid (npix : Nat) (gv gu : ℤ) : Prop := 0 ≤ gv ∧ gv < npix ∧ 0 ≤ gu ∧ gu < npix

instance (npix : Nat) (gv gu : ℤ) : Decidable (inGrid npix gv gu) := by unfold inGrid; infer_instance

/-- The address of `gridstack[b, v, u]` for indices that are not negative (gridding/perleypolyhedron/gridder.py:13-116). -/
def cell (npix : Nat) (b : Nat) (v u : ℤ) : ℤ := ((b : ℤ) * npix + v) * npix + u

/-- One iteration of the inner loop of the scatter policies (convolution_policies.py:42-53, 101-112). -/
noncomputable def scatterTap (tap : Kern → Nat → ℝ → Nat → ℝ) (k : Kern) (npix b : Nat) (su sv : ℝ) (val : ℂ) (tv tu : Nat)
    (s : (ℤ → ℂ) × ℝ) : (ℤ → ℂ) × ℝ :=
  let convV := tap k npix sv tv
  let convU := tap k npix su tu
  let gv := lookup k npix sv tv
  let gu := lookup k npix su tu
  (if inGrid npix gv gu then
      Function.update s.1 (cell npix b gv gu) (s.1 (cell npix b gv gu) + ((convV * convU : ℝ) : ℂ) * val)
    else s.1, s.2 + convV * convU)

/-- `convolve_1d_axisymmetric_unpacked_scatter` and `convolve_1d_axisymmetric_packed_scatter` (convolution_policies.py:6-53,
56-112), which differ in `tap`; `val` is the converted visibility, `b` the band of the grid. Returns the grid and `cw`. -/
noncomputable def scatter (tap : Kern → Nat → ℝ → Nat → ℝ) (k : Kern) (npix b : Nat) (su sv : ℝ) (val : ℂ) (grid : ℤ → ℂ) :
    (ℤ → ℂ) × ℝ :=
  forRange k.W (grid, 0) fun tv s => forRange k.W s fun tu s => scatterTap tap k npix b su sv val tv tu s

/-- `convolve_nn_scatter` (convolution_policies.py:115-145). -/
noncomputable def nnScatter (npix b : Nat) (su sv : ℝ) (val : ℂ) (grid : ℤ → ℂ) : (ℤ → ℂ) × ℝ :=
  let a := cell npix b (wrap npix (disc npix sv)) (wrap npix (disc npix su))
  (Function.update grid a (grid a + val), 1)

/-- The scatter policies by name (convolution_policies.py:267-283). The gather policies are refused as well: they convert with
`stokes2corr`, which does not know the names that `corr2stokes` knows. -/
noncomputable def scatterPolicy (name : String) : Except PyErr (Kern → Nat → Nat → ℝ → ℝ → ℂ → (ℤ → ℂ) → (ℤ → ℂ) × ℝ) :=
  if name = "conv_1d_axisymmetric_packed_scatter" then .ok fun k npix b su sv val grid => scatter packedTap k npix b su sv val grid
  else if name = "conv_nn_scatter" then .ok fun _ npix b su sv val grid => nnScatter npix b su sv val grid
  else if name = "conv_1d_axisymmetric_unpacked_scatter" then
    .ok fun k npix b su sv val grid => scatter unpackedTap k npix b su sv val grid
  else .error .valueError

/-- One iteration of the inner loop of the gather policies (convolution_policies.py:194-207, 243-256); the state is
`vis[r, c, :]` and `cw`. -/
noncomputable def gatherTap (tap : Kern → Nat → ℝ → Nat → ℝ) (k : Kern) (npix b : Nat) (su sv : ℝ) (stokes : String)
    (grid : ℤ → ℂ) (tv tu : Nat) (s : (Nat → ℂ) × ℝ) : (Nat → ℂ) × ℝ :=
  let convV := tap k npix sv tv
  let convU := tap k npix su tu
  let gv := lookup k npix sv tv
  let gu := lookup k npix su tu
  if inGrid npix gv gu then
    (okOr s.1 (stokes2corr stokes (grid (cell npix b gv gu) * (convV : ℂ) * (convU : ℂ)) s.1), s.2 + convV * convU)
  else s

/-- `convolve_1d_axisymmetric_packed_gather` and `convolve_1d_axisymmetric_unpacked_gather` (convolution_policies.py:148-208,
211-257). -/
noncomputable def gather (tap : Kern → Nat → ℝ → Nat → ℝ) (k : Kern) (npix b : Nat) (su sv : ℝ) (stokes : String) (grid : ℤ → ℂ)
    (vis : Nat → ℂ) : Nat → ℂ :=
  let s := forRange k.W (vis, (0 : ℝ)) fun tv s => forRange k.W s fun tu s => gatherTap tap k npix b su sv stokes grid tv tu s
  fun i => s.1 i / ((s.2 + 1 / 100000000 : ℝ) : ℂ)

/-- The gather policies by name (convolution_policies.py:267-283); the scatter policies are refused because `corr2stokes` does
not know the names that `stokes2corr` knows. -/
noncomputable def gatherPolicy (name : String) :
    Except PyErr (Kern → Nat → Nat → ℝ → ℝ → String → (ℤ → ℂ) → (Nat → ℂ) → Nat → ℂ) :=
  if name = "conv_1d_axisymmetric_packed_gather" then
    .ok fun k npix b su sv st grid vis => gather packedTap k npix b su sv st grid vis
  else if name = "conv_1d_axisymmetric_unpacked_gather" then
    .ok fun k npix b su sv st grid vis => gather unpackedTap k npix b su sv st grid vis
  else .error .valueError

/-- The arguments shared by `gridder` (gridder.py:13-31) and `degridder` (degridder.py:72-87), apart from the data. `nlam` and
`nmap` are the sizes of `wavelengths` and `chanmap`. Bands are natural numbers (a negative band would count from the end). -/
structure Cfg where
  wavelengths : Nat → ℝ
  nlam : Nat
  chanmap : Nat → Nat
  nmap : Nat
  cellsize : ℝ
  imageCentre : RaDec
  phaseCentre : RaDec
  kern : Kern
  baseline : String
  phase : String
  stokes : String
  conv : String

/-- `scale_factor` (gridder.py:78, degridder.py:142, 240). -/
noncomputable def scaleFactor (npix : Nat) (cellsize : ℝ) : ℝ := npix * cellsize / 3600 * Real.pi / 180

/-- `np.max(chanmap) + 1` (gridder.py:65). -/
def nband (n : Nat) (chanmap : Nat → Nat) : Nat := forRange n 0 fun c m => max m (chanmap c + 1)

/-- The arrays while `gridder` runs: `gridstack`, `wt_ch`, and the caller's `uvw` (three numbers per row) and `vis`
(gridding/perleypolyhedron/gridder.py:13-116). -/
structure GridState where
  grid : ℤ → ℂ
  wt : Nat → ℝ
  uvw : Nat → ℝ
  vis : Nat → Nat → Nat → ℂ

/-- One channel of a row (gridder.py:94-112); `conv` is the convolution policy. -/
noncomputable def gridChan (cfg : Cfg) (conv : Kern → Nat → Nat → ℝ → ℝ → ℂ → (ℤ → ℂ) → (ℤ → ℂ) × ℝ) (npix r c : Nat)
    (s : GridState) : GridState :=
  let su := s.uvw (3 * r) * scaleFactor npix cfg.cellsize / cfg.wavelengths c
  let sv := s.uvw (3 * r + 1) * scaleFactor npix cfg.cellsize / cfg.wavelengths c
  let b := cfg.chanmap c
  let g := conv cfg.kern npix b su sv (okOr 0 (corr2stokes cfg.stokes (s.vis r c))) s.grid
  { s with grid := g.1, wt := Function.update s.wt b (s.wt b + g.2) }

/-- One row (gridder.py:80-112): the phase policy works on `vis[r]`, the baseline policy on `uvw[r]`, both in place. -/
noncomputable def gridRow (cfg : Cfg) (conv : Kern → Nat → Nat → ℝ → ℝ → ℂ → (ℤ → ℂ) → (ℤ → ℂ) × ℝ) (npix nchan r : Nat)
    (s : GridState) : GridState :=
  let v := okOr (s.vis r) (phasePolicy cfg.phase (s.vis r) (s.uvw (3 * r)) (s.uvw (3 * r + 1)) (s.uvw (3 * r + 2)) cfg.wavelengths
    cfg.phaseCentre cfg.imageCentre 1)
  let m := okOr s.uvw (baselinePolicy cfg.baseline s.uvw (3 * r) cfg.phaseCentre cfg.imageCentre)
  forRange nchan { s with vis := Function.update s.vis r v, uvw := m } fun c s => gridChan cfg conv npix r c s

/-- Resolution of the names of the phase and baseline policies (gridding/perleypolyhedron/gridder.py:13-116). -/
noncomputable def resolve (cfg : Cfg) : Except PyErr Unit := do
  let _ ← phasePolicy cfg.phase (fun _ _ => 0) 0 0 0 cfg.wavelengths cfg.phaseCentre cfg.imageCentre 1
  let _ ← baselinePolicy cfg.baseline (fun _ => 0) 0 cfg.phaseCentre cfg.imageCentre
  return ()

/-- `np.zeros((nband, npix, npix))` (gridder.py:75); `junk` is the memory around it. -/
def zeroGrid (npix nb : Nat) (junk : ℤ → ℂ) (a : ℤ) : ℂ := if 0 ≤ a ∧ a < cell npix nb 0 0 then 0 else junk a

/-- The division by the weights (gridder.py:113-115). -/
noncomputable def normaliseGrid (npix nb : Nat) (wt : Nat → ℝ) (grid : ℤ → ℂ) : ℤ → ℂ :=
  forRange nb grid fun b g => fun a =>
    if cell npix b 0 0 ≤ a ∧ a < cell npix (b + 1) 0 0 then g a / ((wt b + 1 / 100000000 : ℝ) : ℂ) else g a

/-- `gridder` (gridder.py:13-116). The shapes of `vis` and `uvw` are `(nrow, nchan, _)` and `(uvwRows, uvwCols)`. Returns the
arrays at the end: the result is `grid`, and the caller's `uvw` and `vis` have been changed to those of the state. `junk` is the
memory around the grid. `np.max` of an empty array raises. -/
noncomputable def gridder (cfg : Cfg) (npix nrow nchan uvwRows uvwCols : Nat) (uvw : Nat → ℝ) (vis : Nat → Nat → Nat → ℂ)
    (normalize : Bool) (junk : ℤ → ℂ) : Except PyErr GridState := do
  let conv ← scatterPolicy cfg.conv
  let _ ← corr2stokes cfg.stokes (fun _ => 0)
  resolve cfg
  if cfg.nmap ≠ cfg.nlam then .error .valueError
  else if cfg.nmap = 0 then .error .valueError
  else if uvwCols ≠ 3 then .error .valueError
  else if uvwRows ≠ nrow then .error .valueError
  else if nchan ≠ cfg.nlam then .error .valueError
  else
    let nb := nband cfg.nmap cfg.chanmap
    let s := forRange nrow { grid := zeroGrid npix nb junk, wt := fun _ => 0, uvw := uvw, vis := vis } fun r s =>
      gridRow cfg conv npix nchan r s
    .ok (if normalize then { s with grid := normaliseGrid npix nb s.wt s.grid } else s)

/-- The arrays while `degridder` runs: the caller's `uvw` and the result `vis` (gridding/perleypolyhedron/degridder.py:72-167). -/
structure DegridState where
  uvw : Nat → ℝ
  vis : Nat → Nat → Nat → ℂ

/-- One channel of `degridder_row_kernel` (degridder.py:43-60). -/
noncomputable def degridChan (cfg : Cfg) (conv : Kern → Nat → Nat → ℝ → ℝ → String → (ℤ → ℂ) → (Nat → ℂ) → Nat → ℂ)
    (npix : Nat) (grid : ℤ → ℂ) (r c : Nat) (s : DegridState) : DegridState :=
  let su := s.uvw (3 * r) * scaleFactor npix cfg.cellsize / cfg.wavelengths c
  let sv := s.uvw (3 * r + 1) * scaleFactor npix cfg.cellsize / cfg.wavelengths c
  let v := conv cfg.kern npix (cfg.chanmap c) su sv cfg.stokes grid (s.vis r c)
  { s with vis := Function.update s.vis r (Function.update (s.vis r) c v) }

/-- `degridder_row_kernel` (degridder.py:16-69). The baseline policy gets the centres in the other order than in `gridRow`, and
the phase policy gets the coordinates that the baseline policy left. -/
noncomputable def degridRow (cfg : Cfg) (conv : Kern → Nat → Nat → ℝ → ℝ → String → (ℤ → ℂ) → (Nat → ℂ) → Nat → ℂ)
    (npix nchan : Nat) (grid : ℤ → ℂ) (r : Nat) (s : DegridState) : DegridState :=
  let m := okOr s.uvw (baselinePolicy cfg.baseline s.uvw (3 * r) cfg.imageCentre cfg.phaseCentre)
  let s1 := forRange nchan { s with uvw := m } fun c s => degridChan cfg conv npix grid r c s
  { s1 with vis := Function.update s1.vis r (okOr (s1.vis r) (phasePolicy cfg.phase (s1.vis r) (s1.uvw (3 * r)) (s1.uvw (3 * r + 1))
      (s1.uvw (3 * r + 2)) cfg.wavelengths cfg.phaseCentre cfg.imageCentre (-1))) }

/-- `degridder` and `degridder_serial` (degridder.py:72-167, 170-265), whose bodies are the same apart from `prange`. The shape
of `gridstack` is `(gb, npix, nx)`; the number of rows is that of `uvw`. Returns `vis` and the changed `uvw`. -/
noncomputable def degridder (cfg : Cfg) (gb npix nx nrow uvwCols : Nat) (uvw : Nat → ℝ) (grid : ℤ → ℂ) : Except PyErr DegridState := do
  let conv ← gatherPolicy cfg.conv
  let _ ← ncorrOut cfg.stokes
  resolve cfg
  if cfg.nmap ≠ cfg.nlam then .error .valueError
  else if cfg.nmap = 0 then .error .valueError
  else if npix ≠ nx then .error .valueError
  else if gb < nband cfg.nmap cfg.chanmap then .error .valueError
  else if uvwCols ≠ 3 then .error .valueError
  else
    .ok (forRange nrow { uvw := uvw, vis := fun _ _ _ => 0 } fun r s => degridRow cfg conv npix cfg.nlam grid r s)

end Verif.Gridding
