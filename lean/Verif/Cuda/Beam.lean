/-
Model of the CUDA version of `beam_cube_dde`: africanus/rime/cuda/beam.py, beam_freq_interp.cu.j2 and beam.cu.j2. Floating
point numbers are real numbers, and the indices of threads do not overflow.
-/
import Verif.Cuda.Machine
import Verif.Rime.ModelBeam

set_option autoImplicit false

namespace Verif.Cuda

open Verif.Rime (bsearch)

/-- `BEAM_NUD_LIMIT` (beam.py:32). -/
def beamNudLimit : Nat := 128

/-! ### the kernel that finds frequencies in the frequencies of the beam -/

/-- The values for one channel (beam_freq_interp.cu.j2:30-80); the loop of lines 35-49 is the same as that of the CPU
version. -/
noncomputable def interpRow (beamFreqs : Int → ℝ) (nud : Nat) (freq : ℝ) : ℝ × ℝ × ℝ :=
  let b := bsearch beamFreqs freq 0 ((nud : Int) - 1)
  let lower := min b.1 b.2
  let upper := lower + 1
  if lower = -1 then (freq / beamFreqs 0, 1, 0)
  else if upper = nud then (freq / beamFreqs ((nud : Int) - 1), 0, (((nud : Int) - 2 : Int) : ℝ))
  else
    let freqLow := beamFreqs lower
    let freqHigh := beamFreqs upper
    (1, (freqHigh - freq) / (freqHigh - freqLow), (lower : ℝ))

/-- The kernel (beam_freq_interp.cu.j2:8-85). Cells of shared memory are those of `beam_freqs`, cells of the output are those
of `freq_data` in order. -/
noncomputable def interpKernel (block : Dim3) (frequencies beamFreqMap : GArr ℝ) : Kernel Nat ℝ Nat ℝ where
  load b t :=
    let chan := b.x * block.x + t.x
    if chan < beamNudLimit then [(t.x, beamFreqMap.flatInt chan)] else []
  body b t sh :=
    let nud := beamFreqMap.shape.getD 0 0
    let nchan := frequencies.shape.getD 0 0
    let chan := b.x * block.x + t.x
    if nchan ≤ chan then []
    else
      let row := interpRow (fun k => sh k.toNat) nud (frequencies.flatInt chan)
      [(0 * nchan + chan, row.1), (1 * nchan + chan, row.2.1), (2 * nchan + chan, row.2.2)]

/-- The block (beam.py:44). -/
def interpBlock : Dim3 := ⟨1024, 1, 1⟩

/-! ### the main kernel -/

/-- The arrays (rime/cuda/beam.py:144-203). -/
structure BeamArgs where
  beam : GArr ℂ
  ext : GArr ℝ
  freqMap : GArr ℝ
  lm : GArr ℝ
  pa : GArr ℝ
  pe : GArr ℝ
  scaling : GArr ℝ
  freq : GArr ℝ

/-- Shared memory (beam.cu.j2:74-83). -/
inductive BeamShared
  | lmExt (k : Nat)
  | lscale
  | mscale
  | paSin (z y : Nat)
  | paCos (z y : Nat)
  | pe (z y chan c : Nat)
  | scaling (y chan c : Nat)
  | freqData (k chan : Nat)
  deriving DecidableEq

/-- `int(x)`: towards zero (rime/cuda/beam.cu.j2:34-35). -/
noncomputable def cInt (x : ℝ) : Int := if 0 ≤ x then ⌊x⌋ else ⌈x⌉

/-- Grid lines and offset along an axis (beam.cu.j2:171-178 and 184-191); `clamp(zero, l, n - 1)` (19) is
`min(n - 1, max(zero, l))`. -/
noncomputable def gridLines (n : Nat) (scale lower v : ℝ) : ℝ × ℝ × ℝ :=
  let v := scale * (v - lower)
  let v := min ((n : ℝ) - 1) (max 0 v)
  let g0 : ℝ := (⌊v⌋ : Int)
  let g1 : ℝ := min (g0 + 1) ((n : ℝ) - 1)
  (g0, g1, v - g0)

/-- `trilinear_interpolate` (beam.cu.j2:22-43); `beam` is the memory from the first element. -/
noncomputable def trilinear (beam : Int → ℂ) (mh nud ncorr corr : Nat) (acc : ℂ × ℝ) (gl gm gchan weight : ℝ) : ℂ × ℝ :=
  let i := Int.bmod (((cInt gl * mh + cInt gm) * nud + cInt gchan) * ncorr + corr) (2 ^ 32)
  let data := beam i
  (⟨acc.1.re + weight * data.re, acc.1.im + weight * data.im⟩,
    acc.2 + weight * Real.sqrt (data.re * data.re + data.im * data.im))

/-- The value for one source (beam.cu.j2:150-275), from what is in shared memory. `rsqrt` of zero is not finite. -/
noncomputable def beamPoint (lw mh nud ncorr corr : Nat) (beam : Int → ℂ) (lscale lowerL mscale lowerM freqScale weight gc0 l m
    pe0 pe1 paSin paCos as0 as1 : ℝ) : ℂ :=
  let rx := l * freqScale
  let ry := m * freqScale
  let tl := rx + pe0
  let tm := ry + pe1
  let l := tl * paCos - tm * paSin
  let m := tl * paSin + tm * paCos
  let pl := gridLines lw lscale lowerL (l * as0)
  let gl0 := pl.1; let gl1 := pl.2.1; let ld := pl.2.2
  let pm := gridLines mh mscale lowerM (m * as1)
  let gm0 := pm.1; let gm1 := pm.2.1; let md := pm.2.2
  let acc : ℂ × ℝ := (⟨0, 0⟩, 0)
  let acc := trilinear beam mh nud ncorr corr acc gl0 gm0 gc0 ((1 - ld) * (1 - md) * weight)
  let acc := trilinear beam mh nud ncorr corr acc gl1 gm0 gc0 (ld * (1 - md) * weight)
  let acc := trilinear beam mh nud ncorr corr acc gl0 gm1 gc0 ((1 - ld) * md * weight)
  let acc := trilinear beam mh nud ncorr corr acc gl1 gm1 gc0 (ld * md * weight)
  let inv := 1 - weight
  let gc1 := gc0 + 1
  let acc := trilinear beam mh nud ncorr corr acc gl0 gm0 gc1 ((1 - ld) * (1 - md) * inv)
  let acc := trilinear beam mh nud ncorr corr acc gl1 gm0 gc1 (ld * (1 - md) * inv)
  let acc := trilinear beam mh nud ncorr corr acc gl0 gm1 gc1 ((1 - ld) * md * inv)
  let acc := trilinear beam mh nud ncorr corr acc gl1 gm1 gc1 (ld * md * inv)
  let square := acc.1.re * acc.1.re + acc.1.im * acc.1.im
  let norm : ℝ := if square = 0 then 1 else 1 / Real.sqrt square
  ⟨acc.1.re * (norm * acc.2), acc.1.im * (norm * acc.2)⟩

/-- `_corr_shifter` (beam.py:69). -/
def corrShift (ncorr : Nat) : Option Nat :=
  if ncorr = 4 then some 2 else if ncorr = 2 then some 1 else if ncorr = 1 then some 0 else none

/-- The guard (beam.cu.j2:71-72). -/
def beamOutside (a : BeamArgs) (ncorr time ant chancorr : Nat) : Bool :=
  a.pa.shape.getD 0 0 ≤ time || a.pa.shape.getD 1 0 ≤ ant || a.freq.shape.getD 0 0 * ncorr ≤ chancorr

/-- The kernel (beam.cu.j2:46-280). The first step is lines 96-97; a warp runs its threads in step, so that lines 109-110 see what
the threads of the same warp wrote there. Cells of the output are those of `ddes` in order; numbers assigned to the `int i`
are reduced to 32 bits. -/
noncomputable def beamKernel (block : Dim3) (ncorr shift : Nat) (a : BeamArgs) (freqData : Nat → ℝ) :
    Kernel2 BeamShared ℝ Int ℂ where
  first b t :=
    let time := b.z * block.z + t.z
    let ant := b.y * block.y + t.y
    let chancorr := b.x * block.x + t.x
    if beamOutside a ncorr time ant chancorr then []
    else if t.x < 4 then [(.lmExt t.x, a.ext.flatInt t.x)] else []
  rest mid :=
    { load := fun b t =>
        let lw := a.beam.shape.getD 0 0
        let mh := a.beam.shape.getD 1 0
        let na := a.pa.shape.getD 1 0
        let nchan := a.freq.shape.getD 0 0
        let time := b.z * block.z + t.z
        let ant := b.y * block.y + t.y
        let chancorr := b.x * block.x + t.x
        let threadChan := t.x >>> shift
        let threadCorr := t.x &&& (ncorr - 1)
        if beamOutside a ncorr time ant chancorr then []
        else
          (if t.z = 0 ∧ t.y = 0 ∧ t.x = 0 then
            [(.lscale, ((lw : ℝ) - 1) / (mid b (.lmExt 1) - mid b (.lmExt 0))),
             (.mscale, ((mh : ℝ) - 1) / (mid b (.lmExt 3) - mid b (.lmExt 2)))] else []) ++
          (if threadCorr = 0 then
            let i := 2 * ((time * na + ant) * nchan + chancorr >>> shift)
            [(.pe t.z t.y threadChan 0, a.pe.vecInt (wrap32 i) 0), (.pe t.z t.y threadChan 1, a.pe.vecInt (wrap32 i) 1)]
          else []) ++
          (if t.z = 0 ∧ threadCorr = 0 then
            let i := 2 * (ant * nchan + chancorr >>> shift)
            [(.scaling t.y threadChan 0, a.scaling.vecInt (wrap32 i) 0),
             (.scaling t.y threadChan 1, a.scaling.vecInt (wrap32 i) 1)]
          else []) ++
          (if t.x = 0 then
            let pa := a.pa.flatInt (wrap32 (time * na + ant))
            [(.paSin t.z t.y, Real.sin pa), (.paCos t.z t.y, Real.cos pa)] else []) ++
          (if t.z = 0 ∧ t.y = 0 ∧ threadCorr = 0 then
            [(.freqData 0 threadChan, freqData (0 * nchan + chancorr >>> shift)),
             (.freqData 1 threadChan, freqData (1 * nchan + chancorr >>> shift)),
             (.freqData 2 threadChan, freqData (2 * nchan + chancorr >>> shift))] else [])
      body := fun b t sh =>
        let lw := a.beam.shape.getD 0 0
        let mh := a.beam.shape.getD 1 0
        let nud := a.beam.shape.getD 2 0
        let ntime := a.pa.shape.getD 0 0
        let na := a.pa.shape.getD 1 0
        let nchan := a.freq.shape.getD 0 0
        let nsrc := a.lm.shape.getD 0 0
        let time := b.z * block.z + t.z
        let ant := b.y * block.y + t.y
        let chancorr := b.x * block.x + t.x
        let threadChan := t.x >>> shift
        let threadCorr := t.x &&& (ncorr - 1)
        if beamOutside a ncorr time ant chancorr then []
        else (List.range nsrc).map fun s =>
          (wrap32 (((s * ntime + time) * na + ant) * (nchan * ncorr) + chancorr),
            beamPoint lw mh nud ncorr threadCorr (fun k => a.beam.mem (a.beam.base + k))
              (sh .lscale) (sh (.lmExt 0)) (sh .mscale) (sh (.lmExt 2))
              (sh (.freqData 0 threadChan)) (sh (.freqData 1 threadChan)) (sh (.freqData 2 threadChan))
              (a.lm.vecInt (wrap32 (2 * s)) 0) (a.lm.vecInt (wrap32 (2 * s)) 1)
              (sh (.pe t.z t.y threadChan 0)) (sh (.pe t.z t.y threadChan 1))
              (sh (.paSin t.z t.y)) (sh (.paCos t.z t.y))
              (sh (.scaling t.y threadChan 0)) (sh (.scaling t.y threadChan 1))) }

/-- Types of the beam (rime/cuda/beam.py:72-141). -/
inductive BeamType
  | complex64
  | complex128
  | other
  deriving DecidableEq

/-- The block (beam.py:89-94). -/
def beamBlock (dtype : BeamType) : Except PyErr Dim3 :=
  match dtype with
  | .complex64 => .ok ⟨32, 32, 1⟩
  | .complex128 => .ok ⟨32, 16, 1⟩
  | .other => .error .typeError

/-- `_generate_main_kernel` (beam.py:72-141): block and shift. A kernel generated earlier for arrays of the same types is found
by `memoize_on_key` without running the body, so that the extents of the beam (78-82), which are not part of the key (58-64),
are not looked at; errors are not memoized. -/
def generateMain (generated : Bool) (dtype : BeamType) (lw mh nud ncorr : Nat) : Except PyErr (Dim3 × Nat) := do
  if generated = false ∧ (lw < 2 ∨ mh < 2 ∨ nud < 2) then .error .valueError
  else
    let block ← beamBlock dtype
    match corrShift ncorr with
    | none => .error .valueError
    | some shift => .ok (block, shift)

/-- The beam with one axis of correlations (beam.py:162-166). -/
def flatBeam (beam : GArr ℂ) : GArr ℂ :=
  let corrs := beam.shape.drop 3
  if 1 < corrs.length then beam.reshape (beam.shape.take 3 ++ [size corrs]) else beam

/-- Possible results of `beam_cube_dde` (beam.py:144-203); `generated` says whether a kernel for arrays of these types has been
generated before. -/
def BeamGpu (generated : Bool) (dtype : BeamType) (a : BeamArgs) (r : Except PyErr (GArr ℂ)) : Prop :=
  let corrs := a.beam.shape.drop 3
  if beamNudLimit ≤ a.beam.shape.getD 2 0 then r = .error .valueError
  else
    let nsrc := a.lm.shape.getD 0 0
    let ntime := a.pa.shape.getD 0 0
    let na := a.pa.shape.getD 1 0
    let nchan := a.freq.shape.getD 0 0
    let ncorr := size corrs
    let fbeam := flatBeam a.beam
    match generateMain generated dtype (fbeam.shape.getD 0 0) (fbeam.shape.getD 1 0) (fbeam.shape.getD 2 0) ncorr with
    | .error e => r = .error e
    | .ok (block, shift) =>
      ∃ fd, LaunchOver (interpKernel interpBlock a.freq a.freqMap) ⟨nchan, 1, 1⟩ interpBlock fd ∧
        match fd with
        | .error e => r = .error e
        | .ok freqData =>
          ∃ out, LaunchOver2 (beamKernel block ncorr shift { a with beam := fbeam } freqData) ⟨nchan * ncorr, na, ntime⟩ block
              out ∧
            r = out.map (GArr.dense ([nsrc, ntime, na, nchan] ++ corrs))

end Verif.Cuda
