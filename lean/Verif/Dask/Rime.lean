/-
Model of africanus/rime/dask.py, on top of the models of phase.py, feeds.py, transform.py, fast_beam_cubes.py,
zernike.py and parangles.py.
-/
import Verif.Dask.Coords
import Verif.Rime.ModelTerms
import Verif.Rime.ModelBeam
import Verif.Rime.ModelZernike

set_option autoImplicit false

namespace Verif.Dask

open Verif.Rime

/-! ### the numpy functions on arrays -/

/-- `phase_delay` on arrays (rime/phase.py:12-52): `l, m = lm[source]` and `u, v, w = uvw[row]` check the lengths, once a
source, or a source and a row, are reached. -/
noncomputable def npPhaseDelay (lm uvw frequency : NArr ℝ) (convention : String) : Except PyErr (NArr ℂ) :=
  match lm.shape, uvw.shape, frequency.shape with
  | [ns, c], [nr, d], [nf] =>
    match phaseDelay lm.pair uvw.triple (fun f => frequency.val [f]) convention with
    | .error e => .error e
    | .ok k =>
      if 0 < ns ∧ c ≠ 2 then .error .valueError
      else if 0 < ns ∧ 0 < nr ∧ d ≠ 3 then .error .valueError
      else .ok ⟨[ns, nr, nf], fun i => match i with
        | [s, r, f] => k s r f
        | _ => 0⟩
  | _, _, _ => .error .typeError

/-- The entry of a 2x2 matrix at two array indices (rime/feeds.py:13-48). -/
def entry {R : Type*} [Zero R] (m : Matrix (Fin 2) (Fin 2) R) (p q : Nat) : R :=
  if h : p < 2 ∧ q < 2 then m ⟨p, h.1⟩ ⟨q, h.2⟩ else 0

/-- `feed_rotation` on arrays (rime/feeds.py:51-72): the matrices of the flattened angles, in the shape of the angles.
`reduce(mul, ())` of an array without axes raises `TypeError`. `floating` says if the angles are float32 or float64. -/
noncomputable def npFeedRotation (pa : NArr ℝ) (floating : Bool) (feedType : String) : Except PyErr (NArr ℂ) :=
  if feedType ≠ "linear" ∧ feedType ≠ "circular" then .error .valueError
  else if floating = false then .error .valueError
  else if pa.shape = [] then .error .typeError
  else .ok ⟨pa.shape ++ [2, 2], fun i =>
    match feedRotation (pa.val (i.take pa.shape.length)) feedType with
    | .ok m => entry m (i.getD pa.shape.length 0) (i.getD (pa.shape.length + 1) 0)
    | .error _ => 0⟩

/-- `transform_sources` on arrays (rime/transform.py:46-96): two assertions on the shapes; `l, m = lm[s]` checks the
length once a source is reached. `antenna_scaling` is read at every antenna. -/
noncomputable def npTransformSources (lm pa pe scaling frequency : NArr ℝ) : Except PyErr (NArr ℝ) :=
  match lm.shape, pa.shape, scaling.shape, frequency.shape with
  | [ns, c], [nt, na], [_, nc], [nf] =>
    if pe.shape ≠ [nt, na, 2] then .error .assertionError
    else if nc ≠ nf then .error .assertionError
    else if 0 < ns ∧ 0 < nt ∧ 0 < na ∧ c ≠ 2 then .error .valueError
    else .ok ⟨[3, ns, nt, na, nc], fun i => match i with
      | [k, s, t, a, ch] =>
        let x := transformSource (lm.pair s).1 (lm.pair s).2 (pa.val [t, a]) (pe.val [t, a, 0]) (pe.val [t, a, 1])
          (scaling.val [a, ch]) (frequency.val [ch])
        if k = 0 then x.1 else if k = 1 then x.2.1 else x.2.2
      | _ => 0⟩
  | _, _, _, _ => .error .valueError

/-- `beam_cube_dde` on arrays (rime/fast_beam_cubes.py:58-235), any number of correlation axes. The components of
`beam_lm_extents`, `lm`, `point_errors` and `antenna_scaling` are two each: nothing is said of other lengths. -/
noncomputable def npBeamCubeDde (beam : NArr ℂ) (ext freqMap lm pa pe scaling frequency : NArr ℝ) :
    Except PyErr (NArr ℂ) :=
  match beam.shape, lm.shape, pa.shape, frequency.shape with
  | lw :: mh :: nud :: corrs, [ns, _], [nt, na], [nf] =>
    if lw < 2 ∨ mh < 2 ∨ nud < 2 then .error .valueError
    else .ok ⟨[ns, nt, na, nf] ++ corrs, fun i => match i with
      | s :: t :: a :: f :: co =>
        beamValue (beamRead lw mh nud ((ext.val [0, 0], ext.val [0, 1]), (ext.val [1, 0], ext.val [1, 1]))
          (fun k => freqMap.val [k.toNat]) (lm.pair s).1 (lm.pair s).2 (pa.val [t, a])
          (pe.val [t, a, f, 0]) (pe.val [t, a, f, 1]) (scaling.val [a, f, 0]) (scaling.val [a, f, 1]) (frequency.val [f]))
          fun x y z => beam.val (x.toNat :: y.toNat :: z.toNat :: co)
      | _ => 0⟩
  | _, _, _, _ => .error .typeError

/-- `zernike_dde` on arrays (rime/zernike.py:60-102), any number of correlation axes. Without one, `np.product(())` is the
float 1.0 and `np.empty` raises `TypeError`. `reshape` is taken to demand the documented shapes (it compares sizes only).
`l, m, freq = coords[:, s, t, a, c]` checks the length once a cell is reached. The polynomials raise nothing
(`C43_dde`). -/
noncomputable def npZernikeDde (arctan2 : ℝ → ℝ → ℝ) (coords : NArr ℝ) (coeffs : NArr ℂ) (nollIndex : NArr Nat) :
    Except PyErr (NArr ℂ) :=
  match coords.shape with
  | [d, ns, nt, na, nc] =>
    let corr := (coeffs.shape.drop 2).dropLast
    let npoly := coeffs.shape.getLastD 0
    if corr = [] then .error .typeError
    else if coeffs.shape ≠ [na, nc] ++ corr ++ [npoly] then .error .valueError
    else if nollIndex.shape ≠ [na, nc] ++ corr ++ [npoly] then .error .valueError
    else if 0 < ns ∧ 0 < nt ∧ 0 < na ∧ 0 < nc ∧ d ≠ 3 then .error .valueError
    else .ok ⟨[ns, nt, na, nc] ++ corr, fun i => match i with
      | s :: t :: a :: c :: co =>
        match zernikeDde arctan2 (coords.val [0, s, t, a, c]) (coords.val [1, s, t, a, c]) npoly
          (fun p => coeffs.val (a :: c :: (co ++ [p]))) (fun p => nollIndex.val (a :: c :: (co ++ [p]))) with
        | .ok z => z
        | .error _ => 0
      | _ => 0⟩
  | _ => .error .valueError

/-- `parallactic_angles` (rime/parangles.py:23-75). `casa` and `astropy` compute one angle per time and antenna from the
time, the position and the field centre: `angle` stands for both libraries. Their result for no times is an array with one
axis. -/
noncomputable def npParallacticAngles (angle : String → ℝ → ℝ × ℝ × ℝ → ℝ × ℝ → ℝ) (times pos fc : NArr ℝ)
    (backend : String) : Except PyErr (NArr ℝ) :=
  if backend ∉ ["casa", "astropy", "test"] then .error .valueError
  else if fc.shape ≠ [2] then .error .valueError
  else match times.shape, pos.shape with
    | [nt], [na, c] =>
      if backend = "test" then
        .ok ⟨[nt, na], fun i => match i with
          | [t, a] => times.val [t] * ∑ k ∈ Finset.range c, pos.val [a, k]
          | _ => 0⟩
      else if c ≠ 3 then .error .typeError
      else .ok ⟨if nt = 0 then [0] else [nt, na], fun i => match i with
        | [t, a] => angle backend (times.val [t]) (pos.triple a) (fc.val [0], fc.val [1])
        | _ => 0⟩
    | _, _ => .error .valueError

/-! ### the dask wrappers -/

/-- A label of rime/dask.py:30-170. -/
def lRow : Label := .name "row"
/-- A label of rime/dask.py:30-170. -/
def lChan : Label := .name "chan"
/-- A label of rime/dask.py:30-170. -/
def lTime : Label := .name "time"
/-- A label of rime/dask.py:30-170. -/
def lAnt : Label := .name "ant"
/-- A label of rime/dask.py:30-170. -/
def lLmc : Label := .name "(l,m)"
/-- A label of rime/dask.py:30-170. -/
def lUvwc : Label := .name "(u,v,w)"

/-- `phase_delay` (rime/dask.py:30-42). -/
noncomputable def daskPhaseDelay (lm uvw frequency : DArr ℝ) (convention : String) : Except PyErr (Lazy ℂ) :=
  blockwise [lSource, lRow, lChan] []
    [lm.arg [lSource, lLmc], uvw.arg [lRow, lUvwc], frequency.arg [lChan]] fun env out => do
    npPhaseDelay (← (fetch env lm [lSource, lLmc] out).firsts 1) (← (fetch env uvw [lRow, lUvwc] out).firsts 1)
      (← (fetch env frequency [lChan] out).firsts 0) convention

/-- A label of rime/dask.py:30-170. -/
def lXyz : Label := .name "xyz"
/-- A label of rime/dask.py:30-170. -/
def lFc : Label := .name "fc"

/-- `parallactic_angles` (rime/dask.py:45-57). -/
noncomputable def daskParallacticAngles (angle : String → ℝ → ℝ × ℝ × ℝ → ℝ × ℝ → ℝ) (times pos fc : DArr ℝ)
    (backend : String) : Except PyErr (Lazy ℝ) :=
  blockwise [lTime, lAnt] [] [times.arg [lTime], pos.arg [lAnt, lXyz], fc.arg [lFc]] fun env out => do
    npParallacticAngles angle (← (fetch env times [lTime] out).firsts 0) (← (fetch env pos [lAnt, lXyz] out).firsts 1)
      (← (fetch env fc [lFc] out).firsts 1) backend

/-- `tuple("name-%d" % i for i in range(n))` (rime/dask.py:62, 133, 160). -/
def numberedLabels (name : String) (n : Nat) : List Label := (List.range n).map (Label.numbered name)

/-- A label of rime/dask.py:30-170. -/
def lCorr1 : Label := .numbered "corr" 1
/-- A label of rime/dask.py:30-170. -/
def lCorr2 : Label := .numbered "corr" 2

/-- `feed_rotation` (rime/dask.py:60-77). -/
noncomputable def daskFeedRotation (pa : DArr ℝ) (floating : Bool) (feedType : String) : Except PyErr (Lazy ℂ) :=
  let paDims := numberedLabels "pa" pa.chunks.length
  if floating = false then .error .valueError
  else blockwise (paDims ++ [lCorr1, lCorr2]) [(lCorr1, 2), (lCorr2, 2)] [pa.arg paDims] fun env out => do
    npFeedRotation (← (fetch env pa paDims out).firsts 0) floating feedType

/-- A label of rime/dask.py:30-170. -/
def lComp : Label := .name "comp"
/-- A label of rime/dask.py:30-170. -/
def lSrc : Label := .name "src"

/-- `transform_sources` (rime/dask.py:80-104). -/
noncomputable def daskTransformSources (lm pa pe scaling frequency : DArr ℝ) : Except PyErr (Lazy ℝ) :=
  blockwise [lComp, lSrc, lTime, lAnt, lChan] [(lComp, 3)]
    [lm.arg [lSrc, lLm], pa.arg [lTime, lAnt], pe.arg [lTime, lAnt, lLm], scaling.arg [lAnt, lChan],
      frequency.arg [lChan]] fun env out => do
    npTransformSources (← (fetch env lm [lSrc, lLm] out).firsts 1) (← (fetch env pa [lTime, lAnt] out).firsts 0)
      (← (fetch env pe [lTime, lAnt, lLm] out).firsts 1) (← (fetch env scaling [lAnt, lChan] out).firsts 0)
      (← (fetch env frequency [lChan] out).firsts 0)

/-- A label of rime/dask.py:30-170. -/
def lLw : Label := .name "beam-lw"
/-- A label of rime/dask.py:30-170. -/
def lMh : Label := .name "beam-mh"
/-- A label of rime/dask.py:30-170. -/
def lNud : Label := .name "beam-nud"
/-- A label of rime/dask.py:30-170. -/
def lBeamLm : Label := .name "beam-lm"
/-- A label of rime/dask.py:30-170. -/
def lBeamExt : Label := .name "beam-ext"
/-- A label of rime/dask.py:30-170. -/
def lSourceComp : Label := .name "source-comp"
/-- A label of rime/dask.py:30-170. -/
def lPtComp : Label := .name "pt-comp"
/-- A label of rime/dask.py:30-170. -/
def lScaleComp : Label := .name "scale-comp"

/-- `all(len(c) == 1 for c in x.chunks)` (rime/dask.py:123-130). -/
def DArr.oneBlock {α : Type*} (d : DArr α) : Bool := d.chunks.all fun c => c.length = 1

/-- `beam_cube_dde` (rime/dask.py:107-147). -/
noncomputable def daskBeamCubeDde (beam : DArr ℂ) (ext freqMap lm pa pe scaling frequency : DArr ℝ) :
    Except PyErr (Lazy ℂ) :=
  if beam.oneBlock = false then .error .valueError
  else if freqMap.oneBlock = false then .error .valueError
  else if ext.oneBlock = false then .error .valueError
  else
    let corrDims := numberedLabels "corr" (beam.chunks.drop 3).length
    let beamDims := [lLw, lMh, lNud] ++ corrDims
    blockwise ([lSource, lTime, lAnt, lChan] ++ corrDims) []
      [beam.arg beamDims, ext.arg [lBeamLm, lBeamExt], freqMap.arg [lNud], lm.arg [lSource, lSourceComp],
        pa.arg [lTime, lAnt], pe.arg [lTime, lAnt, lChan, lPtComp], scaling.arg [lAnt, lChan, lScaleComp],
        frequency.arg [lChan]] fun env out => do
      npBeamCubeDde (← (fetch env beam beamDims out).firsts 3) (← (fetch env ext [lBeamLm, lBeamExt] out).firsts 2)
        (← (fetch env freqMap [lNud] out).firsts 1) (← (fetch env lm [lSource, lSourceComp] out).firsts 1)
        (← (fetch env pa [lTime, lAnt] out).firsts 0) (← (fetch env pe [lTime, lAnt, lChan, lPtComp] out).firsts 1)
        (← (fetch env scaling [lAnt, lChan, lScaleComp] out).firsts 1) (← (fetch env frequency [lChan] out).firsts 0)

/-- A label of rime/dask.py:30-170. -/
def lThree : Label := .name "three"
/-- A label of rime/dask.py:30-170. -/
def lPoly : Label := .name "poly"

/-- `zernike_dde` (rime/dask.py:150-170). -/
noncomputable def daskZernikeDde (arctan2 : ℝ → ℝ → ℝ) (coords : DArr ℝ) (coeffs : DArr ℂ) (nollIndex : DArr Nat) :
    Except PyErr (Lazy ℂ) :=
  let corrDims := numberedLabels "corr" (coeffs.chunks.drop 2).dropLast.length
  let coordDims := [lThree, lSource, lTime, lAnt, lChan]
  let coeffDims := [lAnt, lChan] ++ corrDims ++ [lPoly]
  blockwise ([lSource, lTime, lAnt, lChan] ++ corrDims) []
    [coords.arg coordDims, coeffs.arg coeffDims, nollIndex.arg coeffDims] fun env out => do
    npZernikeDde arctan2 (← (fetch env coords coordDims out).firsts 1) (← (fetch env coeffs coeffDims out).firsts 1)
      (← (fetch env nollIndex coeffDims out).firsts 1)

end Verif.Dask
