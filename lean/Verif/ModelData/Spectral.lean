/-
Model of africanus/model/spectral/spec_model.py, model/wsclean/spec_model.py, model/shape/gaussian_shape.py and
model/spi/component_spi.py.

Floating point numbers are real numbers; `np.log` and powers are only meaningful for positive arguments (numpy returns
nan otherwise) and theorems assume it. Polarisation axes are flattened as the code does. Loops that assign every cell of
a fresh array once, from inputs only, are written as functions of the cell's indices.
-/
import Verif.Loops
import Verif.Rime.ModelTerms
import Mathlib.Analysis.SpecialFunctions.Pow.Real

set_option autoImplicit false

namespace Verif.ModelData

/-! ### spectral_model -/

/-- One value of the `base` argument. numba lists are homogeneous: all integers or all strings. -/
inductive BaseVal
  | int (i : Int)
  | str (s : String)
  deriving DecidableEq

/-- The `base` argument: a value, a list of values, or anything else. -/
inductive Base
  | scalar (b : BaseVal)
  | list (l : List BaseVal)
  | other

/-- The three spectral models. -/
inductive Kind
  | std | log | log10
  deriving DecidableEq

/-- `is_std`, `is_log`, `is_log10` and the final `else` (model/spectral/spec_model.py:110-134, 164-208). -/
def classify : BaseVal → Except PyErr Kind
  | .int i => if i = 0 then .ok .std else if i = 1 then .ok .log else if i = 2 then .ok .log10 else .error .valueError
  | .str s =>
    if s = "std" then .ok .std else if s = "log" then .ok .log else if s = "log10" then .ok .log10
    else .error .valueError

/-- `promote_base` (model/spectral/spec_model.py:74-82); `base[-1]` of an empty list is an `IndexError`. -/
def promoteBase (npol : Nat) : Base → Except PyErr (List BaseVal)
  | .scalar b => .ok (List.replicate npol b)
  | .list l => match l.getLast? with
    | none => .error .indexError
    | some b => .ok (l ++ List.replicate (npol - l.length) b)
  | .other => .error .typeError

/-- The sequence of `if` tests over the polarisations (model/spectral/spec_model.py:164-208). -/
def kindsOf : List BaseVal → Except PyErr (List Kind)
  | [] => .ok []
  | b :: l => match classify b with
    | .error e => .error e
    | .ok k => match kindsOf l with
      | .error e => .error e
      | .ok ks => .ok (k :: ks)

/-- `np.log10`. -/
noncomputable def log10 (x : ℝ) : ℝ := Real.log x / Real.log 10

/-- One cell (model/spectral/spec_model.py:165-205). -/
noncomputable def specCell (k : Kind) (stokes : ℝ) (nspi : Nat) (spi : Nat → ℝ) (rf freq : ℝ) : ℝ :=
  match k with
  | .std =>
    let freqRatio := freq / rf
    forRange nspi stokes fun si specModel => specModel * freqRatio ^ (spi si)
  | .log =>
    let freqRatio := Real.log (freq / rf)
    Real.exp (forRange nspi (Real.log stokes) fun si specModel => specModel + spi si * freqRatio ^ (si + 1))
  | .log10 =>
    let freqRatio := log10 (freq / rf)
    (10 : ℝ) ^ (forRange nspi (log10 stokes) fun si specModel => specModel + spi si * freqRatio ^ (si + 1))

/-- The loop over polarisations (model/spectral/spec_model.py:164-208). -/
noncomputable def spectralLoop (npol nspi : Nat) (stokes : Nat → Nat → ℝ) (spi : Nat → Nat → Nat → ℝ)
    (refFreq freq : Nat → ℝ) (listBase : List BaseVal) : Except PyErr (Nat → Nat → Nat → ℝ) :=
  match kindsOf (listBase.take npol) with
  | .error e => .error e
  | .ok ks => .ok fun s f p =>
    specCell (ks.getD p .std) (stokes s p) nspi (fun si => spi s si p) (refFreq s) (freq f)

/-- `spectral_model` (model/spectral/spec_model.py:96-213). `sdims`, `pdims` are the polarisation axes of `stokes` and
`spi`; the result is indexed by source, channel and flattened polarisation. -/
noncomputable def spectralModel (sdims pdims : List Nat) (nspi : Nat) (stokes : Nat → Nat → ℝ)
    (spi : Nat → Nat → Nat → ℝ) (refFreq freq : Nat → ℝ) (base : Base) : Except PyErr (Nat → Nat → Nat → ℝ) :=
  match base with
  | .other => .error .typeError
  | base =>
    if pdims.length ≠ sdims.length then .error .valueError
    else
      let npol := sdims.prod
      if npol ≠ pdims.prod then .error .valueError
      else
        match promoteBase npol base with
        | .error e => .error e
        | .ok listBase => spectralLoop npol nspi stokes spi refFreq freq listBase

/-- One cell of `numpy_spectral_model` (model/spectral/spec_model.py:35-51). -/
noncomputable def npSpecCell (k : Kind) (stokes : ℝ) (nspi : Nat) (spi : Nat → ℝ) (rf freq : ℝ) : ℝ :=
  match k with
  | .std => stokes * ((List.range nspi).map fun si => (freq / rf) ^ (spi si)).prod
  | .log => Real.exp (Real.log stokes + ((List.range nspi).map fun si => spi si * Real.log (freq / rf) ^ (si + 1)).sum)
  | .log10 =>
    (10 : ℝ) ^ (log10 stokes + ((List.range nspi).map fun si => spi si * log10 (freq / rf) ^ (si + 1)).sum)

/-- `numpy_spectral_model` (model/spectral/spec_model.py:11-55) for at most one polarisation axis (the function handles
no more): no `[:npol]` slice, a longer list of bases indexes outside the polarisation axis. -/
noncomputable def numpySpectralModel (npol nspi : Nat) (stokes : Nat → Nat → ℝ) (spi : Nat → Nat → Nat → ℝ)
    (refFreq freq : Nat → ℝ) (base : Base) : Except PyErr (Nat → Nat → Nat → ℝ) :=
  match promoteBase npol base with
  | .error e => .error e
  | .ok listBase =>
    match kindsOf (listBase.take npol) with
    | .error e => .error e
    | .ok ks =>
      if npol < listBase.length then
        -- the first superfluous base is classified, then indexes out of range
        match (listBase[npol]?).map classify with
        | some (.error e) => .error e
        | _ => .error .indexError
      else .ok fun s f p =>
        npSpecCell (ks.getD p .std) (stokes s p) nspi (fun si => spi s si p) (refFreq s) (freq f)

/-! ### wsclean spectra -/

/-- The `log_poly` argument: an array with its length, a boolean, or anything else. -/
inductive LogPoly
  | array (n : Nat) (l : Nat → Bool)
  | scalar (b : Bool)
  | other

/-- `_log_polynomial` (model/wsclean/spec_model.py:46-57). -/
def LogPoly.at (lp : LogPoly) (s : Nat) : Bool := match lp with
  | .array _ l => l s
  | .scalar b => b
  | .other => false

/-- `_check_log_poly_shape` (model/wsclean/spec_model.py:31-43). -/
def LogPoly.badShape (lp : LogPoly) (nC : Nat) : Bool := match lp with
  | .array n _ => nC != n
  | .scalar _ => false
  | .other => true

/-- The coefficient loop of a logarithmic source (model/wsclean/spec_model.py:94-102). -/
noncomputable def logTerms (ncoeffs : Nat) (coeffs : Nat → ℝ) (nu rf init : ℝ) : Except PyErr ℝ :=
  forRangeM ncoeffs init fun c acc =>
    let term := coeffs c
    if term ≤ 0 then .error .valueError
    else .ok (acc + term * Real.log (nu / rf) ^ (c + 1))

/-- One cell of a logarithmic source (model/wsclean/spec_model.py:83-104). -/
noncomputable def logCell (flux : ℝ) (ncoeffs : Nat) (coeffs : Nat → ℝ) (nu rf : ℝ) : Except PyErr ℝ :=
  if flux ≤ 0 then .error .valueError
  else match logTerms ncoeffs coeffs nu rf (Real.log flux) with
    | .error e => .error e
    | .ok v => .ok (Real.exp v)

/-- One cell of an ordinary source (model/wsclean/spec_model.py:106-115). -/
noncomputable def ordCell (flux : ℝ) (ncoeffs : Nat) (coeffs : Nat → ℝ) (nu rf : ℝ) : ℝ :=
  forRange ncoeffs flux fun c acc => acc + coeffs c * (nu / rf - 1) ^ (c + 1)

/-- The loop over channels of one source (model/wsclean/spec_model.py:80-115). -/
noncomputable def spectraSource (lp : Bool) (flux : ℝ) (ncoeffs : Nat) (coeffs : Nat → ℝ) (rf : ℝ) (nchan : Nat)
    (freq : Nat → ℝ) (row : Nat → ℝ) : Except PyErr (Nat → ℝ) :=
  forRangeM nchan row fun f row =>
    if lp then
      match logCell flux ncoeffs coeffs (freq f) rf with
      | .error e => .error e
      | .ok v => .ok (Function.update row f v)
    else .ok (Function.update row f (ordCell flux ncoeffs coeffs (freq f) rf))

/-- `spectra` (model/wsclean/spec_model.py:60-119); `nI`, `nC`, `nR` are the first dimensions of `I`, `coeffs` and
`ref_freq`. Anything but an array or boolean for `log_poly` fails at compilation. -/
noncomputable def spectra (nI nC nR nchan ncoeffs : Nat) (flux : Nat → ℝ) (coeffs : Nat → Nat → ℝ) (lp : LogPoly)
    (refFreq freq : Nat → ℝ) (empty : Nat → Nat → ℝ) : Except PyErr (Nat → Nat → ℝ) :=
  match lp with
  | .other => .error .valueError
  | lp =>
    if ¬ (nI = nC ∧ nC = nR) then .error .valueError
    else if lp.badShape nC then .error .valueError
    else forRangeM nI empty fun s out =>
      match spectraSource (lp.at s) (flux s) ncoeffs (coeffs s) (refFreq s) nchan freq (out s) with
      | .error e => .error e
      | .ok row => .ok (Function.update out s row)

/-- `log_spectral_model` (model/wsclean/spec_model.py:19-28), one cell of a source with `log_poly` true. -/
noncomputable def npLogCell (flux : ℝ) (ncoeffs : Nat) (coeffs : Nat → ℝ) (nu rf : ℝ) : ℝ :=
  Real.exp (Real.log flux + ((List.range ncoeffs).map fun c => coeffs c * Real.log (nu / rf) ^ (c + 1)).sum)

/-! ### gaussian shapes -/

/-- One cell of `gaussian` (model/shape/gaussian_shape.py:12-52). -/
noncomputable def gaussianShape (u v _w freq emaj emin angle : ℝ) : ℝ :=
  let scaledFreq := freq * Rime.gaussScale
  let el := emaj * Real.sin angle
  let em := emaj * Real.cos angle
  let er := emin / (if emaj = 0 then 1 else emaj)
  let u1 := (u * em - v * el) * er
  let v1 := u * el + v * em
  let fu1 := u1 * scaledFreq
  let fv1 := v1 * scaledFreq
  Real.exp (-(fu1 * fu1 + fv1 * fv1))

/-! ### spectral index fits -/

/-- The sums over channels (component_spi.py:30-42). -/
structure Sums where
  lik : ℝ
  jr0 : ℝ
  jr1 : ℝ
  hess00 : ℝ
  hess01 : ℝ
  hess11 : ℝ

/-- `jac[1, v]` (component_spi.py:26). -/
noncomputable def jac1 (beam w : Nat → ℝ) (alpha : ℝ) (v : Nat) : ℝ := beam v * (w v) ^ alpha

/-- `jac[0, v]` (component_spi.py:27-28). -/
noncomputable def jac0 (beam w : Nat → ℝ) (alpha i0 : ℝ) (v : Nat) : ℝ := i0 * jac1 beam w alpha v * Real.log (w v)

/-- `residual[v]` (component_spi.py:29). -/
noncomputable def residual (data beam w : Nat → ℝ) (alpha i0 : ℝ) (v : Nat) : ℝ := data v - i0 * jac1 beam w alpha v

/-- The channel loop (component_spi.py:30-42). -/
noncomputable def sums (n : Nat) (data weights beam w : Nat → ℝ) (alpha i0 : ℝ) : Sums :=
  forRange n ⟨0, 0, 0, 0, 0, 0⟩ fun v s =>
    let r := residual data beam w alpha i0 v
    let j0 := jac0 beam w alpha i0 v
    let j1 := jac1 beam w alpha v
    { lik := s.lik + r * weights v * r
      jr0 := s.jr0 + j0 * weights v * r
      jr1 := s.jr1 + j1 * weights v * r
      hess00 := s.hess00 + j0 * weights v * j0
      hess01 := s.hess01 + j0 * weights v * j1
      hess11 := s.hess11 + j1 * weights v * j1 }

/-- `det` (component_spi.py:43). -/
noncomputable def detOf (s : Sums) (mindet : ℝ) : ℝ := max (s.hess00 * s.hess11 - s.hess01 ^ 2) mindet

/-- New `alphak` (component_spi.py:44). -/
noncomputable def stepAlpha (s : Sums) (mindet alpha : ℝ) : ℝ :=
  alpha + (s.hess11 * s.jr0 - s.hess01 * s.jr1) / detOf s mindet

/-- New `i0k` (component_spi.py:45). -/
noncomputable def stepI0 (s : Sums) (mindet i0 : ℝ) : ℝ :=
  i0 + (-s.hess01 * s.jr0 + s.hess00 * s.jr1) / detOf s mindet

/-- Loop variables; `last` holds what the last iteration assigned, if there was one. -/
structure FitState where
  eps : ℝ
  k : Nat
  alpha : ℝ
  i0 : ℝ
  last : Option Sums

/-- The body of the `while` loop (component_spi.py:24-47). -/
noncomputable def fitStep (n : Nat) (data weights beam w : Nat → ℝ) (mindet : ℝ) (s : FitState) : FitState :=
  let su := sums n data weights beam w s.alpha s.i0
  let alpha := stepAlpha su mindet s.alpha
  let i0 := stepI0 su mindet s.i0
  { eps := max |alpha - s.alpha| |i0 - s.i0|
    k := s.k + 1
    alpha := alpha
    i0 := i0
    last := some su }

/-- `while eps > tol and k < maxiter` (component_spi.py:23): the first argument counts the iterations left. -/
noncomputable def fitLoop (n : Nat) (data weights beam w : Nat → ℝ) (mindet tol : ℝ) : Nat → FitState → FitState
  | 0, s => s
  | left + 1, s =>
    open Classical in
    if s.eps > tol then fitLoop n data weights beam w mindet tol left (fitStep n data weights beam w mindet s) else s

/-- One component of the result: `(alpha, var alpha, I0, var I0)`. -/
structure FitOut where
  alpha : ℝ
  alphaVar : ℝ
  i0 : ℝ
  i0Var : ℝ

/-- One component (component_spi.py:17-53). Without an iteration `hess11`, `det` and `lik` have no value; `lik/dof` with
two channels divides by an integer zero. -/
noncomputable def fitComponent (n : Nat) (data weights freqs : Nat → ℝ) (freq0 : ℝ) (beam : Nat → ℝ) (alpha0 i00 : ℝ)
    (tol : ℝ) (maxiter : Nat) (mindet : ℝ) : Except PyErr FitOut :=
  let w := fun v => freqs v / freq0
  let dof : Int := (n : Int) - 2
  let s := fitLoop n data weights beam w mindet tol maxiter ⟨1, 0, alpha0, i00, none⟩
  match s.last with
  | none => .error .unboundLocalError
  | some su =>
    if dof = 0 then .error .zeroDivisionError
    else .ok
      { alpha := s.alpha
        alphaVar := su.hess11 / detOf su mindet * su.lik / dof
        i0 := s.i0
        i0Var := su.hess00 / detOf su mindet * su.lik / dof }

/-- `ref_freq_idx`: the first channel whose distance to `freq0` is minimal (component_spi.py:72-75), `n > 0`. -/
noncomputable def refFreqIdx (n : Nat) (freqs : Nat → ℝ) (freq0 : ℝ) : Nat :=
  forRange n 0 fun v best => open Classical in if |freqs v - freq0| < |freqs best - freq0| then v else best

/-- `fit_spi_components` for one component (component_spi.py:57-86): defaults for the starting point, then the fit.
`float64` says which of the two supported types the data have; `none` is any other. -/
noncomputable def fitSpi (n : Nat) (data weights freqs : Nat → ℝ) (freq0 : ℝ) (alphai i0i : Option ℝ)
    (beam : Option (Nat → ℝ)) (tol : ℝ) (maxiter : Nat) (float64 : Option Bool) : Except PyErr FitOut :=
  let beam := beam.getD fun _ => 1
  let alpha0 := alphai.getD (-7 / 10)
  let idx := refFreqIdx n freqs freq0
  let i00 := i0i.getD (data idx / beam idx)
  match float64 with
  | none => .error .valueError
  | some b =>
    fitComponent n data weights freqs freq0 beam alpha0 i00 tol maxiter (if b then 1 / 10 ^ 12 else 1 / 10 ^ 5)

end Verif.ModelData
