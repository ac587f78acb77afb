/-
Model of the CUDA version of `predict_vis`: africanus/rime/cuda/predict.py and predict.cu.j2. Floating point numbers are
real numbers.

The threads of a warp exchange values with `__shfl_sync`. A variable of the kernel is modelled as a register: a value for
every lane of the warp. A row of a block is a warp, as blocks are 32 threads wide. The model assumes that a shuffle
returns the register of the lane that is asked for when that lane takes part; the mask that the code passes, 31, names
fewer lanes than take part (predict.cu.j2:99, 141), which the CUDA manual does not allow.
-/
import Verif.Cuda.Machine
import Verif.Util.Cycles
import Verif.Rime.Model
import Mathlib.Data.Complex.Basic

set_option autoImplicit false

namespace Verif.Cuda

/-! ### Jones multiplication -/

/-- A variable of the kernel, in every lane of a warp (rime/cuda/predict.cu.j2:264-285). -/
abbrev Reg := Nat → ℂ

/-- `(a+bi)(c+di)` (predict.cu.j2:105-109, 123-124, 190-196). -/
def cmul (a b : ℂ) : ℂ := ⟨a.re * b.re - a.im * b.im, a.re * b.im + a.im * b.re⟩

/-- `(a+bi)conj(c+di)` (predict.cu.j2:148-152, 168-170). -/
def cmulConj (a b : ℂ) : ℂ := ⟨a.re * b.re + a.im * b.im, -a.re * b.im + a.im * b.re⟩

/-- The same for one or two correlations (predict.cu.j2:199-210). -/
def cmulConj' (a b : ℂ) : ℂ := ⟨a.re * b.re + a.im * b.im, a.im * b.re - a.re * b.im⟩

/-- `base_vis_idx` and `is_odd_corr` (predict.cu.j2:96-97). -/
def baseIdx (lane : Nat) : Nat := 4 * (lane / 4)
/-- Rime/cuda/predict.cu.j2:97. -/
def isOdd (lane : Nat) : Nat := lane % 2

/-- `multiply`, four correlations (predict.cu.j2:89-127). -/
noncomputable def multiply4 (J K : Reg) : Reg :=
  let shflK : Reg := Util.Cycles.shfl 32 K fun l => baseIdx l + 1 + isOdd l
  let sum : Reg := fun l => cmul (J l) (shflK l)
  let sum : Reg := Util.Cycles.shfl 32 sum fun l => l + 1 - 2 * isOdd l
  let shflK : Reg := Util.Cycles.shfl 32 K fun l => baseIdx l + 3 * isOdd l
  fun l => sum l + cmul (J l) (shflK l)

/-- `multiply_conjugate_transpose`, four correlations (predict.cu.j2:132-173). -/
noncomputable def multiplyConj4 (J K : Reg) : Reg :=
  let shflK : Reg := Util.Cycles.shfl 32 K fun l => baseIdx l + 1 + (if isOdd l = 0 then 1 else 0)
  let sum : Reg := fun l => cmulConj (J l) (shflK l)
  let sum : Reg := Util.Cycles.shfl 32 sum fun l => l + 1 - 2 * isOdd l
  let shflK : Reg := Util.Cycles.shfl 32 K fun l => baseIdx l + 3 * isOdd l
  fun l => sum l + cmulConj (J l) (shflK l)

/-- `JM::multiply`: the specialisations for four, and for two or one correlations (predict.cu.j2:70-248). -/
noncomputable def jmMultiply (corrs : Nat) (J K : Reg) : Reg :=
  if corrs = 4 then multiply4 J K else fun l => cmul (J l) (K l)

/-- `JM::multiply_conjugate_transpose` (rime/cuda/predict.cu.j2:132-247). -/
noncomputable def jmMultiplyConj (corrs : Nat) (J K : Reg) : Reg :=
  if corrs = 4 then multiplyConj4 J K else fun l => cmulConj' (J l) (K l)

/-! ### the kernel -/

/-- The arrays given to `predict_vis`; both terms of a pair or none, see `predictChecks` of Verif/Rime/Model.lean
(rime/cuda/predict.py:104-198). -/
structure GTerms where
  dde : Option (GArr ℂ × GArr ℂ)
  coh : Option (GArr ℂ)
  die : Option (GArr ℂ × GArr ℂ)
  bvis : Option (GArr ℂ)

/-- The extents that the template takes from the arrays (predict.cu.j2:40-61): times, antennas and channels from the first of
the direction dependent terms, the direction independent terms and the coherencies that is given, sources from the direction
dependent terms or the coherencies. -/
structure Extents where
  nsrc : Nat
  ntime : Nat
  na : Nat
  nchan : Nat

/-- predict.cu.j2:40-61. With base visibilities only, `nchan` is not defined, and the generated text is not a program:
`CompileException`. -/
def extentsOf (x : GTerms) : Except PyErr Extents :=
  let nsrc := match x.dde, x.coh with
    | some (d, _), _ => d.shape.getD 0 0
    | none, some c => c.shape.getD 0 0
    | none, none => 0
  match x.dde, x.die, x.coh with
  | some (d, _), _, _ => .ok ⟨nsrc, d.shape.getD 1 0, d.shape.getD 2 0, d.shape.getD 3 0⟩
  | none, some (g, _), _ => .ok ⟨nsrc, g.shape.getD 0 0, g.shape.getD 1 0, g.shape.getD 2 0⟩
  | none, none, some c => .ok ⟨nsrc, 0, 0, c.shape.getD 2 0⟩
  | none, none, none => .error .compileException

/-- The register `corr` after the loop over sources (predict.cu.j2:280-346) and the multiplications by the direction
independent terms (333-352), for a warp; `load f` is the register that `f` is read into. The indices of the arrays are
`int`s. -/
noncomputable def predictWarp (corrs nrow : Nat) (e : Extents) (x : GTerms) (time ant1 ant2 : Nat) (row : Nat)
    (load : (Nat → ℂ) → Reg) : Reg :=
  let ncorrchan := e.nchan * corrs
  let corr : Reg := match x.bvis with
    | some b => load fun cc => b.flatInt (wrap32 (row * ncorrchan + cc))
    | none => fun _ => 0
  let corr : Reg := match x.dde, x.coh with
    | some (d1, d2), some c => forRange e.nsrc corr fun src corr =>
        let coherency := load fun cc => d1.flatInt (wrap32 (((src * e.ntime + time) * e.na + ant1) * ncorrchan + cc))
        let cohTerm := load fun cc => c.flatInt (wrap32 ((src * nrow + row) * ncorrchan + cc))
        let coherency := jmMultiply corrs coherency cohTerm
        let dde2Term := load fun cc => d2.flatInt (wrap32 (((src * e.ntime + time) * e.na + ant2) * ncorrchan + cc))
        let coherency := jmMultiplyConj corrs coherency dde2Term
        fun l => corr l + coherency l
    | some (d1, d2), none => forRange e.nsrc corr fun src corr =>
        let coherency := load fun cc => d1.flatInt (wrap32 (((src * e.ntime + time) * e.na + ant1) * ncorrchan + cc))
        let dde2Term := load fun cc => d2.flatInt (wrap32 (((src * e.ntime + time) * e.na + ant2) * ncorrchan + cc))
        let coherency := jmMultiplyConj corrs coherency dde2Term
        fun l => corr l + coherency l
    | none, some c => forRange e.nsrc corr fun src corr =>
        let coherency := load fun cc => c.flatInt (wrap32 ((src * nrow + row) * ncorrchan + cc))
        fun l => corr l + coherency l
    | none, none => corr
  match x.die with
  | some (g1, g2) =>
    let die2Term := load fun cc => g2.flatInt (wrap32 ((time * e.na + ant2) * ncorrchan + cc))
    let corr := jmMultiplyConj corrs corr die2Term
    let die1Term := load fun cc => g1.flatInt (wrap32 ((time * e.na + ant1) * ncorrchan + cc))
    jmMultiply corrs die1Term corr
  | none => corr

/-- The kernel (predict.cu.j2:260-349). Lanes whose thread has returned hold arbitrary values, `junk`. An output cell is the
number that indexes the output. -/
noncomputable def predictKernel (block : Dim3) (junk : Dim3 → Nat → ℂ) (corrs nrow : Nat) (e : Extents) (x : GTerms)
    (time ant1 ant2 : Nat → Nat) : Kernel Empty ℂ Int ℂ where
  load _ _ := []
  body b t _ :=
    let row := b.y * block.y + t.y
    let corrchan := b.x * block.x + t.x
    let ncorrchan := e.nchan * corrs
    if nrow ≤ row || ncorrchan ≤ corrchan then []
    else
      let load : (Nat → ℂ) → Reg := fun f l =>
        if b.x * block.x + l < ncorrchan then f (b.x * block.x + l) else junk b l
      [(wrap32 (row * ncorrchan + corrchan),
        predictWarp corrs nrow e x (time row) (ant1 row) (ant2 row) row load t.x)]

/-! ### the host -/

/-- `a.reshape(a.shape[:-2] + (flat_corrs,))` (predict.py:138-153). -/
def flattenCorrs (flatCorrs : Nat) (a : GArr ℂ) : GArr ℂ :=
  a.reshape (a.shape.take (a.shape.length - 2) ++ [flatCorrs])

/-- The extents of channels and correlations (predict.py:110-130). -/
def inferShape (x : GTerms) : Except PyErr (Nat × List Nat) :=
  match x.dde, x.coh, x.die, x.bvis with
  | some (d, _), _, _, _ => .ok (d.shape.getD 3 0, d.shape.drop 4)
  | none, some c, _, _ => .ok (c.shape.getD 2 0, c.shape.drop 3)
  | none, none, some (g, _), _ => .ok (g.shape.getD 2 0, g.shape.drop 3)
  | none, none, none, some b => .ok (b.shape.getD 1 0, b.shape.drop 2)
  | none, none, none, none => .error .valueError

/-- Two axes of correlations become one (predict.py:132-160). Only reshapes that keep the number of elements are modelled. -/
def flattenAll (corrs : List Nat) (x : GTerms) : Except PyErr (Nat × GTerms) :=
  match corrs with
  | [a, b] =>
    let f := flattenCorrs (a * b)
    .ok (a * b, ⟨x.dde.map fun d => (f d.1, f d.2), x.coh.map f, x.die.map fun g => (f g.1, f g.2), x.bvis.map f⟩)
  | [a] => .ok (a, x)
  | _ => .error .valueError

/-- The numbers of axes, for `predict_checks` (rime/predict.py:349-427). -/
def ndims (x : GTerms) : Rime.Six Nat where
  dde1 := x.dde.map fun d => d.1.shape.length
  coh := x.coh.map fun c => c.shape.length
  dde2 := x.dde.map fun d => d.2.shape.length
  die1 := x.die.map fun g => g.1.shape.length
  bvis := x.bvis.map fun b => b.shape.length
  die2 := x.die.map fun g => g.2.shape.length

/-- What `predict_vis` computes before the launch (rime/cuda/predict.py:104-198). -/
structure Plan where
  chan : Nat
  corrs : Nat
  extents : Extents
  terms : GTerms
  tmin : Nat

/-- `predict_vis` before the launch (predict.py:104-198): `int32` says that the three index arrays have that type, `none` that
they do not. There is a multiplication for one, two and four correlations only, which matters when there is anything to
multiply: `CompileException` otherwise. -/
def predictPlan (int32 : Bool) (nrow : Nat) (time : Nat → Nat) (x : GTerms) : Except PyErr Plan := do
  let (chan, corrs) ← inferShape x
  let (flatCorrs, x) ← flattenAll corrs x
  let _ ← Rime.predictChecks (ndims x)
  if !int32 then throw .typeError
  let tmin ← Rime.timeMin nrow time
  let e ← extentsOf x
  if (x.dde.isSome || x.die.isSome) && !(flatCorrs = 1 || flatCorrs = 2 || flatCorrs = 4) then throw .compileException
  pure ⟨chan, flatCorrs, e, x, tmin⟩

/-- The block (predict.py:71-73): `single` says that the output has type `complex64`. -/
def predictBlock (single : Bool) : Dim3 := ⟨32, if single then 32 else 24, 1⟩

/-- Possible results of `predict_vis` (predict.py:104-198). -/
def PredictGpu (single int32 : Bool) (nrow : Nat) (time ant1 ant2 : Nat → Nat) (x : GTerms)
    (r : Except PyErr (Int → ℂ)) : Prop :=
  match predictPlan int32 nrow time x with
  | .error e => r = .error e
  | .ok p => ∃ junk, LaunchOver
      (predictKernel (predictBlock single) junk p.corrs nrow p.extents p.terms (fun r => time r - p.tmin) ant1 ant2)
      ⟨p.chan * p.corrs, nrow, 1⟩ (predictBlock single) r

/-- Element `[r, f, c]` of the output, whose extents are `(row, chan, ncorr)`, or `[r, f, c / 2, c % 2]` of
`out.reshape((row, chan, 2, 2))` (predict.py:198). -/
def visElement (nchan ncorr : Nat) (out : Int → ℂ) (r f c : Nat) : ℂ := out ((r * nchan + f) * ncorr + c : Nat)

end Verif.Cuda
