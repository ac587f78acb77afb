/-
C130: the element types that Dask arrays declare are those of their blocks and those of NumPy's results.
C131: `infer_complex_dtype` finds the least complex type.
C132: the functions for the GPU return the types of those for the CPU, and use C types and functions of the right types.
-/
import Verif.Types.Lemmas

set_option autoImplicit false

namespace Verif.Types

open DT

/-! ## C131 -/

/-- C131: whatever arrays are given, in whatever order, the type is complex, every argument can be cast to it safely, and
it can itself be cast to every other complex type with that property. -/
theorem C131_least (haveDask : Bool) (args : List Arg) (ds : List DT) (h : args.map Arg.type = ds.map some)
    (hd : haveDask = true ∨ ∀ d, Arg.daskArray d ∉ args) :
    ∃ d, inferComplexDtype haveDask args = .ok d ∧ d.isComplex = true ∧ (∀ a ∈ ds, canCast a d = true) ∧
      ∀ e, e.isComplex = true → (∀ a ∈ ds, canCast a e = true) → canCast d e = true := by
  refine ⟨inexact (ds.any needsDouble) true, ?_, inexact_isComplex _ _, ?_, ?_⟩
  · unfold inferComplexDtype
    rw [mapM_types haveDask args ds h hd]
    show Except.ok _ = _
    rw [foldl_inexact ds (d := complex64) rfl]
    rfl
  · intro a ha
    rw [canCast_inexact]
    cases hn : a.needsDouble
    · simp
    · have : ds.any needsDouble = true := List.any_eq_true.2 ⟨a, ha, hn⟩
      simp [this]
  · intro e he hall
    have hee : e = inexact e.needsDouble true := by
      revert he
      cases e <;> decide
    rw [hee, canCast_inexact, inexact_needsDouble, inexact_isComplex]
    cases hany : ds.any needsDouble
    · simp
    · obtain ⟨a, ha, hn⟩ := List.any_eq_true.1 hany
      have := hall a ha
      rw [hee, canCast_inexact, hn] at this
      simpa using this

/-- C131: the type does not depend on the order of the arguments, nor on which kinds of arrays they are. -/
theorem C131_order (args args' : List Arg) (ds ds' : List DT) (h : args.map Arg.type = ds.map some)
    (h' : args'.map Arg.type = ds'.map some) (hp : ∀ d, d ∈ ds ↔ d ∈ ds') :
    inferComplexDtype true args = inferComplexDtype true args' := by
  obtain ⟨d, e, c, m, l⟩ := C131_least true args ds h (Or.inl rfl)
  obtain ⟨d', e', c', m', l'⟩ := C131_least true args' ds' h' (Or.inl rfl)
  rw [e, e', canCast_antisymm (l d' c' fun a ha => m' a ((hp a).1 ha)) (l' d c fun a ha => m a ((hp a).2 ha))]

/-- C131: an argument that is not an array raises `ValueError`. -/
theorem C131_error (args : List Arg) (h : Arg.other ∈ args) : inferComplexDtype true args = .error .valueError := by
  have gen : args.mapM (numpyDtype true) = .error .valueError := by
    induction args with
    | nil => cases h
    | cons a as ih =>
      rw [List.mapM_cons]
      cases a with
      | other => rfl
      | ndarray d | numbaArray d | daskArray d =>
        have hm : Arg.other ∈ as := by simpa using h
        rw [ih hm]
        rfl
  unfold inferComplexDtype
  rw [gen]
  rfl

example : inferComplexDtype true [.ndarray float32, .numbaArray int16, .daskArray bool] = .ok complex64 := rfl
example : inferComplexDtype true [.ndarray float32, .ndarray int32] = .ok complex128 := rfl
example : inferComplexDtype true [.ndarray float32, .other] = .error .valueError := rfl

/-! ## C130 -/

/-- C130, the functions whose types are right for all types of arguments: `phase_delay`, `feed_rotation`,
`transform_sources`, `gaussian`, `corrupt_vis`, `correct_vis` and `residual_vis`. The phases are complex and have double
precision when an argument needs it. -/
theorem C130_agree (a b c : DT) (dtype : Option DT) :
    (Agree (phaseDelayDeclared a b c) (phaseDelayArray a b c) (phaseDelayArray a b c) ∧
      ∃ d, phaseDelayDeclared a b c = .ok d ∧ Covers [complex64, a, b, c] d) ∧
    Agree (feedRotationDeclared a) (feedRotationArray a) (feedRotationArray a) ∧
    Agree (.ok (transformSourcesDeclared dtype)) (.ok (transformSourcesBlock dtype))
      (.ok (transformSourcesArray dtype)) ∧
    Agree (gaussianDeclared a b c) (gaussianArray a b c) (gaussianArray a b c) ∧
    Agree (.ok (corruptVisDeclared a b)) (.ok (corruptVisArray a b)) (.ok (corruptVisArray a b)) ∧
    Agree (.ok (correctVisDeclared a b)) (.ok (correctVisArray a b)) (.ok (correctVisArray a b)) := by
  have hp : phaseDelayDeclared a b c = phaseDelayArray a b c := rfl
  refine ⟨⟨⟨hp, hp⟩, ([a, b, c] : List DT).foldl promote complex64, rfl, ?_⟩, ⟨rfl, rfl⟩, ?_, ⟨rfl, rfl⟩, ⟨rfl, rfl⟩,
    ⟨rfl, rfl⟩⟩
  · rw [covers_iff, foldl_inexact _ (d := complex64) rfl]
    rfl
  · cases dtype <;> exact ⟨rfl, rfl⟩

example : phaseDelayDeclared float32 float32 float64 = .ok complex128 := rfl
example : feedRotationDeclared int32 = .error .valueError := rfl

/-- C130 for `spectral_model`: the types are right exactly when the other arguments can be cast to the type of the Stokes
parameters. Missing: the other types. -/
theorem C130_spectral_model_partial (stokes spi refFreq frequency : DT) :
    Agree (spectralModelDeclared stokes spi refFreq frequency) (spectralModelArray stokes spi refFreq frequency)
        (spectralModelArray stokes spi refFreq frequency) ↔
      canCast spi stokes = true ∧ canCast refFreq stokes = true ∧ canCast frequency stokes = true := by
  have key : spectralModelDeclared stokes spi refFreq frequency = spectralModelArray stokes spi refFreq frequency ↔
      ∀ x ∈ [spi, refFreq, frequency], canCast x stokes = true := by
    rw [← foldl_eq_iff]
    constructor
    · intro h
      exact (Except.ok.inj h).symm
    · intro h
      exact congrArg Except.ok h.symm
  constructor
  · intro h
    have := key.1 h.numpy
    simpa using this
  · rintro ⟨h1, h2, h3⟩
    have := key.2 (by simp [h1, h2, h3])
    exact ⟨this, this⟩

/-- C130 fails for `spectral_model`: single precision Stokes parameters and frequencies in double precision. -/
theorem C130_spectral_model_violated :
    spectralModelDeclared float32 float32 float64 float64 = .ok float32 ∧
      spectralModelArray float32 float32 float64 float64 = .ok float64 := ⟨rfl, rfl⟩

example : spectralModelArray float64 float32 float64 float64 = spectralModelDeclared float64 float32 float64 float64 :=
  rfl

/-- C130 for the spectra of WSClean models, as for `spectral_model`. Missing: the other types. -/
theorem C130_spectra_partial (stokes coeffs refFreq frequency : DT) :
    Agree (spectraDeclared stokes coeffs refFreq frequency) (spectraArray stokes coeffs refFreq frequency)
        (spectraArray stokes coeffs refFreq frequency) ↔
      canCast coeffs stokes = true ∧ canCast refFreq stokes = true ∧ canCast frequency stokes = true :=
  C130_spectral_model_partial stokes coeffs refFreq frequency

/-- C130 fails for the spectra of WSClean models. -/
theorem C130_spectra_violated :
    spectraDeclared float32 float64 float32 float32 = .ok float32 ∧
      spectraArray float32 float64 float32 float32 = .ok float64 := ⟨rfl, rfl⟩

/-- C130 for `wsclean_predict` with floating point arguments and a boolean `log_poly`: the visibilities are complex, and
of double precision when an argument is. -/
theorem C130_wsclean_predict (a : WscleanArgs) (hlog : a.logPoly = .bool)
    (h : ∀ d ∈ [a.uvw, a.lm, a.flux, a.coeffs, a.refFreq, a.frequency], d.isInexact = true) :
    Agree (wscleanPredictDeclared a) (wscleanPredictBlock a) (wscleanPredictArray a) ∧
      ∃ d, wscleanPredictDeclared a = .ok d ∧
        Covers [complex64, a.uvw, a.lm, a.flux, a.coeffs, a.refFreq, a.frequency] d := by
  obtain ⟨uvw, lm, flux, coeffs, logPoly, refFreq, frequency⟩ := a
  simp only at hlog h
  subst hlog
  simp only [List.forall_mem_cons] at h
  obtain ⟨h1, h2, h3, h4, h5, h6, -⟩ := h
  have e1 : resultType [flux, coeffs, .bool, refFreq, frequency]
      = .ok (inexact (flux.needsDouble || [coeffs, .bool, refFreq, frequency].any needsDouble)
          (flux.isComplex || [coeffs, .bool, refFreq, frequency].any DT.isComplex)) :=
    congrArg Except.ok (foldl_inexact _ h3)
  have hd : wscleanPredictDeclared ⟨uvw, lm, flux, coeffs, .bool, refFreq, frequency⟩
      = .ok (inexact ([complex64, uvw, lm, flux, coeffs, refFreq, frequency].any needsDouble)
          ([complex64, uvw, lm, flux, coeffs, refFreq, frequency].any DT.isComplex)) := by
    unfold wscleanPredictDeclared
    simp only [e1]
    show Except.ok (DT.sumType (List.foldl promote uvw _)) = _
    rw [foldl_inexact _ h1, sumType_inexact (inexact_isInexact _ _)]
    simp only [List.any_cons, List.any_nil, inexact_needsDouble, inexact_isComplex]
    have z1 : DT.needsDouble .bool = false := rfl
    have z2 : DT.isComplex .bool = false := rfl
    have z3 : DT.needsDouble complex64 = false := rfl
    have z4 : DT.isComplex complex64 = true := rfl
    simp only [z1, z2, z3, z4]
    congr 2
    · cases uvw.needsDouble <;> cases lm.needsDouble <;> cases flux.needsDouble <;> cases coeffs.needsDouble <;>
        cases refFreq.needsDouble <;> cases frequency.needsDouble <;> rfl
    · simp
  have ha : wscleanPredictArray ⟨uvw, lm, flux, coeffs, .bool, refFreq, frequency⟩
      = .ok (inexact ([complex64, uvw, lm, flux, coeffs, refFreq, frequency].any needsDouble)
          ([complex64, uvw, lm, flux, coeffs, refFreq, frequency].any DT.isComplex)) := by
    show Except.ok (List.foldl promote complex64 _) = _
    rw [foldl_inexact _ (d := complex64) rfl]
    rfl
  exact ⟨⟨rfl, hd.trans ha.symm⟩, _, hd, (covers_iff _ _).2 rfl⟩

example : wscleanPredictDeclared ⟨float32, float32, float32, float32, .bool, float64, float32⟩ = .ok complex128 :=
  rfl

/-- C130 for `compute_and_corrupt_vis` and `compute_jhr`: the types are right exactly when the gains and the model have the
same type. Missing: different types. -/
theorem C130_gains_partial (jones model : DT) :
    (Agree (.ok (computeAndCorruptVisDeclared jones model)) (.ok (computeAndCorruptVisArray jones model))
        (.ok (computeAndCorruptVisArray jones model)) ↔ jones = model) ∧
    (Agree (.ok (computeJhrDeclared jones model)) (.ok (computeJhrArray jones model))
        (.ok (computeJhrArray jones model)) ↔ jones = model) := by
  have key : ∀ {x y : DT}, Agree (.ok x) (.ok y) (.ok y) ↔ y = x := fun {x y} =>
    ⟨fun h => (Except.ok.inj h.numpy).symm, fun h => by subst h; exact ⟨rfl, rfl⟩⟩
  exact ⟨key, key⟩

/-- C130 fails for `compute_and_corrupt_vis` and `compute_jhr`. -/
theorem C130_gains_violated :
    computeAndCorruptVisDeclared complex128 complex64 = complex64 ∧
      computeAndCorruptVisArray complex128 complex64 = complex128 ∧
      computeJhrDeclared complex128 complex64 = complex64 ∧ computeJhrArray complex128 complex64 = complex128 := by decide

/-- C130 fails for `compute_jhj` with every complex model: the declared type is complex and the computed one is not. -/
theorem C130_jhj_violated (jones model : DT) (h : model.isComplex = true) :
    (computeJhjDeclared jones model).isComplex = true ∧ (computeJhjArray jones model).isComplex = false := by
  refine ⟨h, ?_⟩
  cases jones <;> rfl

example : computeJhjArray complex128 complex128 = float64 := rfl

/-- C130 for `im_to_vis`: what is declared is what is computed. NumPy's function gives the same type when the type is an
argument; otherwise exactly when an argument needs double precision. Missing: NumPy's type in the other cases. -/
theorem C130_im_to_vis_partial (image uvw lm frequency : DT) (dtype : Option DT) :
    imToVisDeclared image uvw lm frequency dtype = imToVisBlock image uvw lm frequency dtype ∧
    (imToVisDeclared image uvw lm frequency dtype = imToVisArray image uvw lm frequency dtype ↔
      (dtype.isSome = true ∨ ∃ a ∈ [image, uvw, lm, frequency], a.needsDouble = true)) := by
  refine ⟨rfl, ?_⟩
  cases dtype with
  | some d => simp [imToVisDeclared, imToVisArray]
  | none =>
    have e : imToVisArray image uvw lm frequency none
        = .ok (inexact ([image, uvw, lm, frequency].any needsDouble) true) := by
      show Except.ok (List.foldl promote complex64 _) = _
      rw [foldl_inexact _ (d := complex64) rfl]
      rfl
    rw [e]
    have d : imToVisDeclared image uvw lm frequency none = .ok (inexact true true) := rfl
    rw [d]
    cases hh : [image, uvw, lm, frequency].any needsDouble
    · have hn : ¬ ∃ a ∈ [image, uvw, lm, frequency], a.needsDouble = true := by
        rw [← List.any_eq_true, hh]; decide
      simp only [hn, or_false]
      constructor
      · intro h; exact absurd (Except.ok.inj h) (by decide)
      · intro h; exact absurd h (by decide)
    · have hy : ∃ a ∈ [image, uvw, lm, frequency], a.needsDouble = true := List.any_eq_true.1 hh
      simp only [hy, or_true]

/-- C130 fails for `im_to_vis` in single precision without a type. -/
theorem C130_im_to_vis_violated :
    imToVisDeclared float32 float32 float32 float32 none = .ok complex128 ∧
      imToVisArray float32 float32 float32 float32 none = .ok complex64 := ⟨rfl, rfl⟩

/-- C130 for `vis_to_im` with floating point types: what is declared is what is computed. NumPy's function gives the same
type when the type is an argument; otherwise exactly when an argument needs double precision. Missing: NumPy's type in the
other cases. -/
theorem C130_vis_to_im_partial (vis uvw lm frequency : DT) (dtype : Option DT) (hdt : ∀ d ∈ dtype, d.isInexact = true)
    (hv : vis.isInexact = true) (hr : ∀ d ∈ [uvw, lm, frequency], d.isComplex = false) :
    visToImDeclared vis uvw lm frequency dtype = visToImBlock vis uvw lm frequency dtype ∧
    (visToImDeclared vis uvw lm frequency dtype = visToImArray vis uvw lm frequency dtype ↔
      (dtype.isSome = true ∨ ∃ a ∈ [vis, uvw, lm, frequency], a.needsDouble = true)) := by
  refine ⟨rfl, ?_⟩
  cases dtype with
  | some d =>
    have hs : d.sumType = d := sumType_inexact (hdt d rfl)
    simp [visToImDeclared, visToImArray, hs]
  | none =>
    have hvr : vis.realOf.isInexact = true := by
      revert hv; cases vis <;> decide
    have hvn : vis.realOf.needsDouble = vis.needsDouble := by cases vis <;> rfl
    have hvc : vis.realOf.isComplex = false := by cases vis <;> rfl
    have hc : [uvw, lm, frequency].any DT.isComplex = false := by
      rw [List.any_eq_false]
      intro d hd
      rw [hr d hd]; decide
    have e : visToImArray vis uvw lm frequency none
        = .ok (inexact ([vis, uvw, lm, frequency].any needsDouble) false) := by
      show Except.ok (List.foldl promote vis.realOf _) = _
      rw [foldl_inexact _ hvr, hvn, hvc, hc]
      rfl
    rw [e]
    have d : visToImDeclared vis uvw lm frequency none = .ok (inexact true false) := rfl
    rw [d]
    cases hh : [vis, uvw, lm, frequency].any needsDouble
    · have hn : ¬ ∃ a ∈ [vis, uvw, lm, frequency], a.needsDouble = true := by
        rw [← List.any_eq_true, hh]; decide
      simp only [hn, or_false]
      constructor
      · intro h; exact absurd (Except.ok.inj h) (by decide)
      · intro h; exact absurd h (by decide)
    · have hy : ∃ a ∈ [vis, uvw, lm, frequency], a.needsDouble = true := List.any_eq_true.1 hh
      simp only [hy, or_true]

example : visToImArray complex64 float32 float32 float32 none = .ok float32 := rfl
example : visToImDeclared complex64 float32 float32 float32 (some float32) = .ok float32 := rfl

/-- C130 for the dirty image of the wgridder: right for complex visibilities. Missing: other types. -/
theorem C130_dirty_partial (vis : DT) (h : vis.isComplex = true) :
    Agree (wgridderDirtyDeclared vis) (wgridderDirtyArray vis) (wgridderDirtyArray vis) ∧
      ∃ d, wgridderDirtyDeclared vis = .ok d ∧ d.isComplex = false ∧ d.needsDouble = vis.needsDouble := by
  revert h
  cases vis <;> intro h <;> first
    | exact absurd h (by decide)
    | exact ⟨⟨rfl, rfl⟩, _, rfl, rfl, rfl⟩

/-- C130 fails for the dirty image of other visibilities: Dask's function has no value for the type, NumPy's refuses. -/
theorem C130_dirty_violated (vis : DT) (h : vis.isComplex = false) :
    wgridderDirtyDeclared vis = .error .unboundLocalError ∧ wgridderDirtyArray vis = .error .valueError := by
  revert h
  cases vis <;> intro h <;> first
    | exact absurd h (by decide)
    | exact ⟨rfl, rfl⟩

/-- C130 for `parallactic_angles` of casacore and of astropy: right exactly for times in double precision. Missing: other
types and the test backend. -/
theorem C130_parallactic_angles_partial (times positions : DT) :
    (parallacticAnglesDeclared .casa times positions = parallacticAnglesArray .casa times positions ↔
      times = float64) ∧
    (parallacticAnglesDeclared .astropy times positions = parallacticAnglesArray .astropy times positions ↔
      times = float64) := ⟨Iff.rfl, Iff.rfl⟩

/-- C130 fails for `parallactic_angles` of times in single precision. -/
theorem C130_parallactic_angles_violated :
    parallacticAnglesDeclared .casa float32 float64 = float32 ∧
      parallacticAnglesArray .casa float32 float64 = float64 ∧
      parallacticAnglesDeclared .test float32 float64 = float32 ∧
      parallacticAnglesArray .test float32 float64 = float64 := by decide

/-! ### `predict_vis` -/

/-- The types that are there, when they are floating point types. -/
private theorem predictArray_eq {a : PredictArgs} (h : a.Inexact)
    (hne : [a.dde1, a.coh, a.dde2, a.die1, a.base, a.die2].filterMap id ≠ []) :
    predictArray a = .ok (inexact (([a.dde1, a.coh, a.dde2, a.die1, a.base, a.die2].filterMap id).any needsDouble)
      (([a.dde1, a.coh, a.dde2, a.die1, a.base, a.die2].filterMap id).any DT.isComplex)) := by
  refine resultType_inexact hne fun d hd => ?_
  obtain ⟨o, ho, he⟩ := List.mem_filterMap.1 hd
  exact h o ho d he

private theorem outDtype_eq {a : PredictArgs} (h : a.Inexact) (hne : a.gains ≠ []) :
    predictOutDtype a = .ok (inexact (a.gains.any needsDouble) (a.gains.any DT.isComplex)) := by
  refine resultType_inexact hne fun d hd => ?_
  obtain ⟨o, ho, he⟩ := List.mem_filterMap.1 hd
  refine h o ?_ d he
  simp only [List.mem_cons, List.not_mem_nil, or_false] at ho ⊢
  rcases ho with h | h | h | h | h <;> simp [h]

/-- The type in a stream does not change from block to block. -/
private theorem streamType_eq {dde1 coh dde2 : Option DT} (h : (⟨dde1, coh, dde2, none, none, none⟩ : PredictArgs).Inexact)
    (hne : [dde1, coh, dde2].filterMap id ≠ []) (n : Nat) :
    streamType dde1 coh dde2 n = .ok (inexact (([dde1, coh, dde2].filterMap id).any needsDouble)
      (([dde1, coh, dde2].filterMap id).any DT.isComplex)) := by
  induction n with
  | zero =>
    unfold streamType
    have := predictArray_eq h (by
      intro hh
      apply hne
      simpa using hh)
    rw [this]
    cases dde1 <;> cases coh <;> cases dde2 <;> rfl
  | succ n ih =>
    unfold streamType
    rw [ih]
    show predictArray _ = _
    rw [predictArray_eq]
    · cases dde1 <;> cases coh <;> cases dde2 <;>
        simp [inexact_needsDouble, inexact_isComplex, Bool.or_left_comm]
    · intro o ho d hd
      simp only [List.mem_cons, List.not_mem_nil, or_false] at ho
      rcases ho with rfl | rfl | rfl | rfl | rfl | rfl
      · exact h _ (by simp) d hd
      · exact h _ (by simp) d hd
      · exact h _ (by simp) d hd
      · cases hd
      · cases hd
        exact inexact_isInexact _ _
      · cases hd
    · simp

/-- The argument types without the base visibilities. -/
private theorem inexact_of {dde1 coh dde2 die1 base die2 : Option DT}
    (h1 : ∀ d ∈ dde1, d.isInexact = true) (h2 : ∀ d ∈ coh, d.isInexact = true) (h3 : ∀ d ∈ dde2, d.isInexact = true)
    (h4 : ∀ d ∈ die1, d.isInexact = true) (h5 : ∀ d ∈ base, d.isInexact = true)
    (h6 : ∀ d ∈ die2, d.isInexact = true) :
    (⟨dde1, coh, dde2, die1, base, die2⟩ : PredictArgs).Inexact := by
  intro o ho d hd
  simp only [List.mem_cons, List.not_mem_nil, or_false] at ho
  rcases ho with rfl | rfl | rfl | rfl | rfl | rfl
  · exact h1 d hd
  · exact h2 d hd
  · exact h3 d hd
  · exact h4 d hd
  · exact h5 d hd
  · exact h6 d hd

private theorem any_present (p : DT → Bool) (l : List (Option DT)) :
    (l.filterMap id).any p = l.any fun o => o.any p := by
  induction l with
  | nil => rfl
  | cons o os ih => cases o <;> simp [ih]

private theorem bool_none : ∀ a b c d f x : Bool, ((a || (b || (c || false))) = true → x = true) →
    (x = true → (a || (b || (c || (d || (f || false))))) = true) →
    (false || (false || (false || (d || (x || (f || false)))))) = (a || (b || (c || (d || (false || (f || false)))))) := by
  decide

private theorem bool_some : ∀ a b c d e f x : Bool, ((a || (b || (c || false))) = true → x = true) →
    (x = true → (a || (b || (c || (d || (f || false))))) = true) →
    (false || (false || (false || (d || ((e || x) || (f || false)))))) = (a || (b || (c || (d || (e || (f || false)))))) := by
  decide

/-- The types of the blocks are those of NumPy's results, when there is more than base visibilities. -/
private theorem block_eq (streams : Bool) (n : Nat) (a : PredictArgs) (h : a.Inexact) (hp : a.Paired)
    (hne : a.gains ≠ []) : predictBlock streams n a = predictArray a := by
  obtain ⟨dde1, coh, dde2, die1, base, die2⟩ := a
  obtain ⟨hp1, hp2⟩ := hp
  have h1 := h dde1 (by simp)
  have h2 := h coh (by simp)
  have h3 := h dde2 (by simp)
  have h4 := h die1 (by simp)
  have h5 := h base (by simp)
  have h6 := h die2 (by simp)
  have hnone : ∀ d ∈ (none : Option DT), d.isInexact = true := fun d hd => by cases hd
  have hi : ∀ x y, ∀ d ∈ some (inexact x y), d.isInexact = true := fun x y d hd => by
    cases hd; exact inexact_isInexact _ _
  have hcoh := inexact_of h1 h2 h3 hnone hnone hnone
  have hout := outDtype_eq h hne
  rw [predictArray_eq h (by
    intro hh
    apply hne
    simp only [PredictArgs.gains, List.filterMap_eq_nil_iff] at hh ⊢
    intro o ho
    refine hh o ?_
    simp only [List.mem_cons, List.not_mem_nil, or_false] at ho ⊢
    rcases ho with e | e | e | e | e <;> simp [e])]
  have hsum : PredictArgs.haveSources ⟨dde1, coh, dde2, die1, base, die2⟩ = true →
      ∃ x y, sumCoherenciesBlock streams n
          (inexact ((PredictArgs.gains ⟨dde1, coh, dde2, die1, base, die2⟩).any needsDouble)
            ((PredictArgs.gains ⟨dde1, coh, dde2, die1, base, die2⟩).any DT.isComplex))
          ⟨dde1, coh, dde2, die1, base, die2⟩ = .ok (inexact x y) ∧
        (([dde1, coh, dde2].filterMap id).any needsDouble = true → x = true) ∧
        (x = true → (PredictArgs.gains ⟨dde1, coh, dde2, die1, base, die2⟩).any needsDouble = true) ∧
        (([dde1, coh, dde2].filterMap id).any DT.isComplex = true → y = true) ∧
        (y = true → (PredictArgs.gains ⟨dde1, coh, dde2, die1, base, die2⟩).any DT.isComplex = true) := by
    intro hs
    have hne' : [dde1, coh, dde2].filterMap id ≠ [] := by
      intro hh
      rw [List.filterMap_eq_nil_iff] at hh
      have e1 : dde1 = none := hh dde1 (by simp)
      have e2 : coh = none := hh coh (by simp)
      subst e1 e2
      simp [PredictArgs.haveSources] at hs
    have sub : ∀ p : DT → Bool, ([dde1, coh, dde2].filterMap id).any p = true →
        (PredictArgs.gains ⟨dde1, coh, dde2, die1, base, die2⟩).any p = true := by
      intro p hh
      obtain ⟨d, hd, hpd⟩ := List.any_eq_true.1 hh
      obtain ⟨o, ho, he⟩ := List.mem_filterMap.1 hd
      refine List.any_eq_true.2 ⟨d, List.mem_filterMap.2 ⟨o, ?_, he⟩, hpd⟩
      simp only [List.mem_cons, List.not_mem_nil, or_false] at ho ⊢
      rcases ho with e | e | e <;> simp [e]
    unfold sumCoherenciesBlock
    cases streams with
    | true =>
      refine ⟨_, _, (if_pos rfl).trans (streamType_eq hcoh hne' n), id, sub _, id, sub _⟩
    | false =>
      have hc := predictArray_eq hcoh (by
        intro hh
        apply hne'
        simpa using hh)
      refine ⟨_, _, ?_, sub _, id, sub _, id⟩
      rw [if_neg (by decide), hc]
      show Except.ok (DT.sumType _) = _
      rw [sumType_inexact (inexact_isInexact _ _)]
  unfold predictBlock
  rw [hout]
  show (if _ then _ else _) = _
  by_cases hs : PredictArgs.haveSources ⟨dde1, coh, dde2, die1, base, die2⟩ = true
  · obtain ⟨x, y, e, x1, x2, y1, y2⟩ := hsum hs
    rw [if_pos hs, e]
    show (if _ then _ else _) = _
    by_cases hm : PredictArgs.haveMore ⟨dde1, coh, dde2, die1, base, die2⟩ = true
    · rw [if_pos hm]
      cases base with
      | none =>
        show predictArray _ = _
        rw [predictArray_eq (inexact_of hnone hnone hnone h4 (hi x y) h6) (by simp)]
        simp only [PredictArgs.gains, any_present, List.any_cons, List.any_nil, Option.any_none, Option.any_some,
          inexact_needsDouble, inexact_isComplex] at x1 x2 y1 y2 ⊢
        rw [bool_none _ _ _ _ _ x x1 x2, bool_none _ _ _ _ _ y y1 y2]
      | some b =>
        show predictArray _ = _
        rw [promote_inexact _ (h5 b rfl)]
        rw [predictArray_eq (inexact_of hnone hnone hnone h4 (hi _ _) h6) (by simp)]
        simp only [PredictArgs.gains, any_present, List.any_cons, List.any_nil, Option.any_none, Option.any_some,
          inexact_needsDouble, inexact_isComplex] at x1 x2 y1 y2 ⊢
        rw [bool_some _ _ _ _ _ _ x x1 x2, bool_some _ _ _ _ _ _ y y1 y2]
    · rw [if_neg hm]
      cases base with
      | some b => simp [PredictArgs.haveMore] at hm
      | none =>
        have e4 : die1 = none := by
          cases die1 with
          | none => rfl
          | some d => exact absurd (by simp [PredictArgs.haveMore, ← hp2]) hm
        have e6 : die2 = none := by
          subst e4
          cases die2 with
          | none => rfl
          | some d => simp at hp2
        subst e4 e6
        simp only [PredictArgs.gains, any_present, List.any_cons, List.any_nil, Option.any_none] at x1 x2 y1 y2 ⊢
        have ex := bool_none _ _ _ _ _ x x1 x2
        have ey := bool_none _ _ _ _ _ y y1 y2
        simp only [Bool.false_or, Bool.or_false] at ex ey ⊢
        show Except.ok _ = _
        rw [ex, ey]
  · rw [if_neg hs]
    have e2 : coh = none := by
      cases coh with
      | none => rfl
      | some d => exact absurd (by simp [PredictArgs.haveSources]) hs
    have e1 : dde1 = none := by
      cases dde1 with
      | none => rfl
      | some d => exact absurd (by simp [PredictArgs.haveSources, ← hp1]) hs
    have e3 : dde2 = none := by
      subst e1
      cases dde2 with
      | none => rfl
      | some d => simp at hp1
    subst e1 e2 e3
    have hm : PredictArgs.haveMore ⟨none, none, none, die1, base, die2⟩ = true := by
      cases die1 with
      | some d => simp [PredictArgs.haveMore, ← hp2]
      | none =>
        cases die2 with
        | some d => simp at hp2
        | none => exact absurd rfl hne
    rw [if_pos hm]
    show predictArray _ = _
    rw [predictArray_eq h (by
      cases die1 with
      | some d => simp
      | none =>
        cases die2 with
        | some d => simp at hp2
        | none => exact absurd rfl hne)]

/-- What `predict_vis` on Dask arrays declares. -/
private theorem declared_eq (streams : Bool) (a : PredictArgs) (h : a.Inexact) (hp : a.Paired) (hne : a.gains ≠ []) :
    predictDeclared streams a = .ok (inexact (a.gains.any needsDouble) (a.gains.any DT.isComplex)) := by
  unfold predictDeclared
  rw [outDtype_eq h hne]
  show (if _ then _ else _) = _
  by_cases hm : a.haveMore = true
  · rw [if_pos hm]
  · rw [if_neg hm]
    have hs : a.haveSources = true := by
      obtain ⟨dde1, coh, dde2, die1, base, die2⟩ := a
      obtain ⟨hp1, hp2⟩ := hp
      cases die1 with
      | some d => exact absurd (by simp [PredictArgs.haveMore, ← hp2]) hm
      | none =>
        cases die2 with
        | some d => simp at hp2
        | none =>
          cases coh with
          | some d => simp [PredictArgs.haveSources]
          | none =>
            cases dde1 with
            | some d => simp [PredictArgs.haveSources, ← hp1]
            | none =>
              cases dde2 with
              | some d => simp at hp1
              | none => exact absurd rfl hne
    rw [if_pos hs, sumType_inexact (inexact_isInexact _ _)]
    cases streams <;> rfl

/-- C130 for `predict_vis`, for all floating point types, with and without streams and for any number of blocks of
sources: what is declared covers the gains and the coherencies. What is computed covers the base visibilities as well, and
is what NumPy gives. Without base visibilities the types are right; with them exactly when their type can be cast to the
declared one. Missing: the other types of the base visibilities. -/
theorem C130_predict_partial (streams : Bool) (lastSource : Nat) (a : PredictArgs) (h : a.Inexact) (hp : a.Paired)
    (hne : a.gains ≠ []) :
    ∃ declared computed, predictDeclared streams a = .ok declared ∧ predictBlock streams lastSource a = .ok computed ∧
      predictArray a = .ok computed ∧ Covers a.gains declared ∧ Covers (a.gains ++ a.base.toList) computed ∧
      (declared = computed ↔ ∀ b ∈ a.base, canCast b declared = true) := by
  have hd := declared_eq streams a h hp hne
  have hb := block_eq streams lastSource a h hp hne
  have ha := predictArray_eq h (by
    intro hh
    apply hne
    simp only [PredictArgs.gains, List.filterMap_eq_nil_iff] at hh ⊢
    intro o ho
    refine hh o ?_
    simp only [List.mem_cons, List.not_mem_nil, or_false] at ho ⊢
    rcases ho with e | e | e | e | e <;> simp [e])
  have any_eq : ∀ p : DT → Bool, ([a.dde1, a.coh, a.dde2, a.die1, a.base, a.die2].filterMap id).any p
      = (a.gains.any p || a.base.any p) := by
    intro p
    simp only [PredictArgs.gains, any_present, List.any_cons, List.any_nil]
    cases a.dde1.any p <;> cases a.coh.any p <;> cases a.dde2.any p <;> cases a.die1.any p <;> cases a.base.any p <;>
      cases a.die2.any p <;> rfl
  rw [any_eq, any_eq] at ha
  refine ⟨_, _, hd, hb.trans ha, ha, (covers_iff _ _).2 rfl, (covers_iff _ _).2 ?_, ?_⟩
  · rw [List.any_append, List.any_append]
    cases a.base <;> simp
  · cases hbase : a.base with
    | none => simp
    | some b =>
      simp only [Option.any_some, Option.mem_def, Option.some.injEq, forall_eq']
      rw [canCast_inexact]
      constructor
      · intro he
        have e1 := congrArg DT.needsDouble he
        have e2 := congrArg DT.isComplex he
        rw [inexact_needsDouble, inexact_needsDouble] at e1
        rw [inexact_isComplex, inexact_isComplex] at e2
        revert e1 e2
        cases a.gains.any needsDouble <;> cases a.gains.any DT.isComplex <;> cases b.needsDouble <;>
          cases b.isComplex <;> decide
      · cases a.gains.any needsDouble <;> cases a.gains.any DT.isComplex <;> cases b.needsDouble <;>
          cases b.isComplex <;> decide

example : PredictArgs.Inexact ⟨some complex64, some complex64, some complex64, none, some complex64, none⟩ ∧
    PredictArgs.Paired ⟨some complex64, some complex64, some complex64, none, some complex64, none⟩ ∧
    PredictArgs.gains ⟨some complex64, some complex64, some complex64, none, some complex64, none⟩ ≠ [] := by
  refine ⟨inexact_of ?_ ?_ ?_ ?_ ?_ ?_, ⟨rfl, rfl⟩, by simp [PredictArgs.gains]⟩ <;> simp [DT.isInexact]

/-- C130 fails for `predict_vis` with base visibilities in double precision and gains in single precision. -/
theorem C130_predict_violated (streams : Bool) (n : Nat) :
    predictDeclared streams ⟨some complex64, none, some complex64, none, some complex128, none⟩ = .ok complex64 ∧
      predictBlock streams n ⟨some complex64, none, some complex64, none, some complex128, none⟩ = .ok complex128 := by
  have hi : PredictArgs.Inexact ⟨some complex64, none, some complex64, none, some complex128, none⟩ := by
    refine inexact_of ?_ ?_ ?_ ?_ ?_ ?_ <;> simp [DT.isInexact]
  refine ⟨by cases streams <;> rfl, ?_⟩
  rw [block_eq streams n _ hi ⟨rfl, rfl⟩ (by simp [PredictArgs.gains])]
  rfl

/-- C130 fails for `predict_vis` with nothing but base visibilities: Dask's function raises an exception, NumPy's returns
them. -/
theorem C130_base_vis_violated (streams : Bool) (b : DT) :
    predictDeclared streams ⟨none, none, none, none, some b, none⟩ = .error .valueError ∧
      predictArray ⟨none, none, none, none, some b, none⟩ = .ok b := ⟨rfl, rfl⟩

/-! ## C132 -/

/-- C132: where the functions for the GPU return something, its type is that of the functions for the CPU: `phase_delay`,
`feed_rotation` and `beam_cube_dde`. Floating point arguments that are real (and complex beams) are not refused. -/
theorem C132_agree (a b c d : DT) :
    (phaseDelayGpu a b c = .ok d → phaseDelayArray a b c = .ok d) ∧
    (feedRotationGpu a = .ok d → feedRotationArray a = .ok d) ∧
    (beamGpu a = .ok d → beamArray a = .ok d) := by
  refine ⟨?_, ?_, ?_⟩
  · cases a <;> cases b <;> cases c <;> intro h <;> first
      | exact h
      | cases h
  · intro h
    cases a <;> first
      | exact h
      | cases h
  · intro h
    cases a <;> first
      | exact h
      | cases h

/-- C132: real floating point arguments are accepted on the GPU, and complex beams. -/
theorem C132_accepts (a b c : DT) (h : ∀ x ∈ [a, b, c], x.isInexact = true ∧ x.isComplex = false) (beam : DT)
    (hb : beam.isComplex = true) :
    (∃ d, phaseDelayGpu a b c = .ok d) ∧ (∃ d, feedRotationGpu a = .ok d) ∧ (∃ d, beamGpu beam = .ok d) := by
  have key : ∀ x : DT, x.isInexact = true ∧ x.isComplex = false → x = float32 ∨ x = float64 := by
    intro x hx
    revert hx
    cases x <;> decide
  have ha := key a (h a (by simp))
  have hb' := key b (h b (by simp))
  have hc := key c (h c (by simp))
  refine ⟨?_, ?_, ?_⟩
  · rcases ha with rfl | rfl <;> rcases hb' with rfl | rfl <;> rcases hc with rfl | rfl <;> exact ⟨_, rfl⟩
  · rcases ha with rfl | rfl <;> exact ⟨_, rfl⟩
  · revert hb
    cases beam <;> intro hb <;> first
      | exact absurd hb (by decide)
      | exact ⟨_, rfl⟩

/-- C132 for `predict_vis` with floating point types: the GPU gives the type of the CPU when all six arrays are there, and
when some array has double precision. Missing: single precision with an array absent. -/
theorem C132_predict_partial (a : PredictArgs) (h : a.Inexact) (hne : a.gains ++ a.base.toList ≠ []) :
    predictGpu a = predictArray a ↔
      ((∀ o ∈ [a.dde1, a.coh, a.dde2, a.die1, a.base, a.die2], o.isSome = true) ∨
        ∃ d ∈ a.gains ++ a.base.toList, d.needsDouble = true) := by
  have any_eq : ∀ p : DT → Bool, ([a.dde1, a.coh, a.dde2, a.die1, a.base, a.die2].filterMap id).any p
      = (a.gains ++ a.base.toList).any p := by
    intro p
    have hb : a.base.toList.any p = a.base.any p := by cases a.base <;> simp
    rw [List.any_append, hb]
    simp only [PredictArgs.gains, any_present, List.any_cons, List.any_nil]
    cases a.dde1.any p <;> cases a.coh.any p <;> cases a.dde2.any p <;> cases a.die1.any p <;> cases a.base.any p <;>
      cases a.die2.any p <;> rfl
  have ha := predictArray_eq h (by
    intro hh
    obtain ⟨d, hd⟩ := List.exists_mem_of_ne_nil _ hne
    have := any_eq fun _ => true
    rw [hh, List.any_nil] at this
    exact absurd (List.any_eq_true.2 ⟨d, hd, rfl⟩) (by rw [← this]; decide))
  rw [any_eq, any_eq] at ha
  have hg : ∀ o ∈ [a.dde1, a.coh, a.dde2, a.die1, a.base, a.die2], (o.getD float64).isInexact = true := by
    intro o ho
    cases o with
    | none => rfl
    | some d => exact h _ ho d rfl
  have ht : ∀ o ∈ [a.dde1, a.coh, a.dde2, a.die1, a.base, a.die2], ∃ s, cudaTypeOrInt o = .ok s := by
    intro o ho
    cases o with
    | none => exact ⟨_, rfl⟩
    | some d =>
      have := h _ ho d rfl
      revert this
      cases d <;> intro hh <;> first
        | exact absurd hh (by decide)
        | exact ⟨_, rfl⟩
  obtain ⟨s1, t1⟩ := ht a.dde1 (by simp)
  obtain ⟨s2, t2⟩ := ht a.coh (by simp)
  obtain ⟨s3, t3⟩ := ht a.dde2 (by simp)
  obtain ⟨s4, t4⟩ := ht a.die1 (by simp)
  obtain ⟨s5, t5⟩ := ht a.base (by simp)
  obtain ⟨s6, t6⟩ := ht a.die2 (by simp)
  have hr : resultType ([a.dde1, a.coh, a.dde2, a.die1, a.base, a.die2].map fun o => o.getD float64)
      = .ok (inexact (([a.dde1, a.coh, a.dde2, a.die1, a.base, a.die2].map fun o => o.getD float64).any needsDouble)
        (([a.dde1, a.coh, a.dde2, a.die1, a.base, a.die2].map fun o => o.getD float64).any DT.isComplex)) := by
    refine resultType_inexact (by simp) fun d hd => ?_
    obtain ⟨o, ho, rfl⟩ := List.mem_map.1 hd
    exact hg o ho
  have hct : ∀ x y, ∃ s, cudaType (inexact x y) = .ok s := by
    intro x y
    cases x <;> cases y <;> exact ⟨_, rfl⟩
  obtain ⟨s7, t7⟩ := hct (([a.dde1, a.coh, a.dde2, a.die1, a.base, a.die2].map fun o => o.getD float64).any needsDouble)
    (([a.dde1, a.coh, a.dde2, a.die1, a.base, a.die2].map fun o => o.getD float64).any DT.isComplex)
  have hgpu : predictGpu a
      = .ok (inexact (([a.dde1, a.coh, a.dde2, a.die1, a.base, a.die2].map fun o => o.getD float64).any needsDouble)
        (([a.dde1, a.coh, a.dde2, a.die1, a.base, a.die2].map fun o => o.getD float64).any DT.isComplex)) := by
    unfold predictGpu
    simp only [List.map_cons, List.map_nil] at hr t7 ⊢
    rw [hr, t1, t2, t3, t4, t5, t6]
    show (do let _ ← cudaType _; _) = _
    rw [t7]
    rfl
  have hc : ([a.dde1, a.coh, a.dde2, a.die1, a.base, a.die2].map fun o => o.getD float64).any DT.isComplex
      = (a.gains ++ a.base.toList).any DT.isComplex := by
    rw [← any_eq, any_present, List.any_map]
    have e : ∀ o : Option DT, (o.getD float64).isComplex = o.any DT.isComplex := by
      intro o; cases o <;> rfl
    simp [Function.comp, e]
  have hn : ([a.dde1, a.coh, a.dde2, a.die1, a.base, a.die2].map fun o => o.getD float64).any needsDouble
      = ([a.dde1, a.coh, a.dde2, a.die1, a.base, a.die2].any (fun o => o.isNone) ||
          (a.gains ++ a.base.toList).any needsDouble) := by
    rw [← any_eq, any_present, List.any_map]
    have e : ∀ o : Option DT, (o.getD float64).needsDouble = (o.isNone || o.any needsDouble) := by
      intro o; cases o <;> rfl
    have gen : ∀ l : List (Option DT), l.any (needsDouble ∘ fun o => o.getD float64)
        = (l.any (fun o => o.isNone) || l.any fun o => o.any needsDouble) := by
      intro l
      induction l with
      | nil => rfl
      | cons o os ih =>
        rw [List.any_cons, List.any_cons, List.any_cons, ih]
        show ((o.getD float64).needsDouble || _) = _
        rw [e]
        cases o.isNone <;> cases o.any needsDouble <;> cases os.any (fun o => o.isNone) <;> rfl
    exact gen _
  rw [hgpu, ha, hc, hn]
  have hiff : (∀ o ∈ [a.dde1, a.coh, a.dde2, a.die1, a.base, a.die2], o.isSome = true) ↔
      [a.dde1, a.coh, a.dde2, a.die1, a.base, a.die2].any (fun o => o.isNone) = false := by
    rw [List.any_eq_false]
    simp [Option.isSome_iff_ne_none]
  rw [hiff, ← List.any_eq_true]
  constructor
  · intro he
    have e1 := congrArg DT.needsDouble (Except.ok.inj he)
    rw [inexact_needsDouble, inexact_needsDouble] at e1
    revert e1
    cases [a.dde1, a.coh, a.dde2, a.die1, a.base, a.die2].any (fun o => o.isNone) <;>
      cases (a.gains ++ a.base.toList).any needsDouble <;> decide
  · intro he
    have e1 : ([a.dde1, a.coh, a.dde2, a.die1, a.base, a.die2].any (fun o => o.isNone) ||
          (a.gains ++ a.base.toList).any needsDouble) = (a.gains ++ a.base.toList).any needsDouble := by
      revert he
      cases [a.dde1, a.coh, a.dde2, a.die1, a.base, a.die2].any (fun o => o.isNone) <;>
        cases (a.gains ++ a.base.toList).any needsDouble <;> decide
    rw [e1]

example : predictGpu ⟨some complex64, some complex64, some complex64, some complex64, some complex64, some complex64⟩
    = .ok complex64 := rfl

/-- C132 fails for `predict_vis` in single precision when an array is absent: the result has double precision on the GPU. -/
theorem C132_predict_violated :
    predictGpu ⟨some complex64, some complex64, some complex64, none, none, none⟩ = .ok complex128 ∧
      predictArray ⟨some complex64, some complex64, some complex64, none, none, none⟩ = .ok complex64 := ⟨rfl, rfl⟩

/-- C132: the C type that stands for an element type has the same kind and the same size, and no two element types have
the same C type. -/
theorem C132_types (d e : DT) (name : String) (h : cudaType d = .ok name) :
    cType name = some (kind d, itemsize d) ∧ (cudaType e = .ok name → e = d) := by
  revert h
  cases d <;> intro h <;> first
    | (cases h
       refine ⟨rfl, ?_⟩
       cases e <;> intro he <;> first
         | rfl
         | exact absurd (Except.ok.inj he) (by decide)
         | cases he)
    | cases h

/-- C132: the C function that stands for an operation does that operation in that type, and there is one for a name in one
precision when there is one in the other. -/
theorem C132_functions (name f : String) (d : DT) :
    (cudaFunction name d = .ok f → cFunction f = some (name, d)) ∧
    ((∃ g, cudaFunction name float32 = .ok g) ↔ ∃ g, cudaFunction name float64 = .ok g) := by
  have look : ∀ (m : List (String × String)) (n g : String), m.lookup n = some g → (n, g) ∈ m := by
    intro m n g
    induction m with
    | nil => intro h; cases h
    | cons x xs ih =>
      obtain ⟨k, v⟩ := x
      intro h
      rw [List.lookup_cons] at h
      cases e : n == k
      · rw [e] at h
        exact List.mem_cons_of_mem _ (ih h)
      · rw [e] at h
        cases h
        rw [beq_iff_eq.1 e]
        exact List.mem_cons_self
  have look' : ∀ (m : List (String × String)) (n : String), n ∈ m.map Prod.fst → ∃ g, m.lookup n = some g := by
    intro m n
    induction m with
    | nil => intro h; cases h
    | cons x xs ih =>
      obtain ⟨k, v⟩ := x
      intro h
      rw [List.lookup_cons]
      cases e : n == k
      · refine ih ?_
        rcases List.mem_cons.1 h with rfl | h
        · simp at e
        · exact h
      · exact ⟨v, rfl⟩
  have ok : ∀ {d : DT} {m : List (String × String)} {n g : String}, cudaFns d = some m →
      (cudaFunction n d = .ok g ↔ m.lookup n = some g) := by
    intro d m n g hm
    have e : cudaFunction n d = (match m.lookup n with
        | none => Except.error PyErr.valueError
        | some f => Except.ok f) := by
      unfold cudaFunction
      rw [hm]
      show (match m.lookup n with | none => _ | some f => _) = _
      cases m.lookup n <;> rfl
    rw [e]
    generalize m.lookup n = o
    cases o <;> simp
  refine ⟨?_, ?_⟩
  · intro h
    cases hm : cudaFns d with
    | none =>
      unfold cudaFunction at h
      rw [hm] at h
      cases h
    | some m =>
      have hmem := look m name f ((ok hm).1 h)
      revert hm
      cases d <;> intro hm <;> first
        | (exfalso; cases hm; done)
        | (cases hm
           simp only [List.mem_cons, List.not_mem_nil, or_false, Prod.mk.injEq] at hmem
           rcases hmem with ⟨rfl, rfl⟩ | ⟨rfl, rfl⟩ | ⟨rfl, rfl⟩ | ⟨rfl, rfl⟩ | ⟨rfl, rfl⟩ | ⟨rfl, rfl⟩ | ⟨rfl, rfl⟩ |
             ⟨rfl, rfl⟩ | ⟨rfl, rfl⟩ | ⟨rfl, rfl⟩ | ⟨rfl, rfl⟩ <;> rfl)
  · have keys : ∀ {d e : DT} {m m' : List (String × String)}, cudaFns d = some m → cudaFns e = some m' →
        (∀ k ∈ m.map Prod.fst, k ∈ m'.map Prod.fst) →
        (∃ g, cudaFunction name d = .ok g) → ∃ g, cudaFunction name e = .ok g := by
      intro d e m m' hm hm' hk hg
      obtain ⟨g, hg⟩ := hg
      have hmem := look m name g ((ok hm).1 hg)
      obtain ⟨g', hg'⟩ := look' m' name (hk name (List.mem_map.2 ⟨_, hmem, rfl⟩))
      exact ⟨g', (ok hm').2 hg'⟩
    exact ⟨keys rfl rfl (by decide), keys rfl rfl (by decide)⟩

example : cudaFunction "sincos" float32 = .ok "sincosf" := rfl
example : cudaType complex64 = .ok "float2" := rfl

end Verif.Types
