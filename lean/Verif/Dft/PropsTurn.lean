/-
**C203**: turning the sky and the baselines together.
-/
import Verif.Dft.Props
import Verif.Rime.PropsTerms
import Verif.ModelData.Spectral
import Verif.Coordinates.SymProps
import Mathlib.LinearAlgebra.Matrix.Notation
import Mathlib.Data.Matrix.Mul
import Mathlib.LinearAlgebra.Matrix.Determinant.Basic
import Mathlib.LinearAlgebra.Matrix.NonsingularInverse

set_option autoImplicit false

namespace Verif.Dft

open Verif.Rime (twoPiOverC delay phaseDelay wsPoint wsGauss wsPredictCell WsSource C31_value)
open Finset (range)
open Matrix

/-! ### Specification -/

/-- The unit vector to the direction with direction cosines `l` and `m`. -/
noncomputable def unitVector (lm : ℝ × ℝ) : Fin 3 → ℝ := ![lm.1, lm.2, Real.sqrt (1 - lm.1 ^ 2 - lm.2 ^ 2)]

/-- A baseline as a vector. -/
def baseline (uvw : ℝ × ℝ × ℝ) : Fin 3 → ℝ := ![uvw.1, uvw.2.1, uvw.2.2]

/-- Turning by `chi` from the second axis to the first, as position angles are counted. -/
noncomputable def turn2 (chi : ℝ) (p : ℝ × ℝ) : ℝ × ℝ :=
  (p.1 * Real.cos chi + p.2 * Real.sin chi, p.2 * Real.cos chi - p.1 * Real.sin chi)

/-- A baseline turned about the direction of the phase centre. -/
noncomputable def turn3 (chi : ℝ) (p : ℝ × ℝ × ℝ) : ℝ × ℝ × ℝ :=
  ((turn2 chi (p.1, p.2.1)).1, (turn2 chi (p.1, p.2.1)).2, p.2.2)

/-- A source turned about the phase centre: its place and its position angle. -/
noncomputable def turnSource (chi : ℝ) (x : WsSource) : WsSource :=
  { x with l := (turn2 chi (x.l, x.m)).1, m := (turn2 chi (x.l, x.m)).2, angle := x.angle + chi }

/-- The phase by which a change of the phase centre turns the visibilities of a baseline whose third coordinate changes from `w`
to `w'`: `exp(sg 2 pi i (w - w') nu / c)`. -/
noncomputable def centrePhase (sg w w' nu : ℝ) : ℂ :=
  Complex.exp (Complex.I * ((sg * (2 * Real.pi * (w - w') * nu / 299792458) : ℝ) : ℂ))

/-! ### Lemmas -/

private theorem dot_turn {R : Matrix (Fin 3) (Fin 3) ℝ} (hR : R.transpose * R = 1) (x y : Fin 3 → ℝ) :
    (R *ᵥ x) ⬝ᵥ (R *ᵥ y) = x ⬝ᵥ y := by
  rw [Matrix.dotProduct_mulVec, ← Matrix.mulVec_transpose, Matrix.mulVec_mulVec, hR, Matrix.one_mulVec]

private theorem delay_turn (sg nu : ℝ) {R : Matrix (Fin 3) (Fin 3) ℝ} (hR : R.transpose * R = 1) {lm lm' : ℝ × ℝ}
    {uvw uvw' : ℝ × ℝ × ℝ} (hlm : unitVector lm' = R *ᵥ unitVector lm) (huvw : baseline uvw' = R *ᵥ baseline uvw) :
    delay sg lm'.1 lm'.2 uvw'.1 uvw'.2.1 uvw'.2.2 nu =
      delay sg lm.1 lm.2 uvw.1 uvw.2.1 uvw.2.2 nu * centrePhase sg uvw.2.2 uvw'.2.2 nu := by
  have h := dot_turn hR (baseline uvw) (unitVector lm)
  rw [← hlm, ← huvw] at h
  simp only [baseline, unitVector, dotProduct, Fin.sum_univ_three, Matrix.cons_val_zero, Matrix.cons_val_one,
    Matrix.cons_val_two, Matrix.tail_cons, Matrix.head_cons] at h
  unfold delay centrePhase
  rw [← Complex.exp_add, ← mul_add, ← Complex.ofReal_add]
  congr 3
  have e : uvw'.1 * lm'.1 + uvw'.2.1 * lm'.2 + uvw'.2.2 * (Real.sqrt (1 - lm'.1 ^ 2 - lm'.2 ^ 2) - 1) =
      uvw.1 * lm.1 + uvw.2.1 * lm.2 + uvw.2.2 * (Real.sqrt (1 - lm.1 ^ 2 - lm.2 ^ 2) - 1) + (uvw.2.2 - uvw'.2.2) := by
    linear_combination h
  rw [e]
  ring

private theorem centre_mul (sg w w' nu : ℝ) : centrePhase (-sg) w w' nu * centrePhase sg w w' nu = 1 := by
  unfold centrePhase
  rw [← Complex.exp_add, ← mul_add, ← Complex.ofReal_add]
  have : -sg * (2 * Real.pi * (w - w') * nu / 299792458) + sg * (2 * Real.pi * (w - w') * nu / 299792458) = 0 := by ring
  rw [this]
  simp

private theorem turn_sq (chi : ℝ) (p : ℝ × ℝ) : (turn2 chi p).1 ^ 2 + (turn2 chi p).2 ^ 2 = p.1 ^ 2 + p.2 ^ 2 := by
  have h := Real.sin_sq_add_cos_sq chi
  simp only [turn2]
  linear_combination (p.1 ^ 2 + p.2 ^ 2) * h

private theorem turn_dot (chi : ℝ) (p q : ℝ × ℝ) :
    (turn2 chi p).1 * (turn2 chi q).1 + (turn2 chi p).2 * (turn2 chi q).2 = p.1 * q.1 + p.2 * q.2 := by
  have h := Real.sin_sq_add_cos_sq chi
  simp only [turn2]
  linear_combination (p.1 * q.1 + p.2 * q.2) * h

private theorem turn_axes (chi a : ℝ) (p : ℝ × ℝ) :
    (turn2 chi p).1 * Real.sin (a + chi) + (turn2 chi p).2 * Real.cos (a + chi) = p.1 * Real.sin a + p.2 * Real.cos a ∧
    (turn2 chi p).1 * Real.cos (a + chi) - (turn2 chi p).2 * Real.sin (a + chi) = p.1 * Real.cos a - p.2 * Real.sin a := by
  have h := Real.sin_sq_add_cos_sq chi
  simp only [turn2, Real.sin_add, Real.cos_add]
  constructor
  · linear_combination (p.1 * Real.sin a + p.2 * Real.cos a) * h
  · linear_combination (p.1 * Real.cos a - p.2 * Real.sin a) * h

/-- From the axes of right ascension and declination to the axes of a phase centre. -/
private noncomputable def axes (pc : ℝ × ℝ) : Matrix (Fin 3) (Fin 3) ℝ :=
  !![-Real.sin pc.1, Real.cos pc.1, 0;
    -Real.sin pc.2 * Real.cos pc.1, -Real.sin pc.2 * Real.sin pc.1, Real.cos pc.2;
    Real.cos pc.2 * Real.cos pc.1, Real.cos pc.2 * Real.sin pc.1, Real.sin pc.2]

private theorem axes_left (pc : ℝ × ℝ) : (axes pc).transpose * axes pc = 1 := by
  have ha := Real.sin_sq_add_cos_sq pc.1
  have hd := Real.sin_sq_add_cos_sq pc.2
  ext i j
  fin_cases i <;> fin_cases j <;>
    simp only [axes, Matrix.mul_apply, Matrix.transpose_apply, Fin.sum_univ_three] <;> simp
  · linear_combination ha + Real.cos pc.1 ^ 2 * hd
  · linear_combination Real.cos pc.1 * Real.sin pc.1 * hd
  · ring
  · linear_combination Real.cos pc.1 * Real.sin pc.1 * hd
  · linear_combination ha + Real.sin pc.1 ^ 2 * hd
  · ring
  · ring
  · ring
  · linear_combination hd

private theorem axes_sees (pc radec : ℝ × ℝ) (h : 0 ≤ Coordinates.cosSeparation radec pc) :
    unitVector (Coordinates.lmOf pc radec.1 radec.2) = axes pc *ᵥ
      ![Real.cos radec.2 * Real.cos radec.1, Real.cos radec.2 * Real.sin radec.1, Real.sin radec.2] := by
  have hd := Real.sin_sq_add_cos_sq radec.2
  have ha := Real.sin_sq_add_cos_sq (radec.1 - pc.1)
  have h0 := Real.sin_sq_add_cos_sq pc.2
  have hn : Real.sqrt (1 - (Coordinates.lmOf pc radec.1 radec.2).1 ^ 2 - (Coordinates.lmOf pc radec.1 radec.2).2 ^ 2) =
      Coordinates.cosSeparation radec pc := by
    rw [← Real.sqrt_sq h]
    congr 1
    simp only [Coordinates.lmOf, Coordinates.cosSeparation]
    linear_combination (-1 : ℝ) * hd + (-Real.cos radec.2 ^ 2) * ha -
      (Real.sin radec.2 ^ 2 + Real.cos radec.2 ^ 2 * Real.cos (radec.1 - pc.1) ^ 2) * h0
  unfold unitVector
  rw [hn]
  ext i
  fin_cases i
  · simp [axes, Matrix.mulVec, dotProduct, Fin.sum_univ_three, Coordinates.lmOf, Real.sin_sub]; ring
  · simp [axes, Matrix.mulVec, dotProduct, Fin.sum_univ_three, Coordinates.lmOf, Real.cos_sub]; ring
  · simp [axes, Matrix.mulVec, dotProduct, Fin.sum_univ_three, Coordinates.cosSeparation, Real.cos_sub]; ring

/-! ### Properties -/

/-- **C203** Any two phase centres are related by one rotation of space: it takes the direction cosines which `radec_to_lm` gives
with the one to those with the other, for all sources on the hemispheres around both. -/
theorem C203_centres (pc pc' : ℝ × ℝ) :
    ∃ R : Matrix (Fin 3) (Fin 3) ℝ, R.transpose * R = 1 ∧ R.det = 1 ∧
      ∀ radec : Nat → ℝ × ℝ, ∃ lm lm', Coordinates.radecToLm 2 radec (some pc) = .ok lm ∧
        Coordinates.radecToLm 2 radec (some pc') = .ok lm' ∧
        ∀ s, 0 ≤ Coordinates.cosSeparation (radec s) pc → 0 ≤ Coordinates.cosSeparation (radec s) pc' →
          unitVector (lm' s) = R *ᵥ unitVector (lm s) := by
  have hr : ∀ p, axes p * (axes p).transpose = 1 := fun p => mul_eq_one_comm.1 (axes_left p)
  refine ⟨axes pc' * (axes pc).transpose, ?_, ?_, fun radec => ⟨_, _, rfl, rfl, fun s h h' => ?_⟩⟩
  · rw [Matrix.transpose_mul, Matrix.transpose_transpose, Matrix.mul_assoc, ← Matrix.mul_assoc (axes pc').transpose,
      axes_left, Matrix.one_mul, hr]
  · have hdet : ∀ p, (axes p).det = 1 := by
      intro p
      have ha := Real.sin_sq_add_cos_sq p.1
      have hd := Real.sin_sq_add_cos_sq p.2
      simp only [axes, Matrix.det_fin_three]
      simp
      linear_combination (Real.sin p.2 ^ 2 + Real.cos p.2 ^ 2) * ha + hd
    rw [Matrix.det_mul, Matrix.det_transpose, hdet, hdet, one_mul]
  · show unitVector (Coordinates.lmOf pc' _ _) = _ *ᵥ unitVector (Coordinates.lmOf pc _ _)
    rw [axes_sees _ _ h, axes_sees _ _ h', ← Matrix.mulVec_mulVec, Matrix.mulVec_mulVec _ (axes pc).transpose, axes_left,
      Matrix.one_mulVec]

/-- **C203** Directions and baselines turned together by any rotation of space: the phase delays of all sources on a baseline are
multiplied with the same phase, which depends only on the change of `w`. -/
theorem C203_phase_delay (R : Matrix (Fin 3) (Fin 3) ℝ) (hR : R.transpose * R = 1) (lm lm' : Nat → ℝ × ℝ)
    (uvw uvw' : Nat → ℝ × ℝ × ℝ) (freq : Nat → ℝ) (convention : String) (sg : ℝ) (hsg : Sign convention sg) :
    ∃ K K', phaseDelay lm uvw freq convention = .ok K ∧ phaseDelay lm' uvw' freq convention = .ok K' ∧
      ∀ s r f, unitVector (lm' s) = R *ᵥ unitVector (lm s) → baseline (uvw' r) = R *ᵥ baseline (uvw r) →
        K' s r f = K s r f * centrePhase sg (uvw r).2.2 (uvw' r).2.2 (freq f) := by
  rcases hsg with ⟨rfl, rfl⟩ | ⟨rfl, rfl⟩
  · obtain ⟨⟨K, hK, e⟩, -⟩ := C31_value lm uvw freq
    obtain ⟨⟨K', hK', e'⟩, -⟩ := C31_value lm' uvw' freq
    refine ⟨K, K', hK, hK', fun s r f h1 h2 => ?_⟩
    rw [e, e']
    exact delay_turn _ _ hR h1 h2
  · obtain ⟨-, ⟨K, hK, e⟩, -⟩ := C31_value lm uvw freq
    obtain ⟨-, ⟨K', hK', e'⟩, -⟩ := C31_value lm' uvw' freq
    refine ⟨K, K', hK, hK', fun s r f h1 h2 => ?_⟩
    rw [e, e']
    exact delay_turn _ _ hR h1 h2

/-- **C203** The same for `im_to_vis`: every visibility of a baseline is multiplied with that phase. -/
theorem C203_im_to_vis (R : Matrix (Fin 3) (Fin 3) ℝ) (hR : R.transpose * R = 1) (nrow nsrc nchan ncorr : Nat)
    (image : Nat → Nat → Nat → ℂ) (lm lm' : Nat → ℝ × ℝ) (uvw uvw' : Nat → ℝ × ℝ × ℝ) (freq : Nat → ℝ) (convention : String)
    (sg : ℝ) (hsg : Sign convention sg) (hin : ∀ s < nsrc, (lm s).1 ^ 2 + (lm s).2 ^ 2 ≤ 1)
    (hin' : ∀ s < nsrc, (lm' s).1 ^ 2 + (lm' s).2 ^ 2 ≤ 1)
    (hlm : ∀ s < nsrc, unitVector (lm' s) = R *ᵥ unitVector (lm s))
    (huvw : ∀ r < nrow, baseline (uvw' r) = R *ᵥ baseline (uvw r)) :
    ∃ V V', imToVis nrow nsrc nchan ncorr image uvw lm freq convention = .ok V ∧
      imToVis nrow nsrc nchan ncorr image uvw' lm' freq convention = .ok V' ∧
      ∀ r < nrow, ∀ nu < nchan, ∀ c < ncorr,
        V' r nu c = V r nu c * centrePhase sg (uvw r).2.2 (uvw' r).2.2 (freq nu) := by
  obtain ⟨V, hV, e⟩ := C86_im_to_vis nrow nsrc nchan ncorr image uvw lm freq convention sg hsg hin
  obtain ⟨V', hV', e'⟩ := C86_im_to_vis nrow nsrc nchan ncorr image uvw' lm' freq convention sg hsg hin'
  refine ⟨V, V', hV, hV', fun r hr nu hnu c hc => ?_⟩
  rw [e r hr nu hnu c hc, e' r hr nu hnu c hc, Finset.sum_mul]
  refine Finset.sum_congr rfl fun s hs => ?_
  rw [delay_turn _ _ hR (hlm s (Finset.mem_range.1 hs)) (huvw r hr)]
  ring

/-- **C203** Images do not depend on the phase centre: `vis_to_im` of visibilities with that phase gives the same image in the
turned directions. -/
theorem C203_vis_to_im (R : Matrix (Fin 3) (Fin 3) ℝ) (hR : R.transpose * R = 1) (nrow nsrc nchan ncorr : Nat)
    (vis vis' : Nat → Nat → Nat → ℂ) (lm lm' : Nat → ℝ × ℝ) (uvw uvw' : Nat → ℝ × ℝ × ℝ) (freq : Nat → ℝ)
    (flags : Nat → Nat → Nat → Bool) (convention : String)
    (sg : ℝ) (hsg : Sign convention sg) (hin : ∀ s < nsrc, (lm s).1 ^ 2 + (lm s).2 ^ 2 ≤ 1)
    (hin' : ∀ s < nsrc, (lm' s).1 ^ 2 + (lm' s).2 ^ 2 ≤ 1)
    (hlm : ∀ s < nsrc, unitVector (lm' s) = R *ᵥ unitVector (lm s))
    (huvw : ∀ r < nrow, baseline (uvw' r) = R *ᵥ baseline (uvw r))
    (hvis : ∀ r < nrow, ∀ nu < nchan, ∀ c < ncorr,
      vis' r nu c = vis r nu c * centrePhase sg (uvw r).2.2 (uvw' r).2.2 (freq nu)) :
    ∃ I I', visToIm nrow nsrc nchan ncorr vis uvw lm freq flags convention = .ok I ∧
      visToIm nrow nsrc nchan ncorr vis' uvw' lm' freq flags convention = .ok I' ∧
      ∀ s < nsrc, ∀ nu < nchan, ∀ c < ncorr, I' s nu c = I s nu c := by
  obtain ⟨I, hI, e⟩ := C86_vis_to_im nrow nsrc nchan ncorr vis uvw lm freq flags convention sg hsg hin
  obtain ⟨I', hI', e'⟩ := C86_vis_to_im nrow nsrc nchan ncorr vis' uvw' lm' freq flags convention sg hsg hin'
  refine ⟨I, I', hI, hI', fun s hs nu hnu c hc => ?_⟩
  rw [e s hs nu hnu c hc, e' s hs nu hnu c hc]
  refine Finset.sum_congr rfl fun r hr => ?_
  have hr' := Finset.mem_range.1 hr
  split
  · rw [delay_turn _ _ hR (hlm s hs) (huvw r hr'), hvis r hr' nu hnu c hc]
    congr 1
    linear_combination (delay (-sg) (lm s).1 (lm s).2 (uvw r).1 (uvw r).2.1 (uvw r).2.2 (freq nu) * vis r nu c) *
      centre_mul sg (uvw r).2.2 (uvw' r).2.2 (freq nu)
  · rfl

/-- **C203** Shapes of Gaussian sources do not change when source and baseline are turned about the phase centre. -/
theorem C203_gaussian (chi freq emaj emin angle : ℝ) (uvw : ℝ × ℝ × ℝ) :
    ModelData.gaussianShape (turn3 chi uvw).1 (turn3 chi uvw).2.1 (turn3 chi uvw).2.2 freq emaj emin (angle + chi) =
      ModelData.gaussianShape uvw.1 uvw.2.1 uvw.2.2 freq emaj emin angle := by
  obtain ⟨h1, h2⟩ := turn_axes chi angle (uvw.1, uvw.2.1)
  unfold ModelData.gaussianShape turn3
  dsimp only
  rw [show (turn2 chi (uvw.1, uvw.2.1)).1 * (emaj * Real.cos (angle + chi)) -
      (turn2 chi (uvw.1, uvw.2.1)).2 * (emaj * Real.sin (angle + chi)) =
      uvw.1 * (emaj * Real.cos angle) - uvw.2.1 * (emaj * Real.sin angle) by linear_combination emaj * h2,
    show (turn2 chi (uvw.1, uvw.2.1)).1 * (emaj * Real.sin (angle + chi)) +
      (turn2 chi (uvw.1, uvw.2.1)).2 * (emaj * Real.cos (angle + chi)) =
      uvw.1 * (emaj * Real.sin angle) + uvw.2.1 * (emaj * Real.cos angle) by linear_combination emaj * h1]

/-- **C203** `wsclean_predict` of points and Gaussians does not change when sources and baselines are turned about the phase
centre. -/
theorem C203_wsclean (chi freq : ℝ) (f : Nat) (uvw : ℝ × ℝ × ℝ) (src : Nat → WsSource) (nsrc : Nat) :
    wsPredictCell (turn3 chi uvw) freq f (fun s => turnSource chi (src s)) nsrc = wsPredictCell uvw freq f src nsrc := by
  unfold wsPredictCell
  refine congrArg (fun g => forRangeM nsrc (0 : ℂ) g) ?_
  funext s vis
  have hn : ∀ x : WsSource, 1 - (turnSource chi x).l * (turnSource chi x).l - (turnSource chi x).m * (turnSource chi x).m =
      1 - x.l * x.l - x.m * x.m := by
    intro x
    have := turn_sq chi (x.l, x.m)
    simp only [turnSource]
    linear_combination -this
  have hp : ∀ x : WsSource, (turn3 chi uvw).1 * (turnSource chi x).l + (turn3 chi uvw).2.1 * (turnSource chi x).m =
      uvw.1 * x.l + uvw.2.1 * x.m := fun x => turn_dot chi (uvw.1, uvw.2.1) (x.l, x.m)
  have h1 : ∀ x : WsSource, ∀ t : ℝ, wsPoint (turnSource chi x).l (turnSource chi x).m (turn3 chi uvw).1 (turn3 chi uvw).2.1
      (turn3 chi uvw).2.2 freq t = wsPoint x.l x.m uvw.1 uvw.2.1 uvw.2.2 freq t := by
    intro x t
    unfold wsPoint
    dsimp only
    rw [hn, hp]
    rfl
  have h2 : ∀ x : WsSource, ∀ t : ℝ, wsGauss (turnSource chi x).l (turnSource chi x).m (turn3 chi uvw).1 (turn3 chi uvw).2.1
      (turn3 chi uvw).2.2 freq t x.emaj x.emin (x.angle + chi) = wsGauss x.l x.m uvw.1 uvw.2.1 uvw.2.2 freq t x.emaj x.emin x.angle := by
    intro x t
    have hs := C203_gaussian chi freq x.emaj x.emin x.angle uvw
    unfold ModelData.gaussianShape at hs
    dsimp only at hs
    unfold wsGauss
    dsimp only
    rw [hn, hp, hs]
    rfl
  show (if (src s).sourceType = "POINT" then _ else if (src s).sourceType = "GAUSSIAN" then _ else _) = _
  rw [h1]
  show (if (src s).sourceType = "POINT" then _ else if (src s).sourceType = "GAUSSIAN" then
    Except.ok (vis + wsGauss _ _ _ _ _ _ _ (src s).emaj (src s).emin ((src s).angle + chi)) else _) = _
  rw [h2]
  rfl

/-- The hypotheses can be met: a quarter turn from the phase centre to the horizon moves the direction `(3/5, 0)`, with
`n = 4/5`, to `(-4/5, 0)`. -/
example : ∃ R : Matrix (Fin 3) (Fin 3) ℝ, R.transpose * R = 1 ∧
    unitVector (-4 / 5, 0) = R *ᵥ unitVector (3 / 5, 0) ∧ baseline (-30, 20, 10) = R *ᵥ baseline (10, 20, 30) := by
  refine ⟨!![0, 0, -1; 0, 1, 0; 1, 0, 0], ?_, ?_, ?_⟩
  · ext i j
    fin_cases i <;> fin_cases j <;> simp [Matrix.mul_apply, Fin.sum_univ_three]
  · have h1 : Real.sqrt (1 - (3 / 5) ^ 2 - 0 ^ 2) = 4 / 5 := by
      rw [show (1 - (3 / 5) ^ 2 - 0 ^ 2 : ℝ) = (4 / 5) ^ 2 by norm_num]
      exact Real.sqrt_sq (by norm_num)
    have h2 : Real.sqrt (1 - (-4 / 5) ^ 2 - 0 ^ 2) = 3 / 5 := by
      rw [show (1 - (-4 / 5) ^ 2 - 0 ^ 2 : ℝ) = (3 / 5) ^ 2 by norm_num]
      exact Real.sqrt_sq (by norm_num)
    unfold unitVector
    rw [h1, h2]
    ext i
    fin_cases i
    · simp [Matrix.mulVec, dotProduct, Fin.sum_univ_three]; norm_num
    · simp [Matrix.mulVec, dotProduct, Fin.sum_univ_three]
    · simp [Matrix.mulVec, dotProduct, Fin.sum_univ_three]
  · unfold baseline
    ext i
    fin_cases i <;> simp [Matrix.mulVec, dotProduct, Fin.sum_univ_three]

end Verif.Dft
