/-
C31, C32, C33, C40: phase delay, feed rotation, source rotation, WSClean prediction.
-/
import Verif.Rime.ModelTerms
import Verif.Rime.SpecTerms
import Verif.Loops
import Mathlib.LinearAlgebra.Matrix.ConjTranspose
import Mathlib.LinearAlgebra.UnitaryGroup
import Mathlib.Tactic.FieldSimp
import Mathlib.Tactic.LinearCombination

set_option autoImplicit false

namespace Verif.Rime

/-! ### C31 -/

theorem mk_cos_sin (p : ℝ) : (⟨Real.cos p, Real.sin p⟩ : ℂ) = Complex.exp (Complex.I * (p : ℂ)) := by
  rw [mul_comm, Complex.exp_mul_I, ← Complex.ofReal_cos, ← Complex.ofReal_sin, Complex.mk_eq_add_mul_I]

theorem phaseCell_delay (s l m u v w nu : ℝ) :
    phaseCell (s * twoPiOverC) l m u v w nu = delay s l m u v w nu := by
  simp only [phaseCell, delay]
  rw [mk_cos_sin]
  congr 3
  unfold twoPiOverC lightspeed
  ring

/-- **C31** The value of `phase_delay`: the exponential of the documentation, with the sign of the convention;
any other convention is a `ValueError`. -/
theorem C31_value (lm : Nat → ℝ × ℝ) (uvw : Nat → ℝ × ℝ × ℝ) (freq : Nat → ℝ) :
    (∃ k, phaseDelay lm uvw freq "fourier" = .ok k ∧ ∀ s r f,
      k s r f = delay (-1) (lm s).1 (lm s).2 (uvw r).1 (uvw r).2.1 (uvw r).2.2 (freq f)) ∧
    (∃ k, phaseDelay lm uvw freq "casa" = .ok k ∧ ∀ s r f,
      k s r f = delay 1 (lm s).1 (lm s).2 (uvw r).1 (uvw r).2.1 (uvw r).2.2 (freq f)) ∧
    ∀ convention, convention ≠ "fourier" → convention ≠ "casa" →
      phaseDelay lm uvw freq convention = .error .valueError := by
  refine ⟨⟨_, rfl, fun s r f => ?_⟩, ⟨_, rfl, fun s r f => ?_⟩, fun c h1 h2 => ?_⟩
  · rw [← phaseCell_delay]
    congr 1
    ring
  · rw [← phaseCell_delay]
    congr 1
    ring
  · unfold phaseDelay phaseConstant
    rw [if_neg h1, if_neg h2]

theorem delay_norm (s l m u v w nu : ℝ) : ‖delay s l m u v w nu‖ = 1 := by
  unfold delay
  rw [mul_comm]
  exact Complex.norm_exp_ofReal_mul_I _

/-- **C31** Modulus one for every source on or inside the unit disc. -/
theorem C31_unit (lm : Nat → ℝ × ℝ) (uvw : Nat → ℝ × ℝ × ℝ) (freq : Nat → ℝ) (convention : String)
    (k : Nat → Nat → Nat → ℂ) (hk : phaseDelay lm uvw freq convention = .ok k) (s r f : Nat)
    (_hs : (lm s).1 ^ 2 + (lm s).2 ^ 2 ≤ 1) : ‖k s r f‖ = 1 := by
  obtain ⟨⟨k1, h1, e1⟩, ⟨k2, h2, e2⟩, h3⟩ := C31_value lm uvw freq
  by_cases hf : convention = "fourier"
  · subst hf
    rw [h1] at hk
    obtain rfl := Except.ok.inj hk
    rw [e1]; exact delay_norm _ _ _ _ _ _ _
  · by_cases hc : convention = "casa"
    · subst hc
      rw [h2] at hk
      obtain rfl := Except.ok.inj hk
      rw [e2]; exact delay_norm _ _ _ _ _ _ _
    · rw [h3 _ hf hc] at hk; cases hk

/-- **C31** One at the phase centre. -/
theorem C31_centre (lm : Nat → ℝ × ℝ) (uvw : Nat → ℝ × ℝ × ℝ) (freq : Nat → ℝ) (convention : String)
    (k : Nat → Nat → Nat → ℂ) (hk : phaseDelay lm uvw freq convention = .ok k) (s r f : Nat)
    (hs : lm s = (0, 0)) : k s r f = 1 := by
  have hd : ∀ sg u v w nu, delay sg (lm s).1 (lm s).2 u v w nu = 1 := by
    intro sg u v w nu
    simp [delay, hs]
  obtain ⟨⟨k1, h1, e1⟩, ⟨k2, h2, e2⟩, h3⟩ := C31_value lm uvw freq
  by_cases hf : convention = "fourier"
  · subst hf
    rw [h1] at hk
    obtain rfl := Except.ok.inj hk
    rw [e1, hd]
  · by_cases hc : convention = "casa"
    · subst hc
      rw [h2] at hk
      obtain rfl := Except.ok.inj hk
      rw [e2, hd]
    · rw [h3 _ hf hc] at hk; cases hk

theorem delay_conj (s l m u v w nu : ℝ) :
    (starRingEnd ℂ) (delay s l m u v w nu) = delay (-s) l m u v w nu := by
  unfold delay
  rw [← Complex.exp_conj, map_mul, Complex.conj_I, Complex.conj_ofReal]
  congr 1
  push_cast
  ring

theorem delay_neg_uvw (s l m u v w nu : ℝ) : delay s l m (-u) (-v) (-w) nu = delay (-s) l m u v w nu := by
  unfold delay
  congr 3
  ring

theorem delay_add_uvw (s l m u v w u' v' w' nu : ℝ) :
    delay s l m (u + u') (v + v') (w + w') nu = delay s l m u v w nu * delay s l m u' v' w' nu := by
  unfold delay
  rw [← Complex.exp_add]
  congr 1
  push_cast
  ring

/-- **C31** The two conventions are conjugates, reversing the baseline conjugates, and the delay of a sum of
baselines is the product of the delays. -/
theorem C31_symmetries (lm : Nat → ℝ × ℝ) (uvw uvw' : Nat → ℝ × ℝ × ℝ) (freq : Nat → ℝ) :
    ∃ kf kc kneg k' ksum,
      phaseDelay lm uvw freq "fourier" = .ok kf ∧
      phaseDelay lm uvw freq "casa" = .ok kc ∧
      phaseDelay lm (fun r => (-(uvw r).1, -(uvw r).2.1, -(uvw r).2.2)) freq "fourier" = .ok kneg ∧
      phaseDelay lm uvw' freq "fourier" = .ok k' ∧
      phaseDelay lm (fun r => ((uvw r).1 + (uvw' r).1, (uvw r).2.1 + (uvw' r).2.1, (uvw r).2.2 + (uvw' r).2.2))
        freq "fourier" = .ok ksum ∧
      ∀ s r f, kc s r f = (starRingEnd ℂ) (kf s r f) ∧ kneg s r f = (starRingEnd ℂ) (kf s r f) ∧
        ksum s r f = kf s r f * k' s r f := by
  obtain ⟨⟨kf, h1, e1⟩, ⟨kc, h2, e2⟩, -⟩ := C31_value lm uvw freq
  obtain ⟨⟨kn, h3, e3⟩, -, -⟩ := C31_value lm (fun r => (-(uvw r).1, -(uvw r).2.1, -(uvw r).2.2)) freq
  obtain ⟨⟨k', h4, e4⟩, -, -⟩ := C31_value lm uvw' freq
  obtain ⟨⟨ks, h5, e5⟩, -, -⟩ := C31_value lm
    (fun r => ((uvw r).1 + (uvw' r).1, (uvw r).2.1 + (uvw' r).2.1, (uvw r).2.2 + (uvw' r).2.2)) freq
  refine ⟨kf, kc, kn, k', ks, h1, h2, h3, h4, h5, fun s r f => ?_⟩
  rw [e1, e2, e3, e4, e5]
  refine ⟨?_, ?_, delay_add_uvw _ _ _ _ _ _ _ _ _ _⟩
  · rw [delay_conj, neg_neg]
  · rw [delay_conj, delay_neg_uvw]

/-- A source at (0.6, 0.8), on the edge of the disc. -/
example : ((0.6 : ℝ)) ^ 2 + (0.8) ^ 2 ≤ 1 := by norm_num

/-! ### C32 -/

theorem feed_ok {pa : ℝ} {t : String} {M : Matrix (Fin 2) (Fin 2) ℂ} (h : feedRotation pa t = .ok M) :
    (t = "linear" ∧ M = !![⟨Real.cos pa, 0⟩, ⟨Real.sin pa, 0⟩; ⟨-Real.sin pa, 0⟩, ⟨Real.cos pa, 0⟩]) ∨
    (t = "circular" ∧ M = !![⟨Real.cos pa, -Real.sin pa⟩, 0; 0, ⟨Real.cos pa, Real.sin pa⟩]) := by
  unfold feedRotation at h
  split_ifs at h with h1 h2
  · exact Or.inl ⟨h1, (Except.ok.inj h).symm⟩
  · exact Or.inr ⟨h2, (Except.ok.inj h).symm⟩

/-- **C32** Feed rotations exist for linear and circular feeds only. -/
theorem C32_types (pa : ℝ) (t : String) :
    ((t = "linear" ∨ t = "circular") → ∃ M, feedRotation pa t = .ok M) ∧
    (¬ (t = "linear" ∨ t = "circular") → feedRotation pa t = .error .valueError) := by
  constructor
  · rintro (rfl | rfl) <;> exact ⟨_, rfl⟩
  · intro h
    unfold feedRotation
    rw [if_neg fun e => h (Or.inl e), if_neg fun e => h (Or.inr e)]

/-- **C32** They are unitary. -/
theorem C32_unitary (pa : ℝ) (t : String) (M : Matrix (Fin 2) (Fin 2) ℂ) (h : feedRotation pa t = .ok M) :
    M ∈ Matrix.unitaryGroup (Fin 2) ℂ := by
  have hcs : Real.cos pa * Real.cos pa + Real.sin pa * Real.sin pa = 1 := by
    have := Real.cos_sq_add_sin_sq pa; nlinarith
  rw [Matrix.mem_unitaryGroup_iff]
  rcases feed_ok h with ⟨-, rfl⟩ | ⟨-, rfl⟩
  all_goals
    ext i j
    fin_cases i <;> fin_cases j <;>
      simp [Matrix.mul_apply, Fin.sum_univ_two, Matrix.star_apply, Complex.ext_iff] <;>
      first | linarith | (constructor <;> linarith)

/-- **C32** The rotation by 0 is the identity. -/
theorem C32_zero (t : String) (M : Matrix (Fin 2) (Fin 2) ℂ) (h : feedRotation 0 t = .ok M) : M = 1 := by
  rcases feed_ok h with ⟨-, rfl⟩ | ⟨-, rfl⟩
  all_goals
    ext i j
    fin_cases i <;> fin_cases j <;> simp [Complex.ext_iff]

/-- **C32** Rotations compose by adding angles. -/
theorem C32_add (a b : ℝ) (t : String) (A B C : Matrix (Fin 2) (Fin 2) ℂ) (hA : feedRotation a t = .ok A)
    (hB : feedRotation b t = .ok B) (hC : feedRotation (a + b) t = .ok C) : A * B = C := by
  rcases feed_ok hA with ⟨rfl, rfl⟩ | ⟨rfl, rfl⟩ <;> rcases feed_ok hB with ⟨h1, rfl⟩ | ⟨h1, rfl⟩ <;>
    rcases feed_ok hC with ⟨h2, rfl⟩ | ⟨h2, rfl⟩ <;> first
    | (exact absurd h1 (by decide))
    | (exact absurd h2 (by decide))
    | (ext i j
       fin_cases i <;> fin_cases j <;>
        simp [Matrix.mul_apply, Fin.sum_univ_two, Complex.ext_iff, Real.cos_add, Real.sin_add] <;>
        ring)

example : ∃ M, feedRotation (Real.pi / 3) "circular" = .ok M := (C32_types _ _).1 (Or.inr rfl)

/-! ### C33 -/

/-- **C33 violated**: with no pointing error and unit scaling, turning the source (1, 0) by a right angle puts it
on the beam centre. -/
theorem C33_violated : ∃ l m pa freq : ℝ,
    (transformSource l m pa 0 0 1 freq).1 ^ 2 + (transformSource l m pa 0 0 1 freq).2.1 ^ 2 ≠ l ^ 2 + m ^ 2 := by
  refine ⟨1, 0, Real.pi / 2, 1, ?_⟩
  simp [transformSource]

/-- **C33** holds in part: the first coordinate is that of the rotated source, for all pointing errors and scalings.
The second one is off by `sin pa * (l (1 - cos pa) + m sin pa)` times the scaling: the code reads the rotated `l`.
Missing: the second coordinate, hence the distance, is wrong unless that term vanishes. -/
theorem C33_rotation_partial (l m pa pe0 pe1 scaling freq : ℝ) :
    transformSource l m pa pe0 pe1 scaling freq =
      ((l * Real.cos pa - m * Real.sin pa + pe0) * scaling,
       (l * Real.sin pa + m * Real.cos pa + pe1
          - Real.sin pa * (l * (1 - Real.cos pa) + m * Real.sin pa)) * scaling, freq) := by
  simp only [transformSource, Prod.mk.injEq]
  exact ⟨trivial, by ring, trivial⟩

/-- **C33**: the distance is preserved when the offending term vanishes. -/
theorem C33_distance_partial (l m pa freq : ℝ)
    (h : Real.sin pa * (l * (1 - Real.cos pa) + m * Real.sin pa) = 0) :
    (transformSource l m pa 0 0 1 freq).1 ^ 2 + (transformSource l m pa 0 0 1 freq).2.1 ^ 2 = l ^ 2 + m ^ 2 := by
  rw [C33_rotation_partial, h]
  have := Real.cos_sq_add_sin_sq pa
  linear_combination (l ^ 2 + m ^ 2) * this

/-- The term vanishes for every source at angles that are multiples of pi. -/
example (l m : ℝ) : Real.sin Real.pi * (l * (1 - Real.cos Real.pi) + m * Real.sin Real.pi) = 0 := by simp

/-! ### C40 -/

theorem re_im_delay (l m u v w freq : ℝ) :
    (Real.cos (twoPiOverC * (u * l + v * m + w * (Real.sqrt (1 - l * l - m * m) - 1)) * freq) : ℂ) +
      (Real.sin (twoPiOverC * (u * l + v * m + w * (Real.sqrt (1 - l * l - m * m) - 1)) * freq) : ℂ) * Complex.I =
      delay 1 l m u v w freq := by
  rw [Complex.ofReal_cos, Complex.ofReal_sin, ← Complex.exp_mul_I, mul_comm]
  unfold delay
  congr 3
  unfold twoPiOverC lightspeed
  rw [show 1 - l * l - m * m = 1 - l ^ 2 - m ^ 2 by ring]
  ring

theorem wsPoint_eq (l m u v w freq spec : ℝ) :
    wsPoint l m u v w freq spec = spec * delay 1 l m u v w freq := by
  rw [← re_im_delay]
  simp only [wsPoint]
  push_cast
  ring

theorem gaussScale_sq : gaussScale ^ 2 = 2 * Real.pi ^ 2 / (8 * Real.log 2) / 299792458 ^ 2 := by
  have hl : (0 : ℝ) < Real.log 2 := Real.log_pos (by norm_num)
  have h1 : Real.sqrt (2 * Real.log 2) ^ 2 = 2 * Real.log 2 := Real.sq_sqrt (by positivity)
  have h2 : Real.sqrt 2 ^ 2 = 2 := Real.sq_sqrt (by norm_num)
  have h3 : Real.sqrt (2 * Real.log 2) ≠ 0 := (Real.sqrt_pos.2 (by positivity)).ne'
  unfold gaussScale lightspeed
  rw [div_pow, mul_pow, mul_pow, div_pow, mul_pow, h1, h2]
  field_simp
  norm_num

theorem wsGauss_eq (l m u v w freq spec emaj emin angle : ℝ) (hs : emaj = 0 → emin = 0) :
    wsGauss l m u v w freq spec emaj emin angle =
      spec * delay 1 l m u v w freq * gaussianFactor emaj emin angle u v freq := by
  rw [← re_im_delay]
  have hg : gaussianFactor emaj emin angle u v freq =
      Real.exp (-((u * (emaj * Real.cos angle) - v * (emaj * Real.sin angle)) *
        (emin / (if emaj = 0 then 1 else emaj)) * (freq * gaussScale) *
        ((u * (emaj * Real.cos angle) - v * (emaj * Real.sin angle)) *
        (emin / (if emaj = 0 then 1 else emaj)) * (freq * gaussScale)) +
        (u * (emaj * Real.sin angle) + v * (emaj * Real.cos angle)) * (freq * gaussScale) *
        ((u * (emaj * Real.sin angle) + v * (emaj * Real.cos angle)) * (freq * gaussScale)))) := by
    have h := gaussScale_sq
    simp only [gaussianFactor]
    congr 2
    by_cases h0 : emaj = 0
    · rw [h0, hs h0]; simp
    · rw [if_neg h0]
      have e : (u * (emaj * Real.cos angle) - v * (emaj * Real.sin angle)) * (emin / emaj) =
          (u * Real.cos angle - v * Real.sin angle) * emin := by field_simp
      rw [e]
      have hb : ∀ x y : ℝ, 2 * Real.pi ^ 2 / (8 * Real.log 2) *
          ((emaj * (x * freq / 299792458)) ^ 2 + (emin * (y * freq / 299792458)) ^ 2) =
          (2 * Real.pi ^ 2 / (8 * Real.log 2) / 299792458 ^ 2) *
          ((emaj * x * freq) ^ 2 + (emin * y * freq) ^ 2) := by
        intro x y; ring
      rw [hb, ← h]
      ring
  rw [hg]
  simp only [wsGauss]
  push_cast
  ring

/-- The documented visibility of one source. -/
noncomputable def sourceVis (uvw : ℝ × ℝ × ℝ) (freq : ℝ) (f : Nat) (s : WsSource) : ℂ :=
  (s.spectrum f : ℂ) * delay 1 s.l s.m uvw.1 uvw.2.1 uvw.2.2 freq *
    (if s.sourceType = "GAUSSIAN" then (gaussianFactor s.emaj s.emin s.angle uvw.1 uvw.2.1 freq : ℂ) else 1)

/-- **C40** The prediction is the sum over sources of flux, phase and shape, when every source is a point or a
Gaussian (whose minor axis is zero if its major axis is). -/
theorem C40_sum (uvw : ℝ × ℝ × ℝ) (freq : ℝ) (f : Nat) (src : Nat → WsSource) (nsrc : Nat)
    (ht : ∀ s < nsrc, (src s).sourceType = "POINT" ∨ (src s).sourceType = "GAUSSIAN")
    (hg : ∀ s < nsrc, (src s).emaj = 0 → (src s).emin = 0) :
    wsPredictCell uvw freq f src nsrc = .ok (∑ s ∈ Finset.range nsrc, sourceVis uvw freq f (src s)) := by
  unfold wsPredictCell
  induction nsrc with
  | zero => rfl
  | succ n ih =>
    rw [forRangeM_succ, ih (fun s hs => ht s (by omega)) (fun s hs => hg s (by omega)), Finset.sum_range_succ]
    show (if _ then _ else _ : Except PyErr ℂ) = _
    rcases ht n (by omega) with h | h
    · rw [if_pos h, wsPoint_eq]
      refine congrArg Except.ok ?_
      unfold sourceVis
      rw [if_neg (by rw [h]; decide), mul_one]
    · rw [if_neg (by rw [h]; decide), if_pos h, wsGauss_eq _ _ _ _ _ _ _ _ _ _ (hg n (by omega))]
      refine congrArg Except.ok ?_
      unfold sourceVis
      rw [if_pos h]

/-- **C40** An unknown source type is a `ValueError`, wherever it is in the list. -/
theorem C40_unknown_type (uvw : ℝ × ℝ × ℝ) (freq : ℝ) (f : Nat) (src : Nat → WsSource) (nsrc s : Nat)
    (hs : s < nsrc) (h1 : (src s).sourceType ≠ "POINT") (h2 : (src s).sourceType ≠ "GAUSSIAN") :
    wsPredictCell uvw freq f src nsrc = .error .valueError := by
  unfold wsPredictCell
  induction nsrc with
  | zero => omega
  | succ n ih =>
    rw [forRangeM_succ]
    by_cases hn : s < n
    · rw [ih hn]; rfl
    · obtain rfl : s = n := by omega
      have key : ∀ (acc : Except PyErr ℂ), (∀ e, acc = .error e → e = .valueError) →
          (acc.bind fun vis => if (src s).sourceType = "POINT" then
            .ok (vis + wsPoint (src s).l (src s).m uvw.1 uvw.2.1 uvw.2.2 freq ((src s).spectrum f))
          else if (src s).sourceType = "GAUSSIAN" then
            .ok (vis + wsGauss (src s).l (src s).m uvw.1 uvw.2.1 uvw.2.2 freq ((src s).spectrum f)
              (src s).emaj (src s).emin (src s).angle)
          else .error .valueError) = .error .valueError := by
        intro acc hacc
        cases acc with
        | error e => rw [hacc e rfl]; rfl
        | ok v => show (if _ then _ else _ : Except PyErr ℂ) = _; rw [if_neg h1, if_neg h2]
      refine key _ ?_
      intro e he
      obtain ⟨i, a, _, h⟩ := forRangeM_error he
      split_ifs at h
      cases h; rfl

/-- **C40** The prediction for a concatenation of source lists is the sum of the predictions. -/
theorem C40_additive (uvw : ℝ × ℝ × ℝ) (freq : ℝ) (f : Nat) (src : Nat → WsSource) (n1 n2 : Nat)
    (ht : ∀ s < n1 + n2, (src s).sourceType = "POINT" ∨ (src s).sourceType = "GAUSSIAN")
    (hg : ∀ s < n1 + n2, (src s).emaj = 0 → (src s).emin = 0) :
    ∃ a b, wsPredictCell uvw freq f src n1 = .ok a ∧
      wsPredictCell uvw freq f (fun s => src (n1 + s)) n2 = .ok b ∧
      wsPredictCell uvw freq f src (n1 + n2) = .ok (a + b) := by
  refine ⟨_, _, C40_sum uvw freq f src n1 (fun s hs => ht s (by omega)) (fun s hs => hg s (by omega)),
    C40_sum uvw freq f (fun s => src (n1 + s)) n2 (fun s hs => ht (n1 + s) (by omega))
      (fun s hs => hg (n1 + s) (by omega)), ?_⟩
  rw [C40_sum uvw freq f src (n1 + n2) ht hg, Finset.sum_range_add]

/-- **C40** A Gaussian of zero extent is a point source. -/
theorem C40_zero_extent (uvw : ℝ × ℝ × ℝ) (freq : ℝ) (f : Nat) (s : WsSource) (hmaj : s.emaj = 0)
    (hmin : s.emin = 0) :
    wsPredictCell uvw freq f (fun _ => { s with sourceType := "GAUSSIAN" }) 1 =
      wsPredictCell uvw freq f (fun _ => { s with sourceType := "POINT" }) 1 := by
  rw [C40_sum uvw freq f (fun _ => { s with sourceType := "GAUSSIAN" }) 1 (fun _ _ => Or.inr rfl)
      (fun _ _ _ => hmin),
    C40_sum uvw freq f (fun _ => { s with sourceType := "POINT" }) 1 (fun _ _ => Or.inl rfl)
      (fun _ _ _ => hmin)]
  simp [sourceVis, gaussianFactor, hmaj, hmin]

/-- A point source beside a Gaussian one. -/
example : ∀ s < 2, (((fun s => if s = 0 then ⟨0.1, 0.2, "POINT", 0, 0, 0, fun _ => 1⟩ else
    ⟨0, 0.1, "GAUSSIAN", 0.01, 0.005, 1, fun _ => 2⟩) : Nat → WsSource) s).sourceType = "POINT" ∨
    (((fun s => if s = 0 then ⟨0.1, 0.2, "POINT", 0, 0, 0, fun _ => 1⟩ else
    ⟨0, 0.1, "GAUSSIAN", 0.01, 0.005, 1, fun _ => 2⟩) : Nat → WsSource) s).sourceType = "GAUSSIAN" := by
  intro s hs
  by_cases h : s = 0 <;> simp [h]

end Verif.Rime
