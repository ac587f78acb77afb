/- C114, C115, C116: which numbers of the whole arrays the functions behind the Dask wrappers combine. The other theorems of C114,
C115 and C116 compare a wrapper with the function of whole arrays; these say, number by number, what that function returns. -/
import Verif.Dask.RimeProps
import Verif.Dask.SkyProps
import Verif.Dask.WscleanProps
import Verif.Rime.PropsTerms
import Mathlib.Tactic.IntervalCases

set_option autoImplicit false

namespace Verif.Dask

open Verif.Rime Verif.ModelData

/-- **C114** `phase_delay` of `(source, 2)` directions, `(row, 3)` baselines and frequencies. -/
theorem C114_numpy_phase (ns nr nf : Nat) (lm uvw freq : List Nat → ℝ) :
    (∃ a, npPhaseDelay ⟨[ns, 2], lm⟩ ⟨[nr, 3], uvw⟩ ⟨[nf], freq⟩ "fourier" = .ok a ∧ a.shape = [ns, nr, nf] ∧
      ∀ s r f, a.val [s, r, f] =
        delay (-1) (lm [s, 0]) (lm [s, 1]) (uvw [r, 0]) (uvw [r, 1]) (uvw [r, 2]) (freq [f])) ∧
    (∃ a, npPhaseDelay ⟨[ns, 2], lm⟩ ⟨[nr, 3], uvw⟩ ⟨[nf], freq⟩ "casa" = .ok a ∧ a.shape = [ns, nr, nf] ∧
      ∀ s r f, a.val [s, r, f] =
        delay 1 (lm [s, 0]) (lm [s, 1]) (uvw [r, 0]) (uvw [r, 1]) (uvw [r, 2]) (freq [f])) ∧
    ∀ convention, convention ≠ "fourier" → convention ≠ "casa" →
      npPhaseDelay ⟨[ns, 2], lm⟩ ⟨[nr, 3], uvw⟩ ⟨[nf], freq⟩ convention = .error .valueError := by
  obtain ⟨⟨k, hk, ek⟩, ⟨k', hk', ek'⟩, he⟩ := C31_value (NArr.pair ⟨[ns, 2], lm⟩) (NArr.triple ⟨[nr, 3], uvw⟩)
    (fun f => freq [f])
  refine ⟨⟨_, by simp [npPhaseDelay, hk]; rfl, rfl, ek⟩, ⟨_, by simp [npPhaseDelay, hk']; rfl, rfl, ek'⟩, fun c h1 h2 => ?_⟩
  simp [npPhaseDelay, he c h1 h2]

/-- **C114** `feed_rotation` of `(time, antenna)` angles: the rotation by each angle, in the linear or in the circular frame. -/
theorem C114_numpy_feed (nt na : Nat) (pa : List Nat → ℝ) :
    (∃ a, npFeedRotation ⟨[nt, na], pa⟩ true "linear" = .ok a ∧ a.shape = [nt, na, 2, 2] ∧ ∀ t p,
      a.val [t, p, 0, 0] = Real.cos (pa [t, p]) ∧ a.val [t, p, 0, 1] = Real.sin (pa [t, p]) ∧
      a.val [t, p, 1, 0] = -Real.sin (pa [t, p]) ∧ a.val [t, p, 1, 1] = Real.cos (pa [t, p])) ∧
    (∃ a, npFeedRotation ⟨[nt, na], pa⟩ true "circular" = .ok a ∧ a.shape = [nt, na, 2, 2] ∧ ∀ t p,
      a.val [t, p, 0, 0] = Complex.exp (-(pa [t, p] : ℂ) * Complex.I) ∧ a.val [t, p, 0, 1] = 0 ∧
      a.val [t, p, 1, 0] = 0 ∧ a.val [t, p, 1, 1] = Complex.exp ((pa [t, p] : ℂ) * Complex.I)) := by
  refine ⟨⟨_, by simp [npFeedRotation]; rfl, rfl, fun t p => ?_⟩, ⟨_, by simp [npFeedRotation]; rfl, rfl, fun t p => ?_⟩⟩
  · simp [feedRotation, nbFeedRotation, entry, Complex.ext_iff, -Complex.ofReal_cos, -Complex.ofReal_sin]
  · simp [feedRotation, nbFeedRotation, entry, Complex.ext_iff, Complex.exp_re, Complex.exp_im]

/-- **C114** `transform_sources`: the coordinates of each source, seen from each antenna at each time and channel. The second one
reads the rotated first one, as `C33_rotation_partial` says. -/
theorem C114_numpy_transform (ns nt na nf : Nat) (lm pa pe scaling freq : List Nat → ℝ) :
    ∃ x, npTransformSources ⟨[ns, 2], lm⟩ ⟨[nt, na], pa⟩ ⟨[nt, na, 2], pe⟩ ⟨[na, nf], scaling⟩ ⟨[nf], freq⟩ = .ok x ∧
      x.shape = [3, ns, nt, na, nf] ∧ ∀ s t a f,
      x.val [0, s, t, a, f] =
        (lm [s, 0] * Real.cos (pa [t, a]) - lm [s, 1] * Real.sin (pa [t, a]) + pe [t, a, 0]) * scaling [a, f] ∧
      x.val [1, s, t, a, f] =
        (lm [s, 0] * Real.sin (pa [t, a]) + lm [s, 1] * Real.cos (pa [t, a]) + pe [t, a, 1]
          - Real.sin (pa [t, a]) * (lm [s, 0] * (1 - Real.cos (pa [t, a])) + lm [s, 1] * Real.sin (pa [t, a])))
          * scaling [a, f] ∧
      x.val [2, s, t, a, f] = freq [f] := by
  refine ⟨_, by simp [npTransformSources]; rfl, rfl, fun s t a f => ?_⟩
  have h := C33_rotation_partial (lm [s, 0]) (lm [s, 1]) (pa [t, a]) (pe [t, a, 0]) (pe [t, a, 1]) (scaling [a, f]) (freq [f])
  simp [NArr.pair, h]

/-- **C114** `beam_cube_dde`: every entry is the value of the beam of that correlation for that source, time, antenna and channel. -/
theorem C114_numpy_beam (lw mh nud ns nt na nf nc : Nat) (beam : List Nat → ℂ)
    (ext freqMap lm pa pe scaling freq : List Nat → ℝ) (h1 : 2 ≤ lw) (h2 : 2 ≤ mh) (h3 : 2 ≤ nud) :
    ∃ x, npBeamCubeDde ⟨[lw, mh, nud, nc], beam⟩ ⟨[2, 2], ext⟩ ⟨[nud], freqMap⟩ ⟨[ns, 2], lm⟩ ⟨[nt, na], pa⟩
        ⟨[nt, na, nf, 2], pe⟩ ⟨[na, nf, 2], scaling⟩ ⟨[nf], freq⟩ = .ok x ∧ x.shape = [ns, nt, na, nf, nc] ∧
      ∀ s t a f c, beamCubeDde lw mh nud (fun i j k => beam [i.toNat, j.toNat, k.toNat, c])
        ((ext [0, 0], ext [0, 1]), (ext [1, 0], ext [1, 1])) (fun k => freqMap [k.toNat]) (lm [s, 0]) (lm [s, 1])
        (pa [t, a]) (pe [t, a, f, 0]) (pe [t, a, f, 1]) (scaling [a, f, 0]) (scaling [a, f, 1]) (freq [f])
          = .ok (x.val [s, t, a, f, c]) := by
  have hn : ¬ (lw < 2 ∨ mh < 2 ∨ nud < 2) := by omega
  refine ⟨_, by simp only [npBeamCubeDde, if_neg hn]; rfl, rfl, fun s t a f c => ?_⟩
  simp only [beamCubeDde, if_neg hn]
  rfl

/-- **C114** `zernike_dde`: every entry is the sum of the polynomials of its antenna, channel and correlation, at the coordinates of
its source. -/
theorem C114_numpy_zernike (arctan2 : ℝ → ℝ → ℝ) (ns nt na nf nc np : Nat) (coords : List Nat → ℝ) (coeffs : List Nat → ℂ)
    (noll : List Nat → Nat) :
    ∃ x, npZernikeDde arctan2 ⟨[3, ns, nt, na, nf], coords⟩ ⟨[na, nf, nc, np], coeffs⟩ ⟨[na, nf, nc, np], noll⟩ = .ok x ∧
      x.shape = [ns, nt, na, nf, nc] ∧ ∀ s t a f c z,
      zernikeDde arctan2 (coords [0, s, t, a, f]) (coords [1, s, t, a, f]) np (fun p => coeffs [a, f, c, p])
        (fun p => noll [a, f, c, p]) = .ok z → x.val [s, t, a, f, c] = z := by
  refine ⟨_, by simp [npZernikeDde]; rfl, rfl, fun s t a f c z h => ?_⟩
  simp [h]

/-- **C114** `parallactic_angles`: the backend sees the time, the position of the antenna and the right ascension and declination of
the field centre, in this order. -/
theorem C114_numpy_parallactic (angle : String → ℝ → ℝ × ℝ × ℝ → ℝ × ℝ → ℝ) (nt na : Nat) (times pos fc : List Nat → ℝ)
    (hnt : 0 < nt) (backend : String) (hb : backend = "casa" ∨ backend = "astropy") :
    ∃ x, npParallacticAngles angle ⟨[nt], times⟩ ⟨[na, 3], pos⟩ ⟨[2], fc⟩ backend = .ok x ∧ x.shape = [nt, na] ∧
      ∀ t a, x.val [t, a] = angle backend (times [t]) (pos [a, 0], pos [a, 1], pos [a, 2]) (fc [0], fc [1]) := by
  have h0 : nt ≠ 0 := by omega
  rcases hb with rfl | rfl
  all_goals exact ⟨_, by simp [npParallacticAngles, h0]; rfl, rfl, fun t a => rfl⟩

/-- **C115** `gaussian`: the Gaussian of each source, by major axis, minor axis and angle, on each baseline and channel. -/
theorem C115_numpy_gaussian (nr nf ns : Nat) (uvw freq shape : List Nat → ℝ) :
    ∃ x, npGaussian ⟨[nr, 3], uvw⟩ ⟨[nf], freq⟩ ⟨[ns, 3], shape⟩ = .ok x ∧ x.shape = [ns, nr, nf] ∧
      ∀ s r f, x.val [s, r, f] = gaussianShape (uvw [r, 0]) (uvw [r, 1]) (uvw [r, 2]) (freq [f])
        (shape [s, 0]) (shape [s, 1]) (shape [s, 2]) :=
  ⟨_, by simp [npGaussian]; rfl, rfl, fun s r f => rfl⟩

/-- **C115** `spectral_model` with a polarisation axis: the flux of the source and polarisation, scaled by the spectral indices of
the same source and polarisation. -/
theorem C115_numpy_spectral_model (ns np nspi nf : Nat) (stokes spi refFreq freq : List Nat → ℝ) (base : Base)
    (kind : Nat → Kind) (nonempty : base ≠ .list []) (scalar : base ≠ .other)
    (hk : ∀ p < np, (baseAt p base).bind baseKind = some (kind p)) :
    ∃ x, npSpectralModel ⟨[ns, np], stokes⟩ ⟨[ns, nspi, np], spi⟩ ⟨[ns], refFreq⟩ ⟨[nf], freq⟩ base = .ok x ∧
      x.shape = [ns, nf, np] ∧ ∀ s f, ∀ p < np, x.val [s, f, p] =
        spectralSpec (kind p) (stokes [s, p]) nspi (fun i => spi [s, i, p]) (refFreq [s]) (freq [f]) := by
  obtain ⟨out, h, e⟩ := C47_value [np] [np] nspi (fun s p => stokes (s :: polIndex [np] p))
    (fun s si p => spi (s :: si :: polIndex [np] p)) (fun s => refFreq [s]) (fun f => freq [f]) base rfl rfl kind nonempty
    scalar (by simpa using hk)
  exact ⟨_, by simp only [npSpectralModel, h]; rfl, rfl, fun s f p hp => e s f p (by simpa using hp)⟩

/-- **C115** `spectra`: the spectrum of each source from its own flux, coefficients and reference frequency. -/
theorem C115_numpy_spectra_partial (ns n nf : Nat) (flux coeffs refFreq freq : List Nat → ℝ) (logPoly : List Nat → Bool)
    (good : ∀ s < ns, logPoly [s] = true → ¬ BadLogSource (flux [s]) n (fun c => coeffs [s, c])) :
    ∃ x, npSpectra ⟨[ns], flux⟩ ⟨[ns, n], coeffs⟩ (.array ⟨[ns], logPoly⟩) ⟨[ns], refFreq⟩ ⟨[nf], freq⟩ = .ok x ∧
      x.shape = [ns, nf] ∧ ∀ s < ns, ∀ f < nf, x.val [s, f] =
        if logPoly [s] then logSpectrum (flux [s]) n (fun c => coeffs [s, c]) (freq [f]) (refFreq [s])
        else ordinarySpectrum (flux [s]) n (fun c => coeffs [s, c]) (freq [f]) (refFreq [s]) := by
  obtain ⟨out, h, e⟩ := C48_value_partial ns nf n (fun s => flux [s]) (fun s c => coeffs [s, c])
    (.array ns fun s => logPoly [s]) (fun s => refFreq [s]) (fun f => freq [f]) (fun _ _ => 0) (by simp [LogPoly.Fits])
    (fun s hs hl => good s hs hl)
  exact ⟨_, by simp only [npSpectra, LogArg.toPoly, List.headD_cons, h]; rfl, rfl, e⟩

/-- **C115** `fit_spi_components`: column `c` holds the spectral index, its variance, the flux and its variance fitted to row `c` of the
data, with the guesses and the beam of that row. -/
theorem C115_numpy_fit (nc n : Nat) (data weights freqs : List Nat → ℝ) (freq0 : ℝ) (alphai i0i beam : Option (List Nat → ℝ))
    (tol : ℝ) (maxiter : Nat) (float64 : Bool) (hn : 0 < n) (o : Nat → FitOut)
    (h : ∀ c < nc, fitSpi n (fun v => data [c, v]) (fun v => weights [v]) (fun v => freqs [v]) freq0 (alphai.map fun a => a [c])
      (i0i.map fun a => a [c]) (beam.map fun a v => a [c, v]) tol maxiter (some float64) = .ok (o c)) :
    ∃ x, npFitSpi ⟨[nc, n], data⟩ ⟨[n], weights⟩ ⟨[n], freqs⟩ freq0 (alphai.map fun a => ⟨[nc], a⟩)
        (i0i.map fun a => ⟨[nc], a⟩) (beam.map fun a => ⟨[nc, n], a⟩) tol maxiter (some float64) = .ok x ∧
      x.shape = [4, nc] ∧ ∀ c < nc, x.val [0, c] = (o c).alpha ∧ x.val [1, c] = (o c).alphaVar ∧
        x.val [2, c] = (o c).i0 ∧ x.val [3, c] = (o c).i0Var := by
  have key : ∀ m ≤ nc, ∃ out, forRangeM m (fun (_ : Nat) => (⟨0, 0, 0, 0⟩ : ModelData.FitOut))
      (fitStep ⟨[nc, n], data⟩ ⟨[n], weights⟩ ⟨[n], freqs⟩ n freq0 (alphai.map fun a => ⟨[nc], a⟩)
        (i0i.map fun a => ⟨[nc], a⟩) (beam.map fun a => ⟨[nc, n], a⟩) tol maxiter (some float64)) = .ok out ∧
      ∀ c < m, out c = o c := by
    intro m
    induction m with
    | zero => exact fun _ => ⟨_, rfl, fun c hc => absurd hc (by omega)⟩
    | succ m ih =>
      intro hm
      obtain ⟨out, h1, h2⟩ := ih (by omega)
      have h3 : fitOf ⟨[nc, n], data⟩ ⟨[n], weights⟩ ⟨[n], freqs⟩ n freq0 (alphai.map fun a => ⟨[nc], a⟩)
          (i0i.map fun a => ⟨[nc], a⟩) (beam.map fun a => ⟨[nc, n], a⟩) tol maxiter (some float64) m = .ok (o m) := by
        simp only [fitOf, Option.map_map]
        exact h m (by omega)
      refine ⟨Function.update out m (o m), ?_, fun c hc => ?_⟩
      · rw [forRangeM_succ, h1]
        show fitStep _ _ _ _ _ _ _ _ _ _ _ _ _ = _
        simp only [fitStep, h3]
      · by_cases hcm : c = m
        · rw [hcm, Function.update_self]
        · rw [Function.update_of_ne hcm]
          exact h2 c (by omega)
  obtain ⟨out, h1, h2⟩ := key nc le_rfl
  have hn' : ¬ (n = 0 ∧ Option.map (fun a => (⟨[nc], a⟩ : NArr ℝ)) i0i = none) := by omega
  refine ⟨_, by simp only [npFitSpi, if_neg hn', reduceCtorEq, if_false, h1]; rfl, rfl, fun c hc => ?_⟩
  simp [FitOut.row, h2 c hc]

/-- Three channels of a source that follows a power law, the guess being right: the hypothesis of `C115_numpy_fit` holds. -/
example : fitSpi 3 (powerLaw (fun _ => 1) (fun v => ((v : ℝ) + 1) / 2) (-1) 5) (fun _ => 1) (fun v => (v : ℝ) + 1) 2 (some (-1)) (some 5)
    none (1 / 10 ^ 4) 100 (some true) = .ok ⟨-1, 0, 5, 0⟩ :=
  (C51_fixed_point 3 _ _ _ _ _ _ _ _ _ _ (by omega) (by norm_num) (by omega) fun _ _ => rfl).1

/-- **C116** `wsclean_predict` of whole arrays: the visibility of a row and a channel is the sum over the sources of the spectrum (a
polynomial in the ratio to the reference frequency, or one of its logarithm), the phase and, for Gaussians, the shape. -/
theorem C116_numpy_partial (uvw lm flux coeffs refFreq gaussShape freq : List Nat → ℝ) (sourceType : List Nat → String)
    (logPoly : List Nat → Bool) (ns nr nf n : Nat)
    (ht : ∀ s < ns, sourceType [s] = "POINT" ∨ sourceType [s] = "GAUSSIAN")
    (hg : ∀ s < ns, gaussShape [s, 0] = 0 → gaussShape [s, 1] = 0)
    (good : ∀ s < ns, logPoly [s] = true → ¬ BadLogSource (flux [s]) n (fun c => coeffs [s, c])) :
    ∃ x, npWscleanPredict ⟨[nr, 3], uvw⟩ ⟨[ns, 2], lm⟩ ⟨[ns], sourceType⟩ ⟨[ns], flux⟩ ⟨[ns, n], coeffs⟩ (.array ⟨[ns], logPoly⟩)
        ⟨[ns], refFreq⟩ ⟨[ns, 3], gaussShape⟩ ⟨[nf], freq⟩ = .ok x ∧ x.shape = [nr, nf, 1] ∧
      ∀ r < nr, ∀ f < nf, x.val [r, f, 0] = ∑ s ∈ Finset.range ns,
        ((if logPoly [s] then logSpectrum (flux [s]) n (fun c => coeffs [s, c]) (freq [f]) (refFreq [s])
          else ordinarySpectrum (flux [s]) n (fun c => coeffs [s, c]) (freq [f]) (refFreq [s]) : ℝ) : ℂ) *
        delay 1 (lm [s, 0]) (lm [s, 1]) (uvw [r, 0]) (uvw [r, 1]) (uvw [r, 2]) (freq [f]) *
        (if sourceType [s] = "GAUSSIAN" then
          (gaussianFactor (gaussShape [s, 0]) (gaussShape [s, 1]) (gaussShape [s, 2]) (uvw [r, 0]) (uvw [r, 1]) (freq [f]) : ℂ)
        else 1) := by
  obtain ⟨sp, h1, h2, h3⟩ := C115_numpy_spectra_partial ns n nf flux coeffs refFreq freq logPoly good
  obtain ⟨x, hx, -⟩ := (wsBody_cases ⟨[nr, 3], uvw⟩ ⟨[ns, 2], lm⟩ ⟨[ns], sourceType⟩ ⟨[ns, 3], gaussShape⟩ ⟨[nf], freq⟩ sp nr nf ns
    3 3 ns nf rfl rfl rfl h2).1 fun s hs => (ht s hs).imp id fun h => ⟨h, rfl⟩
  obtain ⟨h4, h5⟩ := C116_cell ⟨[nr, 3], uvw⟩ ⟨[ns, 2], lm⟩ ⟨[ns], sourceType⟩ ⟨[ns, 3], gaussShape⟩ ⟨[nf], freq⟩ sp nr nf ns
    3 ns nf rfl rfl rfl h2 _ hx
  refine ⟨_, ?_, h4, fun r hr f hf => ?_⟩
  · unfold npWscleanPredict
    rw [h1]
    exact hx
  · have h6 := h5 r hr f hf
    rw [C40_sum _ _ _ _ _ ht hg] at h6
    rw [← Except.ok.inj h6]
    refine Finset.sum_congr rfl fun s hs => ?_
    simp only [sourceVis, h3 s (Finset.mem_range.1 hs) f hf]

/-- A point source and a Gaussian, with ordinary polynomials: the hypotheses of `C116_numpy_partial` hold. -/
example : (∀ s < 2, (fun i : List Nat => if i = [0] then "POINT" else "GAUSSIAN") [s] = "POINT" ∨
      (fun i : List Nat => if i = [0] then "POINT" else "GAUSSIAN") [s] = "GAUSSIAN") ∧
    ∀ s < 2, (fun i : List Nat => if i.getD 0 0 = 0 then (0 : ℝ) else 1) [s, 0] = 0 →
      (fun i : List Nat => if i.getD 0 0 = 0 then (0 : ℝ) else 1) [s, 1] = 0 := by
  constructor <;> intro s hs <;> interval_cases s <;> simp

/-- Three sources with two coefficients each, all ordinary: the hypothesis of `C115_numpy_spectra_partial` holds. -/
example : ∀ s < 3, (fun _ : List Nat => false) [s] = true → ¬ BadLogSource 1 2 (fun _ => 0) := by simp

/-- Two polarisations, the first with ordinary and the second with logarithmic polynomials: the hypotheses of
`C115_numpy_spectral_model` hold. -/
example : ∃ (base : Base) (kind : Nat → Kind), base ≠ .list [] ∧ base ≠ .other ∧
    (∀ p < 2, (baseAt p base).bind baseKind = some (kind p)) ∧ kind 0 ≠ kind 1 := by
  refine ⟨.list [.str "std", .str "log"], fun p => if p = 0 then .std else .log, by simp, by simp, ?_, by simp⟩
  intro p hp
  interval_cases p <;> rfl

end Verif.Dask
