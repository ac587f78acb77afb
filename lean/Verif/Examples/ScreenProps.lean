/-
C164: visibilities corrupted by a phase screen.
-/
import Verif.Examples.Screen
import Verif.Calibration.Props3
import Mathlib.Tactic.Linarith
import Mathlib.Tactic.FieldSimp
import Mathlib.Tactic.Ring
import Mathlib.Tactic.NormNum
import Mathlib.Tactic.Tauto

set_option autoImplicit false

namespace Verif.Examples

open Verif.Calibration
open Finset (range)

/-! ### Specification -/

/-- Specification: the largest frequency. -/
def IsTop (nfreq : Nat) (freq : Nat → ℝ) (top : ℝ) : Prop := (∃ nu < nfreq, freq nu = top) ∧ ∀ nu < nfreq, freq nu ≤ top

/-- Specification: the gain of a plane screen at the coordinates `l`, `m`: its phase is `a + b l + c m` at the largest
frequency and inversely proportional to frequency. -/
noncomputable def planeGain (a b c l m freq top : ℝ) : ℂ := Complex.exp (Complex.I * ((a + b * l + c * m) * top / freq : ℝ))

/-- Specification: the spectrum of a source, constant unless it has a spectral index `s` at a frequency `f`. -/
noncomputable def spectrumOf (s : ScreenSource) (freq : ℝ) : ℝ :=
  match s.spectrum with
  | none => s.flux
  | some (a, f) => s.flux * (freq / f) ^ a

/-! ### Lemmas -/

private theorem top_ok {nfreq : Nat} {freq : Nat → ℝ} {top : ℝ} (h : IsTop nfreq freq top) :
    freqMax nfreq freq = .ok top := by
  obtain ⟨⟨nu, hnu, e⟩, hle⟩ := h
  unfold freqMax
  have : ((List.range nfreq).map freq).max? = some top := by
    rw [List.max?_eq_some_iff]
    refine ⟨List.mem_map.2 ⟨nu, List.mem_range.2 hnu, e⟩, fun v hv => ?_⟩
    obtain ⟨k, hk, rfl⟩ := List.mem_map.1 hv
    exact hle k (List.mem_range.1 hk)
  rw [this]

private theorem stokes_eq (s : ScreenSource) (freq : ℝ) : s.stokesI freq = spectrumOf s freq := by
  obtain ⟨flux, sp⟩ := s
  unfold ScreenSource.stokesI spectrumOf
  cases sp with
  | none => simp
  | some p => obtain ⟨a, f⟩ := p; rfl

/-! ### C164 -/

/-- **C164** Every gain of the screen is that of a plane whose coefficients are the random numbers of its time, antenna and
correlation. -/
theorem C164_screen (ntime nant nfreq ncorr : Nat) (lm : Nat → Fin 2 → ℝ) (freq : Nat → ℝ) (top : ℝ)
    (htop : IsTop nfreq freq top) (alphas : Nat → Nat → Nat → Nat → ℝ) :
    ∃ g, makeScreen ntime nant nfreq ncorr lm freq alphas = .ok g ∧
      ∀ t < ntime, ∀ p < nant, ∀ nu < nfreq, ∀ d, ∀ c < ncorr,
        g t p nu d c = planeGain (alphas t p 0 c) (alphas t p 1 c) (alphas t p 2 c) (lm d 0) (lm d 1) (freq nu) top := by
  unfold makeScreen
  rw [top_ok htop]
  refine ⟨_, rfl, fun t ht p hp nu _ d c hc => ?_⟩
  dsimp only
  unfold planeGain
  congr 3
  refine (forRange_single (fun a : Arr5 ℝ => a t p nu d c) t ht
    (fun _ => (alphas t p 0 c + alphas t p 1 c * lm d 0 + alphas t p 2 c * lm d 1) * top / freq nu) ?_ ?_)
  · intro s
    refine (forRange_single (fun a : Arr5 ℝ => a t p nu d c) p hp
      (fun _ => (alphas t p 0 c + alphas t p 1 c * lm d 0 + alphas t p 2 c * lm d 1) * top / freq nu) ?_ ?_)
    · intro s
      refine (forRange_single (fun a : Arr5 ℝ => a t p nu d c) c hc
        (fun _ => (alphas t p 0 c + alphas t p 1 c * lm d 0 + alphas t p 2 c * lm d 1) * top / freq nu) ?_ ?_)
      · intro s
        simp [Finset.sum_range_succ, div_div_eq_mul_div]
        ring
      · intro i _ hi s
        rw [if_neg fun h => hi h.2.2.symm]
    · intro i _ hi s
      refine forRange_const (fun a : Arr5 ℝ => a t p nu d c) fun c' _ s => ?_
      rw [if_neg fun h => hi h.2.1.symm]
  · intro i _ hi s
    refine forRange_const (fun a : Arr5 ℝ => a t p nu d c) fun p' _ s => ?_
    refine forRange_const (fun a : Arr5 ℝ => a t p nu d c) fun c' _ s => ?_
    rw [if_neg fun h => hi h.1.symm]

/-- **C164** The gains have unit modulus, screens add up, a screen is undone by its negative, and at a frequency `k` times
lower the phase is `k` times larger. -/
theorem C164_gain (a b c a' b' c' l m freq top : ℝ) :
    ‖planeGain a b c l m freq top‖ = 1 ∧
      planeGain (a + a') (b + b') (c + c') l m freq top = planeGain a b c l m freq top * planeGain a' b' c' l m freq top ∧
      planeGain a b c l m freq top * planeGain (-a) (-b) (-c) l m freq top = 1 ∧
      ∀ k : ℕ, planeGain a b c l m (freq / k) top = planeGain a b c l m freq top ^ k := by
  unfold planeGain
  refine ⟨?_, ?_, ?_, fun k => ?_⟩
  · rw [mul_comm, Complex.norm_exp_ofReal_mul_I]
  · rw [← Complex.exp_add, ← mul_add, ← Complex.ofReal_add]
    congr 3
    ring
  · rw [← Complex.exp_add, ← mul_add, ← Complex.ofReal_add,
      show (a + b * l + c * m) * top / freq + (-a + -b * l + -c * m) * top / freq = 0 by ring]
    simp
  · rw [← Complex.exp_nat_mul, div_div_eq_mul_div]
    congr 1
    push_cast
    ring

/-- **C164** The simulated visibilities are sums over sources of the spectrum, the fringe and the gains of both antennas, in
the parallel hand correlations; cross hand correlations are zero. -/
theorem C164_simulated (m2pioc : ℝ) (ntime : Nat) (idx cnt ant1 ant2 : Nat → Nat) (nant nfreq ndir ncorr : Nat)
    (freq : Nat → ℝ) (sources : Nat → ScreenSource) (lm : Nat → Fin 2 → ℝ) (uvw : Nat → Fin 3 → ℝ)
    (alphas : Nat → Nat → Nat → Nat → ℝ) (top : ℝ) (htop : IsTop nfreq freq top) (m : Nat) (hm : IsMin ntime idx m)
    (hd : Disjoint' ntime idx cnt) (hc : ncorr = 1 ∨ ncorr = 2 ∨ ncorr = 4) :
    ∃ v, simulate m2pioc ntime idx cnt ant1 ant2 nant nfreq nfreq ndir ncorr freq sources lm uvw alphas = .ok v ∧
      ∀ t < ntime, ∀ row, InBin idx cnt t (m + row) → ant1 row < nant → ant2 row < nant → ∀ nu < nfreq, ∀ c < ncorr,
        v row nu c = if ncorr = 4 ∧ (c = 1 ∨ c = 2) then 0 else
          ∑ d ∈ range ndir,
            planeGain (alphas t (ant1 row) 0 (c % 2)) (alphas t (ant1 row) 1 (c % 2)) (alphas t (ant1 row) 2 (c % 2))
                (lm d 0) (lm d 1) (freq nu) top *
              (spectrumOf (sources d) (freq nu) *
                fringeSpec m2pioc (uvw row 0) (uvw row 1) (uvw row 2) (freq nu) (lm d 0) (lm d 1)) *
              star (planeGain (alphas t (ant2 row) 0 (c % 2)) (alphas t (ant2 row) 1 (c % 2))
                (alphas t (ant2 row) 2 (c % 2)) (lm d 0) (lm d 1) (freq nu) top) := by
  obtain ⟨g, hg, hgv⟩ := C164_screen ntime nant nfreq (if ncorr = 1 then 1 else 2) lm freq top htop alphas
  have hd' := disjoint_shift hm hd
  unfold simulate screenModel
  rcases hc with rfl | rfl | rfl
  · simp only [OfNat.one_ne_ofNat, if_false, if_true, ne_eq, not_true_eq_false] at hg ⊢
    rw [hg]
    unfold computeAndCorruptVis
    rw [shiftIdx_ok hm]
    refine ⟨_, rfl, fun t ht row hr h1 h2 nu hnu c hc => ?_⟩
    rw [binLoop_bin hd' ht ((inBin_shift hm ht).2 hr) hnu, cMulDD_eq _ _ _ _ _ _ _ _ _ _ _ hc, jonesMulDD_eq, zero_add]
    rw [if_neg (by omega)]
    refine Finset.sum_congr rfl fun d _ => ?_
    have hc0 : c = 0 := by omega
    subst hc0
    rw [hgv t ht _ h1 nu hnu d 0 (by simp), hgv t ht _ h2 nu hnu d 0 (by simp)]
    simp only [if_true, stokes_eq]
    rfl
  · simp only [OfNat.ofNat_ne_one, Nat.reduceEqDiff, if_false, if_true, ne_eq, not_true_eq_false] at hg ⊢
    rw [hg]
    unfold computeAndCorruptVis
    rw [shiftIdx_ok hm]
    refine ⟨_, rfl, fun t ht row hr h1 h2 nu hnu c hc => ?_⟩
    rw [binLoop_bin hd' ht ((inBin_shift hm ht).2 hr) hnu, cMulDD_eq _ _ _ _ _ _ _ _ _ _ _ hc, jonesMulDD_eq, zero_add]
    rw [if_neg (by simp)]
    refine Finset.sum_congr rfl fun d _ => ?_
    rw [hgv t ht _ h1 nu hnu d c (by simpa using hc), hgv t ht _ h2 nu hnu d c (by simpa using hc)]
    simp only [if_pos hc, stokes_eq, Nat.mod_eq_of_lt hc]
    rfl
  · simp only [OfNat.ofNat_ne_one, if_false, if_true, ne_eq, not_true_eq_false] at hg ⊢
    rw [hg]
    unfold computeAndCorruptVis
    rw [shiftIdx_ok hm]
    refine ⟨_, rfl, fun t ht row hr h1 h2 nu hnu c hc => ?_⟩
    dsimp only
    rw [binLoop_bin hd' ht ((inBin_shift hm ht).2 hr) hnu]
    set mod : Nat → M2 ℂ := fun d => Matrix.diagonal fun _ => ((spectrumOf (sources d) (freq nu) : ℝ) : ℂ) with hmod
    have e : (fun d i j => if i = j then (((sources d).stokesI (freq nu) : ℝ) : ℂ) else 0 : Nat → M2 ℂ) = mod := by
      funext d
      ext i j
      simp only [hmod, Matrix.diagonal_apply, stokes_eq]
    have key := cMulD_eq m2pioc ndir (fun s => pair (g t (ant1 row) nu s)) mod (fun s => pair (g t (ant2 row) nu s))
      (uvw row) (freq nu) lm 0
    rw [jonesMulD_eq, zero_add, ← e] at key
    refine (congrFun (congrFun key _) _).trans ?_
    rw [Matrix.sum_apply]
    have hterm : ∀ (d : Nat) (i j : Fin 2), (Matrix.diagonal (pair (g t (ant1 row) nu d)) *
        (fringe m2pioc (uvw row) (freq nu) (lm d) • mod d) * (Matrix.diagonal (pair (g t (ant2 row) nu d))).conjTranspose) i j =
          if i = j then g t (ant1 row) nu d i * ((spectrumOf (sources d) (freq nu) : ℝ) *
            fringe m2pioc (uvw row) (freq nu) (lm d)) * star (g t (ant2 row) nu d j) else 0 := by
      intro d i j
      rw [Matrix.diagonal_conjTranspose, Matrix.mul_diagonal, Matrix.diagonal_mul, Matrix.smul_apply]
      simp only [hmod, Matrix.diagonal_apply]
      split_ifs with hij
      · simp only [smul_eq_mul, pair, Pi.star_apply]
        ring
      · simp
    rw [e]
    simp only [hterm, Fin.mk.injEq]
    have hc4 : c = 0 ∨ c = 1 ∨ c = 2 ∨ c = 3 := by omega
    have final : ∀ k < 2, ∀ d, g t (ant1 row) nu d k * ((spectrumOf (sources d) (freq nu) : ℝ) *
            fringe m2pioc (uvw row) (freq nu) (lm d)) * star (g t (ant2 row) nu d k) =
        planeGain (alphas t (ant1 row) 0 k) (alphas t (ant1 row) 1 k) (alphas t (ant1 row) 2 k) (lm d 0) (lm d 1)
            (freq nu) top *
          (spectrumOf (sources d) (freq nu) *
            fringeSpec m2pioc (uvw row 0) (uvw row 1) (uvw row 2) (freq nu) (lm d 0) (lm d 1)) *
          star (planeGain (alphas t (ant2 row) 0 k) (alphas t (ant2 row) 1 k)
            (alphas t (ant2 row) 2 k) (lm d 0) (lm d 1) (freq nu) top) := by
      intro k hk d
      rw [hgv t ht _ h1 nu hnu d k (by simpa using hk), hgv t ht _ h2 nu hnu d k (by simpa using hk)]
      rfl
    rcases hc4 with rfl | rfl | rfl | rfl
    · simpa using Finset.sum_congr rfl fun d _ => final 0 (by omega) d
    · simp
    · simp
    · simpa using Finset.sum_congr rfl fun d _ => final 1 (by omega) d

/-- **C164** Data with other numbers of correlations are refused, and so are frequencies that do not match the data. -/
theorem C164_refused (m2pioc : ℝ) (ntime : Nat) (idx cnt ant1 ant2 : Nat → Nat) (nant nchan nfreq ndir ncorr : Nat)
    (freq : Nat → ℝ) (sources : Nat → ScreenSource) (lm : Nat → Fin 2 → ℝ) (uvw : Nat → Fin 3 → ℝ)
    (alphas : Nat → Nat → Nat → Nat → ℝ) :
    (¬ (ncorr = 1 ∨ ncorr = 2 ∨ ncorr = 4) →
      simulate m2pioc ntime idx cnt ant1 ant2 nant nchan nfreq ndir ncorr freq sources lm uvw alphas = .error .runtimeError) ∧
    ((ncorr = 1 ∨ ncorr = 2 ∨ ncorr = 4) → nfreq ≠ nchan →
      simulate m2pioc ntime idx cnt ant1 ant2 nant nchan nfreq ndir ncorr freq sources lm uvw alphas =
        .error .assertionError) := by
  unfold simulate screenModel
  refine ⟨fun h => ?_, fun h hn => ?_⟩
  · push Not at h
    rw [if_neg h.2.2, if_neg h.2.1, if_neg h.1]
  · rcases h with rfl | rfl | rfl <;> simp [hn]

/-- **C164** The program fits the simulated data only if they have four correlations: with one or two it simulates them and
then stops. -/
theorem C164_calibrate_violated (m2pioc : ℝ) (ntime : Nat) (idx cnt ant1 ant2 : Nat → Nat) (nant nfreq ndir ncorr : Nat)
    (freq : Nat → ℝ) (sources : Nat → ScreenSource) (lm : Nat → Fin 2 → ℝ) (uvw : Nat → Fin 3 → ℝ)
    (alphas : Nat → Nat → Nat → Nat → ℝ) (top : ℝ) (htop : IsTop nfreq freq top) (m : Nat) (hm : IsMin ntime idx m)
    (hd : Disjoint' ntime idx cnt) (hc : ncorr = 1 ∨ ncorr = 2) :
    ∃ v, simulate m2pioc ntime idx cnt ant1 ant2 nant nfreq nfreq ndir ncorr freq sources lm uvw alphas = .ok v ∧
      calibrateData ncorr v = .error .indexError := by
  obtain ⟨v, hv, _⟩ := C164_simulated m2pioc ntime idx cnt ant1 ant2 nant nfreq ndir ncorr freq sources lm uvw alphas top
    htop m hm hd (by tauto)
  refine ⟨v, hv, ?_⟩
  unfold calibrateData
  rw [if_pos (by omega)]

/-- **C164** With four correlations the parallel hands are what is fitted. -/
theorem C164_calibrated {K : Type} (data : Nat → Nat → Nat → K) :
    ∃ d, calibrateData 4 data = .ok d ∧ ∀ row nu, d row nu 0 = data row nu 0 ∧ d row nu 1 = data row nu 3 :=
  ⟨_, rfl, fun _ _ => ⟨rfl, rfl⟩⟩

/-- Two channels, two times of three rows each meet the hypotheses. -/
example : IsTop 2 (fun nu => nu + 1) 2 ∧ IsMin 2 (fun t => 3 * t + 6) 6 ∧ Disjoint' 2 (fun t => 3 * t + 6) (fun _ => 3) ∧
    InBin (fun t => 3 * t + 6) (fun _ => 3) 1 (6 + 4) := by
  refine ⟨⟨⟨1, by omega, by norm_num⟩, fun nu h => ?_⟩, ⟨⟨0, by omega, rfl⟩, fun t _ => by simp⟩, ?_, by simp [InBin]⟩
  · have : (nu : ℝ) ≤ 1 := by exact_mod_cast (by omega : nu ≤ 1)
    linarith
  · intro t _ t' _ row h h'
    simp only [InBin] at h h'
    omega

end Verif.Examples
