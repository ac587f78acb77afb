/-
C168: the example program for point sources with gains that depend on direction.
-/
import Verif.Examples.TimeVarying
import Verif.Examples.ApplyGainsProps
import Verif.Types.Props

set_option autoImplicit false

namespace Verif.Examples

open Verif.Calibration Matrix

/-- Specification: the spectrum of a source. -/
noncomputable def lsmSpectrum (s : LsmSource) (f : ℝ) : ℝ := s.flux * (f / s.freq0) ^ s.spi

/-- Specification: the visibility of a source at the phase centre `radec0`. -/
noncomputable def lsmFringe (m2pioc : ℝ) (radec0 : ℝ × ℝ) (s : LsmSource) (uvw : Fin 3 → ℝ) (f : ℝ) : ℂ :=
  fringeSpec m2pioc (uvw 0) (uvw 1) (uvw 2) f (Real.cos s.dec * Real.sin (s.ra - radec0.1))
    (Real.sin s.dec * Real.cos radec0.2 - Real.cos s.dec * Real.sin radec0.2 * Real.cos (s.ra - radec0.1))

private theorem varying_core {α : Type} [LinearOrder α] (m2pioc : ℝ) (time ut : List α) (hut : IsDistinct time ut) (hne : time ≠ [])
    (u : Nat) (hu : 0 < u) (ant1 ant2 : Nat → Nat) (nchan nant jdir : Nat) (radec0 : ℝ × ℝ)
    (sources : List LsmSource) (h0 : sources ≠ []) (freq : Nat → ℝ) (j : Nat → Nat → Nat → Nat → Nat → ℂ)
    (uvw : Nat → Fin 3 → ℝ) :
    ∃ idx cnt : Nat → Nat, (∀ r < time.length, ∃ k < ut.length, InBin idx cnt k r) ∧
      (time.Pairwise (· ≤ ·) → ∀ (k : Nat) (hk : k < ut.length) (r : Nat) (hr : r < time.length), time[r] = ut[k] →
        InBin idx cnt k r) ∧
      (∀ k k', k < k' → k' < ut.length → ∀ r r', InBin idx cnt k r → InBin idx cnt k' r' → r < r') ∧
    ∃ d v, timeVarying m2pioc time u ant1 ant2 nchan nant jdir radec0 sources freq (.five j) uvw = .ok d ∧
      Written d time.length nchan 1 v ∧ ∀ r, ∀ k < ut.length, InBin idx cnt k r → ∀ nu < nchan,
        v r nu 0 = ∑ s : Fin sources.length, j k (ant1 r) nu s 0 *
          (lsmSpectrum sources[s] (freq nu) * lsmFringe m2pioc radec0 sources[s] (uvw r) (freq nu)) *
            star (j k (ant2 r) nu s 0) := by
  obtain ⟨out, g1, g6, hsum, hfit, n1, n2, n3⟩ := bins_of_times time ut hut hne u hu
  obtain ⟨e1, e2, e3, e4⟩ := id hfit
  set idx : Nat → Nat := fun t => out.timeBinIndices.getD t 0 with hidx
  set cnt : Nat → Nat := fun t => out.timeBinCounts.getD t 0 with hcnt
  have e2' := e2
  have e3' := e3
  rw [hsum] at e2' e3'
  obtain ⟨lm, hlm, hl⟩ : ∃ lm, lsmCoords radec0 sources = .ok lm ∧ ∀ t s, lm t s 0 = Real.cos (sources.getD s .none).dec *
        Real.sin ((sources.getD s .none).ra - radec0.1) ∧
      lm t s 1 = Real.sin (sources.getD s .none).dec * Real.cos radec0.2 -
        Real.cos (sources.getD s .none).dec * Real.sin radec0.2 * Real.cos ((sources.getD s .none).ra - radec0.1) := by
    refine ⟨_, by unfold lsmCoords; rw [if_neg h0]; rfl, fun t s => ⟨rfl, rfl⟩⟩
  classical
  let tb : Nat → Nat := fun r => if h : ∃ k < ut.length, InBin idx cnt k (0 + r) then h.choose else 0
  have htb : ∀ t < ut.length, ∀ row, InBin idx cnt t (0 + row) → tb row = t := by
    intro t ht row hin
    have hex : ∃ k < ut.length, InBin idx cnt k (0 + row) := ⟨t, ht, hin⟩
    simp only [tb, dif_pos hex]
    exact e3' _ hex.choose_spec.1 t ht _ hex.choose_spec.2 hin
  obtain ⟨⟨V, hV⟩, -⟩ := C30_ok (ntim := ut.length) (idx := idx) (cnt := cnt) (m := 0) m2pioc ant1 ant2 nchan
    sources.length 1 (.five j) uvw freq lm (.four (lsmModel freq sources)) e2' (by simp [Jones.ndim])
  let F : Nat → Nat → Nat → ℂ := fun row nu s => fringeSpec m2pioc (uvw row 0) (uvw row 1) (uvw row 2) (freq nu)
      (lm (tb row) s 0) (lm (tb row) s 1)
  obtain ⟨v', hV', v2, _⟩ := C21_corrupt_diag_diag (ntim := ut.length) (idx := idx) (cnt := cnt) (m := 0) ant1 ant2 nchan
    sources.length 1 j (fun row nu s c => lsmModel freq sources (tb row) nu s c * F row nu s) e2' e3'
  have key := C30_compute_and_corrupt m2pioc ant1 ant2 nchan sources.length 1 (.five j) uvw freq lm
    (.four (lsmModel freq sources)) tb e2' e3' htb F rfl _ rfl V _ hV hV'
  obtain ⟨v, rfl⟩ : ∃ v, V = .three v := by
    unfold computeAndCorruptVis at hV
    repeat' split at hV
    all_goals first
      | (cases hV; done)
      | (cases hV; exact ⟨_, rfl⟩)
      | simp_all
  obtain ⟨d, d1, d2, d3, d4, d5⟩ := C110_compute_and_corrupt_vis m2pioc (chanChunks := [nchan]) (corrChunks := [1])
    (jAnt := [nant]) (jDir := [jdir]) (mDir := [sources.length]) (uvwLast := [3]) (lmDir := [sources.length])
    (lmLast := [2]) (ant1 := ant1) (ant2 := ant2) (.five j) (.four (lsmModel freq sources)) uvw freq lm (.three v) hfit
    (one_whole _) (one_whole _) (one_whole _) (one_whole _) (one_whole _) (one_whole _) (by simp [ModelVis.ndim])
    (by rw [hsum]; simpa using hV)
  refine ⟨idx, cnt, n1, n2, n3, d, v, by unfold timeVarying; rw [g1]; simp only [hlm]; exact d1, ⟨by rw [d2, g6], d3, d4, d5⟩, ?_⟩
  intro r k hk hin nu hnu
  replace hin : InBin idx cnt k (0 + r) := by rw [Nat.zero_add]; exact hin
  have e := key k hk r hin nu hnu 0 (by omega)
  have := congrFun (congrFun (v2 k hk r hin nu hnu) ⟨0, by omega⟩) ⟨0, by omega⟩
  rw [diagonal_apply_eq, Matrix.sum_apply] at this
  simp only [diagonal_conjTranspose, diagonal_mul_diagonal, diagonal_apply_eq] at this
  rw [e]
  refine this.trans ?_
  rw [Finset.sum_range]
  refine Finset.sum_congr rfl fun s _ => ?_
  have hget : sources.getD (s : Nat) .none = sources[s] := by
    rw [List.getD_eq_getElem _ _ s.isLt]; rfl
  simp only [lsmModel, F, lsmSpectrum, lsmFringe, (hl _ _).1, (hl _ _).2, hget]
  rfl

/-- **C168** For times in order, every row is the sum over the sources of the spectrum and the phase of the source
between the gains of the two antennas at the time of the row. -/
theorem C168_partial {α : Type} [LinearOrder α] (m2pioc : ℝ) (time ut : List α) (hut : IsDistinct time ut) (hne : time ≠ [])
    (hs : time.Pairwise (· ≤ ·)) (u : Nat) (hu : 0 < u) (ant1 ant2 : Nat → Nat) (nchan nant jdir : Nat) (radec0 : ℝ × ℝ)
    (sources : List LsmSource) (h0 : sources ≠ []) (freq : Nat → ℝ) (j : Nat → Nat → Nat → Nat → Nat → ℂ)
    (uvw : Nat → Fin 3 → ℝ) :
    ∃ d v, timeVarying m2pioc time u ant1 ant2 nchan nant jdir radec0 sources freq (.five j) uvw = .ok d ∧
      Written d time.length nchan 1 v ∧
      ∀ (r : Nat) (hr : r < time.length) (k : Nat) (hk : k < ut.length), time[r] = ut[k] → ∀ nu < nchan,
        v r nu 0 = ∑ s : Fin sources.length, j k (ant1 r) nu s 0 *
          (lsmSpectrum sources[s] (freq nu) * lsmFringe m2pioc radec0 sources[s] (uvw r) (freq nu)) *
            star (j k (ant2 r) nu s 0) := by
  obtain ⟨idx, cnt, _, n2, _, d, v, h1, h2, h3⟩ := varying_core m2pioc time ut hut hne u hu ant1 ant2 nchan nant jdir radec0
    sources h0 freq j uvw
  exact ⟨d, v, h1, h2, fun r hr k hk ht nu hnu => h3 r k hk (n2 hs k hk r hr ht) nu hnu⟩

/-- **C168** fails for times that are not in order: some row gets the gains of another time. -/
theorem C168_unsorted_violated {α : Type} [LinearOrder α] (m2pioc : ℝ) (time ut : List α) (hut : IsDistinct time ut) (hne : time ≠ [])
    (hs : ¬ time.Pairwise (· ≤ ·)) (u : Nat) (hu : 0 < u) (ant1 ant2 : Nat → Nat) (nchan nant jdir : Nat) (radec0 : ℝ × ℝ)
    (sources : List LsmSource) (h0 : sources ≠ []) (freq : Nat → ℝ) (j : Nat → Nat → Nat → Nat → Nat → ℂ)
    (uvw : Nat → Fin 3 → ℝ) :
    ∃ (r : Nat) (hr : r < time.length) (k : Nat) (hk : k < ut.length), time[r] ≠ ut[k] ∧
      ∃ d v, timeVarying m2pioc time u ant1 ant2 nchan nant jdir radec0 sources freq (.five j) uvw = .ok d ∧
        Written d time.length nchan 1 v ∧ ∀ nu < nchan,
        v r nu 0 = ∑ s : Fin sources.length, j k (ant1 r) nu s 0 *
          (lsmSpectrum sources[s] (freq nu) * lsmFringe m2pioc radec0 sources[s] (uvw r) (freq nu)) *
            star (j k (ant2 r) nu s 0) := by
  obtain ⟨idx, cnt, n1, _, n3, d, v, h1, h2, h3⟩ := varying_core m2pioc time ut hut hne u hu ant1 ant2 nchan nant jdir radec0
    sources h0 freq j uvw
  obtain ⟨r, hr, k, hk, hin, hneq⟩ : ∃ (r : Nat) (hr : r < time.length) (k : Nat) (hk : k < ut.length),
      InBin idx cnt k r ∧ time[r] ≠ ut[k] := by
    by_contra hcon
    push Not at hcon
    refine hs (List.pairwise_iff_getElem.2 fun i j hi hj hij => ?_)
    obtain ⟨k, hk, b⟩ := n1 i hi
    obtain ⟨k', hk', b'⟩ := n1 j hj
    rw [hcon i hi k hk b, hcon j hj k' hk' b']
    rcases Nat.lt_trichotomy k k' with h | h | h
    · exact (List.pairwise_iff_getElem.1 hut.1 k k' hk hk' h).le
    · subst h; exact le_refl _
    · have := n3 k' k h hk j i b' b; omega
  exact ⟨r, hr, k, hk, hneq, d, v, h1, h2, h3 r k hk hin⟩

/-- **C168** A sky model without sources, chunks of no times and full gains are refused. -/
theorem C168_refused {α : Type} [LinearOrder α] (m2pioc : ℝ) (time : List α) (u : Nat) (hu : 0 < u) (ant1 ant2 : Nat → Nat)
    (nchan nant jdir : Nat) (radec0 : ℝ × ℝ) (sources : List LsmSource) (freq : Nat → ℝ) (jones : Jones ℂ)
    (uvw : Nat → Fin 3 → ℝ) :
    timeVarying m2pioc time u ant1 ant2 nchan nant jdir radec0 [] freq jones uvw = .error .valueError ∧
    timeVarying m2pioc time 0 ant1 ant2 nchan nant jdir radec0 sources freq jones uvw = .error .valueError ∧
    (sources ≠ [] → jones.ndim = 6 →
      timeVarying m2pioc time u ant1 ant2 nchan nant jdir radec0 sources freq jones uvw = .error .runtimeError) := by
  obtain ⟨out, _, g1, _⟩ := C26_chunkify_rows time u hu
  refine ⟨by unfold timeVarying; rw [g1]; rfl, rfl, fun h0 h2 => ?_⟩
  unfold timeVarying lsmCoords
  rw [g1, if_neg h0]
  cases jones with
  | five j => cases h2
  | six j =>
    show daskComputeAndCorruptVis _ _ _ _ _ _ _ _ _ _ _ _ _ _ _ _ _ _ _ _ = _
    unfold daskComputeAndCorruptVis
    simp only [one_whole]
    rfl

/-- **C168** fails for types: the data are declared to be real, as the model is, while the blocks are complex. -/
theorem C168_types_violated :
    Types.computeAndCorruptVisDeclared .complex128 .float64 = .float64 ∧
      Types.computeAndCorruptVisArray .complex128 .float64 = .complex128 := ⟨rfl, rfl⟩

/-- Rows in order of time, and rows that are not. -/
example : (IsDistinct [1, 1, 5] [1, 5] ∧ ([1, 1, 5] : List Nat).Pairwise (· ≤ ·)) ∧
    IsDistinct [1, 5, 1] [1, 5] ∧ ¬ ([1, 5, 1] : List Nat).Pairwise (· ≤ ·) :=
  ⟨⟨⟨by simp, by simp⟩, by simp⟩, ⟨by simp, by intro x; simp; tauto⟩, by simp⟩

end Verif.Examples
