/-
C155: closure quantities.
-/
import Verif.Calibration.Props
import Verif.Rime.PropsTerms
import Mathlib.Algebra.BigOperators.Field
import Mathlib.Analysis.SpecialFunctions.Complex.Arg

set_option autoImplicit false

namespace Verif.Calibration

open Function Matrix Finset

/-! ### Specification -/

/-- Specification: rows `r 0`, ..., `r (n - 1)` are the baselines of a closed polygon of antennas: row `r i` goes from
antenna `a i` to antenna `a (i + 1)` and the last one ends where the first one starts. -/
structure Polygon (ant1 ant2 : Nat → Nat) (n : Nat) (r a : Nat → Nat) : Prop where
  start : ∀ i < n, ant1 (r i) = a i
  stop : ∀ i < n, ant2 (r i) = a (i + 1)
  closed : a n = a 0

/-- Specification: rows `r 0`, `r 1`, `r 2`, `r 3` are the baselines `ab`, `cb`, `cd` and `ad` of four antennas. -/
structure Quad (ant1 ant2 : Nat → Nat) (r : Nat → Nat) : Prop where
  a : ant1 (r 0) = ant1 (r 3)
  b : ant2 (r 0) = ant2 (r 1)
  c : ant1 (r 1) = ant1 (r 2)
  d : ant2 (r 2) = ant2 (r 3)

/-! ### phase delays -/

private theorem delay_prod (s l m nu : ℝ) (n : Nat) (u v w : Nat → ℝ) :
    ∏ i ∈ range n, Rime.delay s l m (u i) (v i) (w i) nu =
      Rime.delay s l m (∑ i ∈ range n, u i) (∑ i ∈ range n, v i) (∑ i ∈ range n, w i) nu := by
  unfold Rime.delay
  rw [← Complex.exp_sum, ← mul_sum, ← Complex.ofReal_sum]
  congr 3
  simp only [← mul_sum, ← sum_mul, ← sum_div, sum_add_distrib]

private theorem delay_zero (s l m nu : ℝ) : Rime.delay s l m 0 0 0 nu = 1 := by simp [Rime.delay]

/-- **C155** Phase delays close: along baselines whose coordinates add up to zero the phase delays of every source in
every channel multiply to one, in both conventions. -/
theorem C155_phases (lm : Nat → ℝ × ℝ) (uvw : Nat → ℝ × ℝ × ℝ) (freq : Nat → ℝ) (convention : String)
    (k : Nat → Nat → Nat → ℂ) (hk : Rime.phaseDelay lm uvw freq convention = .ok k) (n : Nat) (r : Nat → Nat)
    (hu : ∑ i ∈ range n, (uvw (r i)).1 = 0) (hv : ∑ i ∈ range n, (uvw (r i)).2.1 = 0)
    (hw : ∑ i ∈ range n, (uvw (r i)).2.2 = 0) (s f : Nat) : ∏ i ∈ range n, k s (r i) f = 1 := by
  obtain ⟨⟨k1, h1, e1⟩, ⟨k2, h2, e2⟩, h3⟩ := Rime.C31_value lm uvw freq
  have close : ∀ sg, ∏ i ∈ range n, Rime.delay sg (lm s).1 (lm s).2 (uvw (r i)).1 (uvw (r i)).2.1 (uvw (r i)).2.2
      (freq f) = 1 := by
    intro sg
    rw [delay_prod, hu, hv, hw, delay_zero]
  by_cases hf : convention = "fourier"
  · subst hf
    rw [h1] at hk
    obtain rfl := Except.ok.inj hk
    rw [prod_congr rfl fun i _ => e1 s (r i) f]; exact close _
  · by_cases hc : convention = "casa"
    · subst hc
      rw [h2] at hk
      obtain rfl := Except.ok.inj hk
      rw [prod_congr rfl fun i _ => e2 s (r i) f]; exact close _
    · rw [h3 convention hf hc] at hk
      cases hk

/-- The baselines of a triangle of antennas at (0, 0, 0), (3, 1, 2) and (5, -4, 1). -/
example : ∃ k, Rime.phaseDelay (fun _ => (1 / 10, 1 / 5))
    (fun r => if r = 0 then (3, 1, 2) else if r = 1 then (2, -5, -1) else (-5, 4, -1)) (fun _ => 1) "fourier" = .ok k ∧
    ∏ i ∈ range 3, k 0 i 0 = 1 := by
  obtain ⟨⟨k, h, -⟩, -⟩ := Rime.C31_value (fun _ => (1 / 10, 1 / 5))
    (fun r => if r = 0 then (3, 1, 2) else if r = 1 then (2, -5, -1) else (-5, 4, -1)) (fun _ => 1)
  exact ⟨k, h, C155_phases _ _ _ _ k h 3 id (by norm_num [sum_range_succ]) (by norm_num [sum_range_succ])
    (by norm_num [sum_range_succ]) 0 0⟩

/-- **C155** A sky of one point source has closure phase zero: along baselines that add up to zero its predicted
visibilities multiply to a power of its spectrum. -/
theorem C155_point (uvw : Nat → ℝ × ℝ × ℝ) (freq : ℝ) (f : Nat) (src : Nat → Rime.WsSource)
    (point : (src 0).sourceType = "POINT") (n : Nat) (vis : Nat → ℂ)
    (hvis : ∀ i < n, Rime.wsPredictCell (uvw i) freq f src 1 = .ok (vis i))
    (hu : ∑ i ∈ range n, (uvw i).1 = 0) (hv : ∑ i ∈ range n, (uvw i).2.1 = 0) (hw : ∑ i ∈ range n, (uvw i).2.2 = 0) :
    ∏ i ∈ range n, vis i = ((src 0).spectrum f : ℂ) ^ n := by
  have cell : ∀ i, Rime.wsPredictCell (uvw i) freq f src 1 =
      .ok (((src 0).spectrum f : ℂ) *
        Rime.delay 1 (src 0).l (src 0).m (uvw i).1 (uvw i).2.1 (uvw i).2.2 freq) := by
    intro i
    let src' : Nat → Rime.WsSource := fun _ => { src 0 with emaj := 0, emin := 0 }
    have e : Rime.wsPredictCell (uvw i) freq f src 1 = Rime.wsPredictCell (uvw i) freq f src' 1 := by
      simp only [Rime.wsPredictCell, forRangeM_succ, forRangeM_zero, bind, Except.bind, src', point, if_true]
    rw [e, Rime.C40_sum (uvw i) freq f src' 1 (fun s _ => Or.inl point) fun s _ _ => rfl]
    simp [Rime.sourceVis, src', point]
  have hvis' : ∀ i ∈ range n, vis i = ((src 0).spectrum f : ℂ) *
      Rime.delay 1 (src 0).l (src 0).m (uvw i).1 (uvw i).2.1 (uvw i).2.2 freq := by
    intro i hi
    have := hvis i (mem_range.1 hi)
    rw [cell] at this
    exact (Except.ok.inj this).symm
  rw [prod_congr rfl hvis', prod_mul_distrib, prod_const, card_range, delay_prod, hu, hv, hw, delay_zero, mul_one]

/-! ### gains -/

private theorem prod_polygon {A : Type*} [CommMonoid A] (g : Nat → A) (n : Nat) (a : Nat → Nat) (h : a n = a 0) :
    ∏ i ∈ range n, g (a (i + 1)) = ∏ i ∈ range n, g (a i) := by
  cases n with
  | zero => rfl
  | succ n => rw [prod_range_succ, prod_range_succ' (fun i => g (a i)), h]

section
variable {K : Type*} [Field K] [StarRing K]
variable {ntim : Nat} {idx cnt : Nat → Nat} {m : Nat}

private theorem corrupt_dd (ant1 ant2 : Nat → Nat) (nchan : Nat) (j : Nat → Nat → Nat → Nat → Nat → K)
    (mod : Nat → Nat → Nat → Nat → K) (hm : IsMin ntim idx m) (hd : Disjoint' ntim idx cnt) :
    ∃ v, corruptVis ntim idx cnt ant1 ant2 nchan 1 (.five j) (.four mod) = .ok (.three v) ∧
      ∀ t < ntim, ∀ row, InBin idx cnt t (m + row) → ∀ nu < nchan, ∀ c,
        v row nu c = j t (ant1 row) nu 0 c * mod row nu 0 c * star (j t (ant2 row) nu 0 c) := by
  obtain ⟨v, h, -⟩ := C21_corrupt_diag_diag ant1 ant2 nchan 1 0 j mod hm hd
  refine ⟨v, h, fun t ht row hr nu hnu c => ?_⟩
  obtain ⟨v', h', h2, -⟩ := C21_corrupt_diag_diag ant1 ant2 nchan 1 (c + 1) j mod hm hd
  rw [h] at h'
  cases h'
  have := congrFun (congrFun (h2 t ht row hr nu hnu) ⟨c, by omega⟩) ⟨c, by omega⟩
  simpa [diagonal_conjTranspose, diagonal_mul_diagonal] using this

/-- **C155** Along a closed polygon of antennas the corrupted visibilities of one time, channel and correlation multiply
to the product of the model visibilities times `g g*` of every antenna on the way. -/
theorem C155_polygon (ant1 ant2 : Nat → Nat) (nchan : Nat) (j : Nat → Nat → Nat → Nat → Nat → K)
    (mod : Nat → Nat → Nat → Nat → K) (hm : IsMin ntim idx m) (hd : Disjoint' ntim idx cnt) (n : Nat) (r a : Nat → Nat)
    (hp : Polygon ant1 ant2 n r a) (t : Nat) (ht : t < ntim) (hr : ∀ i < n, InBin idx cnt t (m + r i)) :
    ∃ v, corruptVis ntim idx cnt ant1 ant2 nchan 1 (.five j) (.four mod) = .ok (.three v) ∧
      ∀ nu < nchan, ∀ c, ∏ i ∈ range n, v (r i) nu c =
        (∏ i ∈ range n, j t (a i) nu 0 c * star (j t (a i) nu 0 c)) * ∏ i ∈ range n, mod (r i) nu 0 c := by
  obtain ⟨v, h, h2⟩ := corrupt_dd ant1 ant2 nchan j mod hm hd
  refine ⟨v, h, fun nu hnu c => ?_⟩
  have cell : ∀ i ∈ range n, v (r i) nu c =
      j t (a i) nu 0 c * mod (r i) nu 0 c * star (j t (a (i + 1)) nu 0 c) := by
    intro i hi
    have hi' := mem_range.1 hi
    rw [h2 t ht (r i) (hr i hi') nu hnu c, hp.start i hi', hp.stop i hi']
  rw [prod_congr rfl cell, prod_mul_distrib, prod_mul_distrib, prod_mul_distrib,
    prod_polygon (fun p => star (j t p nu 0 c)) n a hp.closed]
  ring

/-- **C155** The ratio of visibilities around four antennas, `V_ab V_cd / (V_ad V_cb)`, is that of the model: gains drop
out, in amplitude and phase (written without division, so gains and visibilities may be zero). -/
theorem C155_quad (ant1 ant2 : Nat → Nat) (nchan : Nat) (j : Nat → Nat → Nat → Nat → Nat → K)
    (mod : Nat → Nat → Nat → Nat → K) (hm : IsMin ntim idx m) (hd : Disjoint' ntim idx cnt) (r : Nat → Nat)
    (hq : Quad ant1 ant2 r) (t : Nat) (ht : t < ntim) (hr : ∀ i < 4, InBin idx cnt t (m + r i)) :
    ∃ v, corruptVis ntim idx cnt ant1 ant2 nchan 1 (.five j) (.four mod) = .ok (.three v) ∧
      ∀ nu < nchan, ∀ c,
        v (r 0) nu c * v (r 2) nu c * (mod (r 3) nu 0 c * mod (r 1) nu 0 c) =
          v (r 3) nu c * v (r 1) nu c * (mod (r 0) nu 0 c * mod (r 2) nu 0 c) := by
  obtain ⟨v, h, h2⟩ := corrupt_dd ant1 ant2 nchan j mod hm hd
  refine ⟨v, h, fun nu hnu c => ?_⟩
  rw [h2 t ht _ (hr 0 (by omega)) nu hnu, h2 t ht _ (hr 1 (by omega)) nu hnu, h2 t ht _ (hr 2 (by omega)) nu hnu,
    h2 t ht _ (hr 3 (by omega)) nu hnu, hq.a, hq.b, hq.c, hq.d]
  ring

/-- **C155** 2x2 gains and visibilities: determinants close as scalars do. -/
theorem C155_determinants (ant1 ant2 : Nat → Nat) (nchan : Nat) (j : Nat → Nat → Nat → Nat → M2 K)
    (mod : Nat → Nat → Nat → M2 K) (hm : IsMin ntim idx m) (hd : Disjoint' ntim idx cnt) (n : Nat) (r a : Nat → Nat)
    (hp : Polygon ant1 ant2 n r a) (t : Nat) (ht : t < ntim) (hr : ∀ i < n, InBin idx cnt t (m + r i)) :
    ∃ v, corruptVis ntim idx cnt ant1 ant2 nchan 1 (.six j) (.five mod) = .ok (.four v) ∧
      ∀ nu < nchan, ∏ i ∈ range n, (v (r i) nu).det =
        (∏ i ∈ range n, (j t (a i) nu 0).det * star (j t (a i) nu 0).det) * ∏ i ∈ range n, (mod (r i) nu 0).det := by
  obtain ⟨v, h, h2, -⟩ := C21_corrupt_full ant1 ant2 nchan 1 j mod hm hd
  refine ⟨v, h, fun nu hnu => ?_⟩
  have cell : ∀ i ∈ range n, (v (r i) nu).det =
      (j t (a i) nu 0).det * (mod (r i) nu 0).det * star (j t (a (i + 1)) nu 0).det := by
    intro i hi
    have hi' := mem_range.1 hi
    rw [h2 t ht (r i) (hr i hi') nu hnu, hp.start i hi', hp.stop i hi', sum_range_one, det_mul, det_mul,
      det_conjTranspose]
  rw [prod_congr rfl cell, prod_mul_distrib, prod_mul_distrib, prod_mul_distrib,
    prod_polygon (fun p => star (j t p nu 0).det) n a hp.closed]
  ring

/-- **C155** 2x2 gains and visibilities: the closure trace of four antennas, `tr (V_ab V_cb⁻¹ V_cd V_ad⁻¹)`, is that of
the model whatever the (invertible) gains, leakages included. -/
theorem C155_trace (ant1 ant2 : Nat → Nat) (nchan : Nat) (j : Nat → Nat → Nat → Nat → M2 K)
    (mod : Nat → Nat → Nat → M2 K) (hm : IsMin ntim idx m) (hd : Disjoint' ntim idx cnt) (r : Nat → Nat)
    (hq : Quad ant1 ant2 r) (t : Nat) (ht : t < ntim) (hr : ∀ i < 4, InBin idx cnt t (m + r i))
    (inv : ∀ p nu, (j t p nu 0).det ≠ 0) :
    ∃ v, corruptVis ntim idx cnt ant1 ant2 nchan 1 (.six j) (.five mod) = .ok (.four v) ∧
      ∀ nu < nchan, trace (v (r 0) nu * (v (r 1) nu)⁻¹ * v (r 2) nu * (v (r 3) nu)⁻¹) =
        trace (mod (r 0) nu 0 * (mod (r 1) nu 0)⁻¹ * mod (r 2) nu 0 * (mod (r 3) nu 0)⁻¹) := by
  obtain ⟨v, h, h2, -⟩ := C21_corrupt_full ant1 ant2 nchan 1 j mod hm hd
  refine ⟨v, h, fun nu hnu => ?_⟩
  rw [h2 t ht _ (hr 0 (by omega)) nu hnu, h2 t ht _ (hr 1 (by omega)) nu hnu, h2 t ht _ (hr 2 (by omega)) nu hnu,
    h2 t ht _ (hr 3 (by omega)) nu hnu, hq.a, hq.b, hq.c, hq.d]
  simp only [sum_range_one, Matrix.mul_inv_rev]
  have ua := isUnit_iff_ne_zero.2 (inv (ant1 (r 3)) nu)
  have uc := isUnit_iff_ne_zero.2 (inv (ant1 (r 2)) nu)
  have ub : IsUnit ((j t (ant2 (r 1)) nu 0)ᴴ).det := by
    rw [det_conjTranspose]; exact (isUnit_iff_ne_zero.2 (inv (ant2 (r 1)) nu)).star
  have ud : IsUnit ((j t (ant2 (r 3)) nu 0)ᴴ).det := by
    rw [det_conjTranspose]; exact (isUnit_iff_ne_zero.2 (inv (ant2 (r 3)) nu)).star
  generalize j t (ant1 (r 3)) nu 0 = A at *
  generalize j t (ant1 (r 2)) nu 0 = C at *
  generalize (j t (ant2 (r 1)) nu 0)ᴴ = B at *
  generalize (j t (ant2 (r 3)) nu 0)ᴴ = D at *
  generalize mod (r 0) nu 0 = p
  generalize (mod (r 1) nu 0)⁻¹ = q
  generalize mod (r 2) nu 0 = x
  generalize (mod (r 3) nu 0)⁻¹ = y
  have e : A * p * B * (B⁻¹ * (q * C⁻¹)) * (C * x * D) * (D⁻¹ * (y * A⁻¹)) = A * (p * q * x * y) * A⁻¹ := by
    calc _ = A * p * (B * B⁻¹) * q * (C⁻¹ * C) * x * (D * D⁻¹) * y * A⁻¹ := by simp only [Matrix.mul_assoc]
      _ = _ := by
        rw [mul_nonsing_inv _ ub, nonsing_inv_mul _ uc, mul_nonsing_inv _ ud]
        simp only [Matrix.mul_one, Matrix.mul_assoc]
  rw [e, Matrix.mul_assoc, trace_mul_comm, Matrix.mul_assoc, nonsing_inv_mul _ ua, Matrix.mul_one]

end

/-- **C155** Closure phases: with complex gains that are not zero the phase of the product of corrupted visibilities along
a closed polygon is the phase of the product of model visibilities. -/
theorem C155_closure_phase {ntim : Nat} {idx cnt : Nat → Nat} {m : Nat} (ant1 ant2 : Nat → Nat) (nchan : Nat)
    (j : Nat → Nat → Nat → Nat → Nat → ℂ) (mod : Nat → Nat → Nat → Nat → ℂ) (hm : IsMin ntim idx m)
    (hd : Disjoint' ntim idx cnt) (n : Nat) (r a : Nat → Nat) (hp : Polygon ant1 ant2 n r a) (t : Nat) (ht : t < ntim)
    (hr : ∀ i < n, InBin idx cnt t (m + r i)) (nz : ∀ p nu c, j t p nu 0 c ≠ 0) :
    ∃ v, corruptVis ntim idx cnt ant1 ant2 nchan 1 (.five j) (.four mod) = .ok (.three v) ∧
      ∀ nu < nchan, ∀ c, Complex.arg (∏ i ∈ range n, v (r i) nu c) = Complex.arg (∏ i ∈ range n, mod (r i) nu 0 c) := by
  obtain ⟨v, h, h2⟩ := C155_polygon ant1 ant2 nchan j mod hm hd n r a hp t ht hr
  refine ⟨v, h, fun nu hnu c => ?_⟩
  have e : ∏ i ∈ range n, j t (a i) nu 0 c * star (j t (a i) nu 0 c) =
      ((∏ i ∈ range n, Complex.normSq (j t (a i) nu 0 c) : ℝ) : ℂ) := by
    rw [Complex.ofReal_prod]
    exact prod_congr rfl fun i _ => Complex.mul_conj _
  rw [h2 nu hnu c, e]
  exact Complex.arg_real_mul _ (prod_pos fun i _ => Complex.normSq_pos.2 (nz _ _ _))

/-- A triangle of antennas 0, 1, 2 as rows 0 to 2 of one time bin: the hypotheses hold. -/
example : Polygon (fun r => r) (fun r => (r + 1) % 3) 3 id (fun i => i % 3) ∧ IsMin 1 (fun _ => 0) 0 ∧
    Disjoint' 1 (fun _ => 0) (fun _ => 3) ∧ ∀ i < 3, InBin (fun _ => 0) (fun _ => 3) 0 (0 + id i) := by
  refine ⟨⟨?_, ?_, rfl⟩, ⟨⟨0, by omega, rfl⟩, fun _ _ => Nat.le_refl _⟩, ?_, ?_⟩
  · intro i hi; simp only [id]; omega
  · intro i hi; rfl
  · intro t ht t' ht' _ _ _; omega
  · intro i hi; simp only [InBin, id]; omega

/-- The baselines 0-1, 2-1, 2-3 and 0-3. -/
example : Quad (fun r => if r = 0 ∨ r = 3 then 0 else 2) (fun r => if r ≤ 1 then 1 else 3) id :=
  ⟨rfl, rfl, rfl, rfl⟩

end Verif.Calibration
