/-
C178: sums over the grid, and grids that are constant.
-/
import Verif.Gridding.GridderProps

set_option autoImplicit false

namespace Verif.Gridding

open Finset

/-! ### Specification -/

/-- The grid coordinate of row `r` and channel `c` along axis `j` (0: u, 1: v), from the centre of the grid. -/
noncomputable def gridCoord (cfg : Cfg) (npix : Nat) (uvw : Nat → ℝ) (r c j : Nat) : ℝ :=
  uvw (3 * r + j) * scaleFactor npix cfg.cellsize / cfg.wavelengths c

/-- All taps of a sample fall on the grid along one axis. -/
def OnGrid (k : Kern) (npix : Nat) (s : ℝ) : Prop := ∀ t < k.W, 0 ≤ lookup k npix s t ∧ lookup k npix s t < npix

/-- The sum of the taps of a sample, over both axes. -/
noncomputable def tapSum (tap : Kern → Nat → ℝ → Nat → ℝ) (k : Kern) (npix : Nat) (su sv : ℝ) : ℝ :=
  (∑ t ∈ range k.W, tap k npix sv t) * ∑ t ∈ range k.W, tap k npix su t

/-- The Stokes parameter of a sample. -/
noncomputable def stokesOf (cfg : Cfg) (vis : Nat → Nat → Nat → ℂ) (r c : Nat) : ℂ := okOr 0 (corr2stokes cfg.stokes (vis r c))

/-- The sum of all cells of a band. -/
noncomputable def gridSum (npix b : Nat) (grid : ℤ → ℂ) : ℂ := ∑ v ∈ range npix, ∑ u ∈ range npix, grid (cell npix b v u)

/-! ### Lemmas -/

private theorem tapAt_sum (tap : Kern → Nat → ℝ → Nat → ℝ) (k : Kern) (npix : Nat) (s : ℝ) (h : OnGrid k npix s) :
    ∑ v ∈ range npix, tapAt tap k npix s (v : ℤ) = ∑ t ∈ range k.W, tap k npix s t := by
  have e : ∀ v ∈ range npix, tapAt tap k npix s (v : ℤ) =
      ∑ t ∈ range k.W, if lookup k npix s t = (v : ℤ) then tap k npix s t else 0 :=
    fun v _ => (sum_tap tap k npix s (v : ℤ) id rfl).symm
  rw [sum_congr rfl e, sum_comm]
  refine sum_congr rfl fun t ht => ?_
  obtain ⟨h0, h1⟩ := h t (mem_range.1 ht)
  rw [sum_eq_single (lookup k npix s t).toNat]
  · rw [if_pos (by omega)]
  · intro v _ hv
    rw [if_neg (by omega)]
  · intro hn
    exact absurd (mem_range.2 (by omega)) hn

private theorem omega_tapSum {cfg : Cfg} (h : cfg.conv ∈ oneDim) (npix : Nat) (su sv : ℝ) :
    omega cfg.conv cfg.kern npix su sv = tapSum (scatterTapOf cfg.conv) cfg.kern npix su sv := by
  simp only [oneDim, List.mem_cons, List.not_mem_nil, or_false] at h
  unfold omega tapSum scatterTapOf
  rcases h with h | h <;> rw [h]
  · rw [if_neg (by decide), if_pos rfl, if_pos rfl]
  · rw [if_neg (by decide), if_neg (by decide), if_neg (by decide)]

private theorem scaled_coord {cfg : Cfg} (hb : cfg.baseline = "None") (npix : Nat) (uvw : Nat → ℝ) (r c j : Nat) :
    scaled cfg npix uvw r c j = gridCoord cfg npix uvw r c j := by
  rw [scaled, gridCoord, rowCoord, hb, baselinePolicy, if_pos rfl, okOr]

private theorem stokesVal_eq {cfg : Cfg} (hp : cfg.phase = "None") (uvw : Nat → ℝ) (vis : Nat → Nat → Nat → ℂ) (r c : Nat) :
    stokesVal cfg uvw vis r c = stokesOf cfg vis r c := by
  rw [stokesVal, stokesOf, phased, hp, phasePolicy, if_pos rfl, okOr]

/-! ### The property -/

/-- **C178** The sum of all cells of a band is the sum over its samples of their Stokes parameter times the sum of their taps,
and, if the grid is normalised, this divided by the total of the taps plus 1e-8; for samples whose taps fall on the grid. -/
theorem C178_total (cfg : Cfg) (hconv : cfg.conv ∈ oneDim) (hb : cfg.baseline = "None") (hp : cfg.phase = "None")
    (npix nrow nchan ur uc : Nat) (uvw : Nat → ℝ) (vis : Nat → Nat → Nat → ℂ) (normalize : Bool) (junk : ℤ → ℂ) (s : GridState)
    (h : gridder cfg npix nrow nchan ur uc uvw vis normalize junk = .ok s) (b : Nat) (hband : b < nband cfg.nmap cfg.chanmap)
    (hon : ∀ r < nrow, ∀ c < nchan, cfg.chanmap c = b →
      OnGrid cfg.kern npix (gridCoord cfg npix uvw r c 0) ∧ OnGrid cfg.kern npix (gridCoord cfg npix uvw r c 1))
    (w : Nat → Nat → ℝ)
    (hw : w = fun r c => tapSum (scatterTapOf cfg.conv) cfg.kern npix (gridCoord cfg npix uvw r c 0) (gridCoord cfg npix uvw r c 1)) :
    gridSum npix b s.grid =
      (∑ r ∈ range nrow, ∑ c ∈ range nchan, if cfg.chanmap c = b then (w r c : ℂ) * stokesOf cfg vis r c else 0) /
        (if normalize then
          (((∑ r ∈ range nrow, ∑ c ∈ range nchan, if cfg.chanmap c = b then w r c else 0) + 1 / 100000000 : ℝ) : ℂ) else 1) := by
  have hdiv : divisor cfg npix nrow nchan uvw normalize b = (if normalize then
      (((∑ r ∈ range nrow, ∑ c ∈ range nchan, if cfg.chanmap c = b then w r c else 0) + 1 / 100000000 : ℝ) : ℂ) else 1) := by
    unfold divisor weight
    simp only [scaled_coord hb, omega_tapSum hconv, hw]
  have hcell : ∀ v ∈ range npix, ∀ u ∈ range npix, s.grid (cell npix b v u) =
      (∑ r ∈ range nrow, ∑ c ∈ range nchan, if cfg.chanmap c = b then
        ((tapAt (scatterTapOf cfg.conv) cfg.kern npix (gridCoord cfg npix uvw r c 1) v *
          tapAt (scatterTapOf cfg.conv) cfg.kern npix (gridCoord cfg npix uvw r c 0) u : ℝ) : ℂ) * stokesOf cfg vis r c else 0) /
        divisor cfg npix nrow nchan uvw normalize b := by
    intro v hv u hu
    rw [mem_range] at hv hu
    have hin : inGrid npix (v : ℤ) (u : ℤ) := ⟨by omega, by exact_mod_cast hv, by omega, by exact_mod_cast hu⟩
    rw [(gridder_value h).1 b v u hband hin]
    refine congrArg (· / _) (sum_congr rfl fun r _ => sum_congr rfl fun c _ => ?_)
    rw [kappa_cell hconv _ _ _ _ _ _ _ _ hin, scaled_coord hb, scaled_coord hb, stokesVal_eq hp]
    split_ifs <;> simp
  unfold gridSum
  rw [sum_congr rfl fun v hv => sum_congr rfl fun u hu => hcell v hv u hu, hdiv]
  simp only [← sum_div]
  refine congrArg (· / _) ?_
  rw [sum_congr rfl fun v _ => sum_comm, sum_comm]
  refine sum_congr rfl fun r hr => ?_
  rw [sum_congr rfl fun v _ => sum_comm, sum_comm]
  refine sum_congr rfl fun c hc => ?_
  split_ifs with hcb
  · obtain ⟨o0, o1⟩ := hon r (mem_range.1 hr) c (mem_range.1 hc) hcb
    simp only [hw]
    simp only [tapSum, ← tapAt_sum _ _ _ _ o0, ← tapAt_sum _ _ _ _ o1]
    simp only [← sum_mul, ← Complex.ofReal_sum, ← mul_sum]
  · simp

/-- **C178** If all samples of a band have the same Stokes parameter `S` and their taps sum to `W > 0`, the cells of the normalised
grid sum to `S` up to one part in `1e8 W`. -/
theorem C178_mean (cfg : Cfg) (hconv : cfg.conv ∈ oneDim) (hb : cfg.baseline = "None") (hp : cfg.phase = "None")
    (npix nrow nchan ur uc : Nat) (uvw : Nat → ℝ) (vis : Nat → Nat → Nat → ℂ) (junk : ℤ → ℂ) (s : GridState)
    (h : gridder cfg npix nrow nchan ur uc uvw vis true junk = .ok s) (b : Nat) (hband : b < nband cfg.nmap cfg.chanmap)
    (hon : ∀ r < nrow, ∀ c < nchan, cfg.chanmap c = b →
      OnGrid cfg.kern npix (gridCoord cfg npix uvw r c 0) ∧ OnGrid cfg.kern npix (gridCoord cfg npix uvw r c 1))
    (S : ℂ) (hS : ∀ r < nrow, ∀ c < nchan, cfg.chanmap c = b → stokesOf cfg vis r c = S) (W : ℝ)
    (hW : W = ∑ r ∈ range nrow, ∑ c ∈ range nchan, if cfg.chanmap c = b then
      tapSum (scatterTapOf cfg.conv) cfg.kern npix (gridCoord cfg npix uvw r c 0) (gridCoord cfg npix uvw r c 1) else 0) (hpos : 0 < W) :
    ‖gridSum npix b s.grid - S‖ ≤ ‖S‖ * (1 / 100000000 / W) := by
  rw [C178_total cfg hconv hb hp npix nrow nchan ur uc uvw vis true junk s h b hband hon _ rfl, if_pos rfl]
  have hnum : (∑ r ∈ range nrow, ∑ c ∈ range nchan, if cfg.chanmap c = b then
      ((tapSum (scatterTapOf cfg.conv) cfg.kern npix (gridCoord cfg npix uvw r c 0) (gridCoord cfg npix uvw r c 1) : ℝ) : ℂ) *
        stokesOf cfg vis r c else 0) = (W : ℂ) * S := by
    rw [hW, Complex.ofReal_sum, sum_mul]
    refine sum_congr rfl fun r hr => ?_
    rw [Complex.ofReal_sum, sum_mul]
    refine sum_congr rfl fun c hc => ?_
    split_ifs with hcb
    · rw [hS r (mem_range.1 hr) c (mem_range.1 hc) hcb]
    · simp
  rw [hnum, ← hW]
  have hne : ((W + 1 / 100000000 : ℝ) : ℂ) ≠ 0 := by
    have : (0 : ℝ) < W + 1 / 100000000 := by positivity
    exact_mod_cast this.ne'
  have e : (W : ℂ) * S / ((W + 1 / 100000000 : ℝ) : ℂ) - S = -(((1 / 100000000 / (W + 1 / 100000000) : ℝ) : ℂ) * S) := by
    rw [div_sub' hne, div_eq_iff hne]
    have e2 : ((1 / 100000000 / (W + 1 / 100000000) : ℝ) : ℂ) * ((W + 1 / 100000000 : ℝ) : ℂ) = ((1 / 100000000 : ℝ) : ℂ) := by
      rw [← Complex.ofReal_mul, div_mul_cancel₀ _ (by positivity)]
    rw [neg_mul, mul_right_comm, e2]
    push_cast
    ring
  rw [e, norm_neg, norm_mul, Complex.norm_real, Real.norm_of_nonneg (by positivity), mul_comm]
  gcongr
  linarith

/-- **C178** Degridding a grid whose band of the channel is constant gives the correlations of that constant, times the sum `w` of
the taps on the grid over `w + 1e-8`, on every baseline. -/
theorem C178_constant (cfg : Cfg) (c st : String) (hpair : (c, st) ∈ pairs) (hs : cfg.stokes = c ++ "_FROM_" ++ st)
    (hb : cfg.baseline = "None") (hp : cfg.phase = "None")
    (gb npix nx nrow uc : Nat) (uvw : Nat → ℝ) (G : ℤ → ℂ) (d : DegridState)
    (h : degridder cfg gb npix nx nrow uc uvw G = .ok d) (r ch : Nat) (hr : r < nrow) (hch : ch < cfg.nlam) (g : ℂ)
    (hG : ∀ v u : Nat, v < npix → u < npix → G (cell npix (cfg.chanmap ch) v u) = g)
    (x : Nat → ℂ) (hx : stokes2corr cfg.stokes g (fun _ => 0) = .ok x) (w : ℝ)
    (hw : w = (∑ v ∈ range npix, tapAt (gatherTapOf cfg.conv) cfg.kern npix (gridCoord cfg npix uvw r ch 1) v) *
      ∑ u ∈ range npix, tapAt (gatherTapOf cfg.conv) cfg.kern npix (gridCoord cfg npix uvw r ch 0) u) (i : Nat) :
    d.vis r ch i = x i * ((w / (w + 1 / 100000000) : ℝ) : ℂ) := by
  obtain ⟨coef, n, -, hc1, -⟩ := pair_coef c st hpair
  rw [← hs] at hc1
  have hxi : x i = coef i * g := by
    rw [hc1] at hx
    cases hx
    simp
  have hco : ∀ j, scaledD cfg npix uvw r ch j = gridCoord cfg npix uvw r ch j := by
    intro j
    rw [scaledD, gridCoord, rowCoord, hb, baselinePolicy, if_pos rfl, okOr]
  rw [(degridder_value h coef hc1).1 r, if_pos hr, degridVis]
  simp only [hp, phasePolicy, if_true, okOr]
  rw [if_pos hch, collected, hco, hco]
  have hg : gathered (gatherTapOf cfg.conv) cfg.kern npix (cfg.chanmap ch) (gridCoord cfg npix uvw r ch 0) (gridCoord cfg npix uvw r ch 1) G =
      (w : ℂ) * g := by
    unfold gathered
    rw [hw, sum_mul_sum, Complex.ofReal_sum, sum_mul]
    refine sum_congr rfl fun v hv => ?_
    rw [Complex.ofReal_sum, sum_mul]
    refine sum_congr rfl fun u hu => ?_
    rw [hG v u (mem_range.1 hv) (mem_range.1 hu)]
    push_cast
    ring
  have hwi : weightIn (gatherTapOf cfg.conv) cfg.kern npix (gridCoord cfg npix uvw r ch 0) (gridCoord cfg npix uvw r ch 1) = w := by
    unfold weightIn
    rw [hw, sum_mul_sum]
  rw [hg, hwi, hxi]
  push_cast
  ring

/-- **C178** When all taps fall on the grid, the sum of the taps on the grid is the sum of the taps. -/
theorem C178_inside (cfg : Cfg) (npix : Nat) (uvw : Nat → ℝ) (r ch : Nat)
    (hon : OnGrid cfg.kern npix (gridCoord cfg npix uvw r ch 0) ∧ OnGrid cfg.kern npix (gridCoord cfg npix uvw r ch 1)) :
    (∑ v ∈ range npix, tapAt (gatherTapOf cfg.conv) cfg.kern npix (gridCoord cfg npix uvw r ch 1) v) *
        (∑ u ∈ range npix, tapAt (gatherTapOf cfg.conv) cfg.kern npix (gridCoord cfg npix uvw r ch 0) u) =
      tapSum (gatherTapOf cfg.conv) cfg.kern npix (gridCoord cfg npix uvw r ch 0) (gridCoord cfg npix uvw r ch 1) := by
  rw [tapAt_sum _ _ _ _ hon.1, tapAt_sum _ _ _ _ hon.2, tapSum]

/-- Non-vacuity: one sample in the middle of a grid of eight cells, with one tap: its call succeeds, its tap falls on the grid and
the taps sum to one. -/
example : GridOk (unitCfg 8 "None" "I_FROM_XXYY" "conv_1d_axisymmetric_packed_scatter" (1, 1)) 1 1 1 3 ∧
    OnGrid unitKern 8 0 ∧
    tapSum (scatterTapOf "conv_1d_axisymmetric_packed_scatter") unitKern 8 0 0 = 1 := by
  refine ⟨⟨⟨_, rfl⟩, ⟨_, rfl⟩, rfl, rfl, by decide, rfl, rfl, rfl⟩, ?_, ?_⟩
  · intro t ht
    have hd : disc 8 0 = 4 := by have := disc_int 8 0; simpa using this
    have : unitKern.W = 1 := rfl
    unfold lookup
    rw [hd]
    rw [this] at ht ⊢
    omega
  · have h : ∀ t, scatterTapOf "conv_1d_axisymmetric_packed_scatter" unitKern 8 0 t = 1 := by
      intro t
      unfold scatterTapOf
      split_ifs <;> rfl
    have : unitKern.W = 1 := rfl
    simp [tapSum, h, this]

end Verif.Gridding
