/-
C76, C104 and C105: the gridder is linear and the degridder its adjoint, the grid is not left, taps are the nearest ones.
-/
import Verif.Gridding.GridderSpec
import Verif.Gridding.KernelsProps

set_option autoImplicit false

namespace Verif.Gridding

open Finset

theorem corr2stokes_linear (p : String) (α β : ℂ) (a b : Nat → ℂ) :
    okOr 0 (corr2stokes p fun i => α * a i + β * b i) = α * okOr 0 (corr2stokes p a) + β * okOr 0 (corr2stokes p b) := by
  by_cases h : p ∈ toStokesNames
  · simp only [toStokesNames, List.mem_cons, List.not_mem_nil, or_false] at h
    rcases h with h | h | h | h | h | h | h | h | h | h | h | h | h | h | h <;> subst h <;>
      (change okOr 0 (Except.ok _) = α * okOr 0 (Except.ok _) + β * okOr 0 (Except.ok _)
       simp only [okOr]
       ring1)
  · rw [(C75_supported p 0 a).2.2.2 h, (C75_supported p 0 b).2.2.2 h, (C75_supported p 0 fun i => α * a i + β * b i).2.2.2 h]
    simp [okOr]

theorem phased_linear (cfg : Cfg) (uvw : Nat → ℝ) (α β : ℂ) (v w : Nat → Nat → Nat → ℂ) (r c i : Nat) :
    phased cfg uvw (fun r c i => α * v r c i + β * w r c i) r c i = α * phased cfg uvw v r c i + β * phased cfg uvw w r c i := by
  unfold phased phasePolicy
  split_ifs <;> simp only [okOr, phaseRotate]
  ring

/-- C76: the gridder is linear in the visibilities, with every policy, normalised or not; whether it raises does not depend on
the visibilities. -/
theorem C76_linear (cfg : Cfg) (npix nrow nchan ur uc : Nat) (uvw : Nat → ℝ) (v w : Nat → Nat → Nat → ℂ) (norm : Bool)
    (junk : ℤ → ℂ) (α β : ℂ) (s : GridState) (h : gridder cfg npix nrow nchan ur uc uvw v norm junk = .ok s) :
    ∃ t st, gridder cfg npix nrow nchan ur uc uvw w norm junk = .ok t ∧
      gridder cfg npix nrow nchan ur uc uvw (fun r c i => α * v r c i + β * w r c i) norm junk = .ok st ∧
      ∀ b y x, b < nband cfg.nmap cfg.chanmap → inGrid npix y x →
        st.grid (cell npix b y x) = α * s.grid (cell npix b y x) + β * t.grid (cell npix b y x) := by
  have hok := gridder_ok_iff.1 ⟨s, h⟩
  obtain ⟨t, ht⟩ := (gridder_ok_iff (vis := w) (uvw := uvw) (npix := npix) (norm := norm) (junk := junk)).2 hok
  obtain ⟨st, hst⟩ := (gridder_ok_iff (vis := fun r c i => α * v r c i + β * w r c i) (uvw := uvw) (npix := npix)
    (norm := norm) (junk := junk)).2 hok
  refine ⟨t, st, ht, hst, fun b y x hb hin => ?_⟩
  rw [(gridder_value h).1 b y x hb hin, (gridder_value ht).1 b y x hb hin, (gridder_value hst).1 b y x hb hin, ← mul_div_assoc,
    ← mul_div_assoc, ← add_div, mul_sum, mul_sum, ← sum_add_distrib]
  congr 1
  refine sum_congr rfl fun r _ => ?_
  rw [mul_sum, mul_sum, ← sum_add_distrib]
  refine sum_congr rfl fun c _ => ?_
  have : stokesVal cfg uvw (fun r c i => α * v r c i + β * w r c i) r c = α * stokesVal cfg uvw v r c + β * stokesVal cfg uvw w r c := by
    unfold stokesVal
    rw [← corr2stokes_linear]
    congr 2
    funext i
    exact phased_linear cfg uvw α β v w r c i
  rw [this]
  ring

/-- The tap of a one dimensional scatter policy, by name. -/
noncomputable def scatterTapOf (name : String) : Kern → Nat → ℝ → Nat → ℝ :=
  if name = "conv_1d_axisymmetric_packed_scatter" then packedTap else unpackedTap

/-- The one dimensional scatter policies. -/
def oneDim : List String := ["conv_1d_axisymmetric_packed_scatter", "conv_1d_axisymmetric_unpacked_scatter"]

theorem kappa_cell {name : String} (h : name ∈ oneDim) (k : Kern) (npix b b' : Nat) (su sv : ℝ) (v u : ℤ) (hin : inGrid npix v u) :
    kappa name k npix b su sv (cell npix b' v u) =
      if b = b' then tapAt (scatterTapOf name) k npix sv v * tapAt (scatterTapOf name) k npix su u else 0 := by
  simp only [oneDim, List.mem_cons, List.not_mem_nil, or_false] at h
  rcases h with rfl | rfl
  · rw [kappa, if_neg (by decide), if_pos rfl, scatterCoef_cell _ _ _ _ _ _ _ _ _ hin, scatterTapOf, if_pos rfl]
  · have e : ¬ ("conv_1d_axisymmetric_unpacked_scatter" = "conv_1d_axisymmetric_packed_scatter") := by decide
    rw [kappa, if_neg (by decide), if_neg e, scatterCoef_cell _ _ _ _ _ _ _ _ _ hin, scatterTapOf, if_neg e]

/-- C76: with the one dimensional policies every cell is the sum, over the rows and the channels of its band, of the tap of the row
axis times the tap of the column axis times the Stokes value of the phased visibility. -/
theorem C76_value (cfg : Cfg) (hname : cfg.conv ∈ oneDim) (npix nrow nchan ur uc : Nat) (uvw : Nat → ℝ) (vis : Nat → Nat → Nat → ℂ)
    (junk : ℤ → ℂ) (s : GridState) (h : gridder cfg npix nrow nchan ur uc uvw vis false junk = .ok s) (b : Nat) (v u : ℤ)
    (hb : b < nband cfg.nmap cfg.chanmap) (hin : inGrid npix v u) :
    s.grid (cell npix b v u) = ∑ r ∈ range nrow, ∑ c ∈ range nchan, if cfg.chanmap c = b then
      ((tapAt (scatterTapOf cfg.conv) cfg.kern npix (scaled cfg npix uvw r c 1) v *
        tapAt (scatterTapOf cfg.conv) cfg.kern npix (scaled cfg npix uvw r c 0) u : ℝ) : ℂ) * stokesVal cfg uvw vis r c else 0 := by
  rw [(gridder_value h).1 b v u hb hin, divisor, if_neg (by simp), div_one]
  refine sum_congr rfl fun r _ => sum_congr rfl fun c _ => ?_
  rw [kappa_cell hname _ _ _ _ _ _ _ _ hin]
  split_ifs <;> simp

set_option maxHeartbeats 2000000 in
/-- For every set of correlations and Stokes parameter named in both directions, the conversion to the Stokes parameter is half the
adjoint of the conversion to correlations. -/
theorem pair_coef (c st : String) (h : (c, st) ∈ pairs) : ∃ (coef : Nat → ℂ) (n : Nat), ncorrOut (c ++ "_FROM_" ++ st) = .ok n ∧
    (∀ s v, stokes2corr (c ++ "_FROM_" ++ st) s v = .ok (fun i => v i + coef i * s)) ∧
    ∀ v, corr2stokes (st ++ "_FROM_" ++ c) v = .ok (1 / 2 * ∑ i ∈ range n, v i * (starRingEnd ℂ) (coef i)) := by
  have hmem : c ++ "_FROM_" ++ st ∈ toCorrNames := by
    simp only [pairs, List.mem_cons, List.not_mem_nil, or_false, Prod.mk.injEq] at h
    rcases h with h | h | h | h | h | h | h | h | h | h | h | h | h | h | h <;> obtain ⟨rfl, rfl⟩ := h <;> decide
  obtain ⟨coef, hc⟩ := stokes2corr_affine hmem
  have hv : ∀ i, coef i = okOr (fun _ => 0) (stokes2corr (c ++ "_FROM_" ++ st) 1 (fun _ => 0)) i := by
    intro i
    rw [hc]
    simp [okOr]
  have h0 := hv 0
  have h1 := hv 1
  have h2 := hv 2
  have h3 := hv 3
  simp only [pairs, List.mem_cons, List.not_mem_nil, or_false, Prod.mk.injEq] at h
  rcases h with h | h | h | h | h | h | h | h | h | h | h | h | h | h | h <;> obtain ⟨rfl, rfl⟩ := h <;>
    refine ⟨coef, _, rfl, hc, fun v => (congrArg Except.ok ?_ : Except.ok _ = Except.ok _)⟩ <;>
    simp [stokes2corr, okOr, addAt, Function.update] at h0 h1 h2 h3 <;>
    simp [Finset.sum_range_succ, h0, h1, h2, h3] <;> ring1

/-- The pairs of gridding and degridding policies with the same taps. -/
def policyPairs : List (String × String) :=
  [("conv_1d_axisymmetric_packed_scatter", "conv_1d_axisymmetric_packed_gather"),
   ("conv_1d_axisymmetric_unpacked_scatter", "conv_1d_axisymmetric_unpacked_gather")]

/-- C76, part proved: without a baseline transform, degridding is the adjoint of gridding: for all visibilities `vis` and grids `G`,
`⟨grid(vis), G⟩ = ⟨vis, D degrid(G)⟩ / 2`, where `D` undoes the division of every visibility by the weight of its taps inside the
grid. Missing: baseline transforms, see `C76_violated`. -/
theorem C76_adjoint_partial (cfg cfg' : Cfg) (c st : String) (hp : (c, st) ∈ pairs) (hs : cfg.stokes = st ++ "_FROM_" ++ c)
    (hs' : cfg'.stokes = c ++ "_FROM_" ++ st) (hconv : (cfg.conv, cfg'.conv) ∈ policyPairs)
    (hsame : cfg' = { cfg with stokes := cfg'.stokes, conv := cfg'.conv }) (hb : cfg.baseline = "None")
    (npix nrow nchan gb n : Nat) (uvw : Nat → ℝ) (vis : Nat → Nat → Nat → ℂ) (G junk : ℤ → ℂ) (g : GridState) (d : DegridState)
    (hg : gridder cfg npix nrow nchan nrow 3 uvw vis false junk = .ok g) (hd : degridder cfg' gb npix npix nrow 3 uvw G = .ok d)
    (hn : ncorrOut cfg'.stokes = .ok n) (D : Nat → Nat → ℝ)
    (hD : ∀ r c, D r c = weightIn (scatterTapOf cfg.conv) cfg.kern npix
      (uvw (3 * r) * scaleFactor npix cfg.cellsize / cfg.wavelengths c)
      (uvw (3 * r + 1) * scaleFactor npix cfg.cellsize / cfg.wavelengths c) + 1 / 100000000)
    (hw : ∀ r < nrow, ∀ c < nchan, D r c ≠ 0) :
    ∑ b ∈ range (nband cfg.nmap cfg.chanmap), ∑ v ∈ range npix, ∑ u ∈ range npix,
        g.grid (cell npix b v u) * (starRingEnd ℂ) (G (cell npix b v u)) =
      1 / 2 * ∑ r ∈ range nrow, ∑ c ∈ range nchan, (D r c : ℂ) * ∑ i ∈ range n, vis r c i * (starRingEnd ℂ) (d.vis r c i) := by
  obtain ⟨coef, n', hn', hc1, hc2⟩ := pair_coef c st hp
  rw [← hs', hn] at hn'
  cases hn'
  rw [← hs'] at hc1
  rw [← hs] at hc2
  have hone : cfg.conv ∈ oneDim := by
    simp only [policyPairs, List.mem_cons, List.not_mem_nil, or_false, Prod.mk.injEq] at hconv
    rcases hconv with ⟨h1, -⟩ | ⟨h1, -⟩ <;> rw [h1] <;> decide
  have htap : gatherTapOf cfg'.conv = scatterTapOf cfg.conv := by
    simp only [policyPairs, List.mem_cons, List.not_mem_nil, or_false, Prod.mk.injEq] at hconv
    rcases hconv with ⟨h1, h2⟩ | ⟨h1, h2⟩ <;> rw [h1, h2]
    · rw [gatherTapOf, scatterTapOf, if_pos rfl, if_pos rfl]
    · rw [gatherTapOf, scatterTapOf, if_neg (by decide), if_neg (by decide)]
  obtain ⟨-, -, hok⟩ := gridder_ok_iff.1 ⟨g, hg⟩
  obtain ⟨hres, e1, e2, -, -, e3⟩ := hok
  have f1 : cfg'.kern = cfg.kern := by rw [hsame]
  have f2 : cfg'.chanmap = cfg.chanmap := by rw [hsame]
  have f3 : cfg'.wavelengths = cfg.wavelengths := by rw [hsame]
  have f4 : cfg'.cellsize = cfg.cellsize := by rw [hsame]
  have f5 : cfg'.phase = cfg.phase := by rw [hsame]
  have f6 : cfg'.baseline = "None" := by rw [hsame]; exact hb
  have f7 : cfg'.nlam = cfg.nlam := by rw [hsame]
  have f8 : cfg'.phaseCentre = cfg.phaseCentre := by rw [hsame]
  have f9 : cfg'.imageCentre = cfg.imageCentre := by rw [hsame]
  have hco : ∀ p0 p r j, rowCoord cfg p0 p uvw r j = uvw (3 * r + j) := by
    intro p0 p r j; rw [rowCoord, hb, baselinePolicy, if_pos rfl, okOr]
  have hco' : ∀ p0 p r j, rowCoord cfg' p0 p uvw r j = uvw (3 * r + j) := by
    intro p0 p r j; rw [rowCoord, f6, baselinePolicy, if_pos rfl, okOr]
  -- the grid side
  have hgrid : ∑ b ∈ range (nband cfg.nmap cfg.chanmap), ∑ v ∈ range npix, ∑ u ∈ range npix,
        g.grid (cell npix b v u) * (starRingEnd ℂ) (G (cell npix b v u)) =
      ∑ r ∈ range nrow, ∑ c ∈ range nchan, stokesVal cfg uvw vis r c * (starRingEnd ℂ) (gathered (scatterTapOf cfg.conv) cfg.kern npix
        (cfg.chanmap c) (scaled cfg npix uvw r c 0) (scaled cfg npix uvw r c 1) G) := by
    have step : ∀ b ∈ range (nband cfg.nmap cfg.chanmap), ∑ v ∈ range npix, ∑ u ∈ range npix,
        g.grid (cell npix b v u) * (starRingEnd ℂ) (G (cell npix b v u)) =
        ∑ r ∈ range nrow, ∑ c ∈ range nchan, if cfg.chanmap c = b then stokesVal cfg uvw vis r c * (starRingEnd ℂ)
          (gathered (scatterTapOf cfg.conv) cfg.kern npix b (scaled cfg npix uvw r c 0) (scaled cfg npix uvw r c 1) G) else 0 := by
      intro b hbm
      have e : ∀ v ∈ range npix, ∀ u ∈ range npix, g.grid (cell npix b v u) * (starRingEnd ℂ) (G (cell npix b v u)) =
          ∑ r ∈ range nrow, ∑ c ∈ range nchan, (if cfg.chanmap c = b then stokesVal cfg uvw vis r c *
          ((tapAt (scatterTapOf cfg.conv) cfg.kern npix (scaled cfg npix uvw r c 1) v : ℂ) *
            (tapAt (scatterTapOf cfg.conv) cfg.kern npix (scaled cfg npix uvw r c 0) u : ℂ) *
            (starRingEnd ℂ) (G (cell npix b v u))) else 0) := by
        intro v hv u hu
        rw [mem_range] at hv hu
        rw [C76_value cfg hone npix nrow nchan nrow 3 uvw vis junk g hg b v u (mem_range.1 hbm)
          ⟨by omega, by exact_mod_cast hv, by omega, by exact_mod_cast hu⟩, sum_mul]
        refine sum_congr rfl fun r _ => ?_
        rw [sum_mul]
        refine sum_congr rfl fun c _ => ?_
        split_ifs
        · push_cast; ring
        · simp
      rw [sum_congr rfl fun v hv => sum_congr rfl fun u hu => e v hv u hu]
      rw [sum_congr rfl fun v _ => sum_comm, sum_comm]
      refine sum_congr rfl fun r _ => ?_
      rw [sum_congr rfl fun v _ => sum_comm, sum_comm]
      refine sum_congr rfl fun c _ => ?_
      split_ifs
      · simp only [gathered, map_sum, mul_sum, map_mul, Complex.conj_ofReal]
      · simp
    rw [sum_congr rfl step, sum_comm]
    refine sum_congr rfl fun r _ => ?_
    rw [sum_comm]
    refine sum_congr rfl fun c hcm => ?_
    rw [sum_ite_eq, if_pos]
    rw [mem_range] at hcm ⊢
    exact lt_nband (by omega)
  rw [hgrid, mul_sum]
  refine sum_congr rfl fun r hr => ?_
  rw [mul_sum]
  refine sum_congr rfl fun c hcm => ?_
  rw [mem_range] at hr hcm
  -- one visibility
  have hdv := (degridder_value hd coef hc1).1 r
  rw [if_pos hr] at hdv
  have hD0 : (D r c : ℂ) ≠ 0 := by exact_mod_cast hw r hr c hcm
  have hcoll : ∀ i, collected cfg' npix coef uvw G r c i = coef i * gathered (scatterTapOf cfg.conv) cfg.kern npix (cfg.chanmap c)
      (scaled cfg npix uvw r c 0) (scaled cfg npix uvw r c 1) G / (D r c : ℂ) := by
    intro i
    simp only [collected, scaledD, scaled, hco, hco', htap, f1, f2, f3, f4, hD, add_zero]
  have hlt : c < cfg'.nlam := by omega
  -- phase
  obtain ⟨ph, hph, hph1, hph2⟩ : ∃ ph : ℂ, True ∧ (∀ i, phased cfg uvw vis r c i = vis r c i * ph) ∧
      ∀ i, (starRingEnd ℂ) (d.vis r c i) = (starRingEnd ℂ) (collected cfg' npix coef uvw G r c i) * ph := by
    simp only [hdv, degridVis, phased, f5, f8, f9, f3, hco', phasePolicy]
    by_cases hN : cfg.phase = "None"
    · refine ⟨1, trivial, ?_, ?_⟩
      · intro i; simp [hN, okOr]
      · intro i; simp [hN, okOr, hlt]
    · by_cases hP : cfg.phase = "phase_rotate"
      · rw [hP]
        simp only [show ¬ ("phase_rotate" = "None") by decide, if_false, if_true, okOr, phaseRotate, hlt, add_zero]
        refine ⟨_, trivial, fun i => rfl, fun i => ?_⟩
        generalize uvw (3 * r) * (phaseLmn cfg.phaseCentre cfg.imageCentre).1 +
          uvw (3 * r + 1) * (phaseLmn cfg.phaseCentre cfg.imageCentre).2.1 +
          uvw (3 * r + 2) * (phaseLmn cfg.phaseCentre cfg.imageCentre).2.2 = t
        have e : -1 * 2 * Real.pi * t / cfg.wavelengths c = -(1 * 2 * Real.pi * t / cfg.wavelengths c) := by ring
        rw [e, Real.cos_neg, Real.sin_neg, map_mul]
        congr 1
        rw [map_add, map_mul, Complex.conj_ofReal, Complex.conj_ofReal, Complex.conj_I]
        push_cast
        ring
      · refine ⟨1, trivial, ?_, ?_⟩
        · intro i; simp [hN, hP, okOr]
        · intro i; simp [hN, hP, okOr, hlt]
  have hS : stokesVal cfg uvw vis r c = 1 / 2 * ∑ i ∈ range n, vis r c i * ph * (starRingEnd ℂ) (coef i) := by
    rw [stokesVal, hc2, okOr]
    simp only [hph1]
  rw [hS, mul_assoc]
  congr 1
  rw [sum_mul, mul_sum]
  refine sum_congr rfl fun i _ => ?_
  rw [hph2 i, hcoll i, map_div₀, map_mul, Complex.conj_ofReal]
  field_simp

/-! ### A concrete case -/

theorem npRound_int (n : ℤ) : npRound n = n := by
  unfold npRound
  rw [Int.floor_intCast, sub_self, if_pos (by norm_num)]

theorem disc_int (npix : Nat) (n : ℤ) : disc npix n = n + ((npix / 2 : Nat) : ℤ) := by
  unfold disc
  rw [show ((n : ℝ) + ((npix / 2 : Nat) : ℝ)) = ((n + ((npix / 2 : Nat) : ℤ) : ℤ) : ℝ) by
    rw [Int.cast_add, Int.cast_natCast], npRound_int]

/-- One tap of value one. -/
def unitKern : Kern := { mem := fun _ => 1, len := 3, W := 1, os := 1 }

/-- One channel, cells that are one wavelength apart, one tap. -/
noncomputable def unitCfg (npix : Nat) (baseline stokes conv : String) (image : RaDec) : Cfg :=
  { wavelengths := fun _ => 1, nlam := 1, chanmap := fun _ => 0, nmap := 1, cellsize := 3600 * 180 / (Real.pi * npix),
    imageCentre := image, phaseCentre := (0, 0), kern := unitKern, baseline := baseline, phase := "None", stokes := stokes, conv := conv }

theorem unit_scale (npix : Nat) (h : 0 < npix) : scaleFactor npix (3600 * 180 / (Real.pi * npix)) = 1 := by
  have : (npix : ℝ) ≠ 0 := by positivity
  have := Real.pi_ne_zero
  unfold scaleFactor
  field_simp

theorem unit_tap (name : String) (npix : Nat) (s : ℝ) (g : ℤ) : tapAt (scatterTapOf name) unitKern npix s g = if g = disc npix s then 1 else 0 := by
  have h : ∀ t, scatterTapOf name unitKern npix s t = 1 := by
    intro t
    unfold scatterTapOf
    split_ifs <;> rfl
  unfold tapAt
  rw [h]
  have : unitKern.W = 1 := rfl
  simp only [this]
  norm_num
  by_cases hg : g = disc npix s
  · rw [if_pos ⟨by omega, by omega⟩, if_pos hg]
  · rw [if_neg (by omega), if_neg hg]

theorem unit_tap' (name : String) (npix : Nat) (s : ℝ) (g : ℤ) : tapAt (gatherTapOf name) unitKern npix s g = if g = disc npix s then 1 else 0 := by
  rw [← unit_tap "conv_1d_axisymmetric_packed_scatter"]
  unfold tapAt
  have h : ∀ t, gatherTapOf name unitKern npix s t = 1 := by
    intro t
    unfold gatherTapOf
    split_ifs <;> rfl
  have h' : ∀ t, scatterTapOf "conv_1d_axisymmetric_packed_scatter" unitKern npix s t = 1 := by
    intro t
    unfold scatterTapOf
    split_ifs <;> rfl
  rw [h, h']

/-- The hypotheses of `C76_adjoint_partial` hold in a case where the visibility falls into the grid. -/
example : GridOk (unitCfg 4 "None" "I_FROM_XXYY" "conv_1d_axisymmetric_packed_scatter" (1, 1)) 1 1 1 3 ∧
    DegridOk (unitCfg 4 "None" "XXYY_FROM_I" "conv_1d_axisymmetric_packed_gather" (1, 1)) 1 4 4 3 ∧
    weightIn (scatterTapOf "conv_1d_axisymmetric_packed_scatter") unitKern 4 0 0 + 1 / 100000000 ≠ 0 := by
  refine ⟨⟨⟨_, rfl⟩, ⟨_, rfl⟩, rfl, rfl, by decide, rfl, rfl, rfl⟩, ⟨⟨_, rfl⟩, ⟨_, rfl⟩, rfl, rfl, by decide, rfl, ?_, rfl⟩, ?_⟩
  · simp [unitCfg, nband, forRange]
  · have : disc 4 0 = 2 := by have := disc_int 4 0; simpa using this
    simp only [weightIn, unit_tap, this, Finset.sum_range_succ, Finset.sum_range_zero]
    norm_num

/-- C76 is violated with a baseline transform: the gridder puts a visibility into a cell from which the degridder, called with the
same centres, does not read: it gets the centres in the other order. -/
theorem C76_violated : ∃ (image : RaDec) (uvw : Nat → ℝ) (vis : Nat → Nat → Nat → ℂ) (G : ℤ → ℂ) (g : GridState) (d : DegridState),
    gridder (unitCfg 4 "wlinapprox" "I_FROM_XXYY" "conv_1d_axisymmetric_packed_scatter" image) 4 1 1 1 3 uvw vis false (fun _ => 0) = .ok g ∧
    degridder (unitCfg 4 "wlinapprox" "XXYY_FROM_I" "conv_1d_axisymmetric_packed_gather" image) 1 4 4 1 3 uvw G = .ok d ∧
    (∀ v u : ℤ, inGrid 4 v u → G (cell 4 0 v u) = if v = 2 ∧ u = 1 then 1 else 0) ∧
    g.grid (cell 4 0 2 1) = 1 ∧ ∀ r c i, d.vis r c i = 0 := by
  obtain ⟨uvw, huvw⟩ : ∃ uvw : Nat → ℝ, uvw = fun i => if i = 2 then 1 else 0 := ⟨_, rfl⟩
  obtain ⟨g, hg⟩ := (gridder_ok_iff (cfg := unitCfg 4 "wlinapprox" "I_FROM_XXYY" "conv_1d_axisymmetric_packed_scatter" (Real.pi / 4, 0))
    (npix := 4) (nrow := 1) (nchan := 1) (ur := 1) (uc := 3) (uvw := uvw) (vis := fun _ _ _ => 1)
    (norm := false) (junk := fun _ => 0)).2 ⟨⟨_, rfl⟩, ⟨_, rfl⟩, rfl, rfl, by decide, rfl, rfl, rfl⟩
  obtain ⟨d, hd⟩ := (degridder_ok_iff (cfg := unitCfg 4 "wlinapprox" "XXYY_FROM_I" "conv_1d_axisymmetric_packed_gather" (Real.pi / 4, 0))
    (gb := 1) (npix := 4) (nx := 4) (nrow := 1) (uc := 3) (uvw := uvw)
    (grid := fun a => if a = cell 4 0 2 1 then 1 else 0)).2
    ⟨⟨_, rfl⟩, ⟨_, rfl⟩, rfl, rfl, by decide, rfl, by simp [unitCfg, nband, forRange], rfl⟩
  have hsc := unit_scale 4 (by norm_num)
  have hsin := Real.sin_pi_div_four
  have hcos := Real.cos_pi_div_four
  have hne : Real.sqrt 2 / 2 ≠ 0 := by positivity
  have c0 : rowCoord (unitCfg 4 "wlinapprox" "I_FROM_XXYY" "conv_1d_axisymmetric_packed_scatter" (Real.pi / 4, 0)) (0, 0)
      (Real.pi / 4, 0) uvw 0 0 = ((-1 : ℤ) : ℝ) := by
    simp [rowCoord, unitCfg, baselinePolicy, okOr, uvwPlanar, planarLmn, huvw, hsin, hcos]
  have c1 : rowCoord (unitCfg 4 "wlinapprox" "I_FROM_XXYY" "conv_1d_axisymmetric_packed_scatter" (Real.pi / 4, 0)) (0, 0)
      (Real.pi / 4, 0) uvw 0 1 = ((0 : ℤ) : ℝ) := by
    simp [rowCoord, unitCfg, baselinePolicy, okOr, uvwPlanar, planarLmn, huvw, Function.update]
  have d0 : rowCoord (unitCfg 4 "wlinapprox" "XXYY_FROM_I" "conv_1d_axisymmetric_packed_gather" (Real.pi / 4, 0)) (Real.pi / 4, 0)
      (0, 0) uvw 0 0 = ((1 : ℤ) : ℝ) := by
    simp [rowCoord, unitCfg, baselinePolicy, okOr, uvwPlanar, planarLmn, huvw, hsin, hcos]
  refine ⟨(Real.pi / 4, 0), uvw, fun _ _ _ => 1, _, g, d, hg, hd, ?_, ?_, ?_⟩
  · intro v u hin
    by_cases h : v = 2 ∧ u = 1
    · rw [if_pos h, if_pos (by rw [h.1, h.2])]
    · rw [if_neg h, if_neg]
      intro e
      have := cell_inj hin (by simp [inGrid]) e
      exact h ⟨this.2.1, this.2.2⟩
  · rw [C76_value _ (by decide) _ _ _ _ _ _ _ _ _ hg 0 2 1 (by simp [unitCfg, nband, forRange]) (by simp [inGrid])]
    simp only [Finset.sum_range_one]
    refine (if_pos rfl).trans ?_
    have s0 : scaled (unitCfg 4 "wlinapprox" "I_FROM_XXYY" "conv_1d_axisymmetric_packed_scatter" (Real.pi / 4, 0)) 4 uvw 0 0 0 = ((-1 : ℤ) : ℝ) := by
      show rowCoord _ (0, 0) (Real.pi / 4, 0) uvw 0 0 * scaleFactor 4 (3600 * 180 / (Real.pi * 4)) / 1 = _
      rw [c0]
      have := hsc
      norm_num at this ⊢
      exact this
    have s1 : scaled (unitCfg 4 "wlinapprox" "I_FROM_XXYY" "conv_1d_axisymmetric_packed_scatter" (Real.pi / 4, 0)) 4 uvw 0 0 1 = ((0 : ℤ) : ℝ) := by
      show rowCoord _ (0, 0) (Real.pi / 4, 0) uvw 0 1 * scaleFactor 4 (3600 * 180 / (Real.pi * 4)) / 1 = _
      rw [c1]
      simp
    rw [s0, s1]
    show ((tapAt _ unitKern 4 _ _ * tapAt _ unitKern 4 _ _ : ℝ) : ℂ) * _ = 1
    rw [unit_tap, unit_tap, disc_int, disc_int, if_pos (by norm_num), if_pos (by norm_num)]
    have : stokesVal (unitCfg 4 "wlinapprox" "I_FROM_XXYY" "conv_1d_axisymmetric_packed_scatter" (Real.pi / 4, 0)) uvw (fun _ _ _ => 1) 0 0 = 1 := by
      show okOr 0 (Except.ok ((1 + 1 : ℂ) * (1 / 2))) = 1
      norm_num [okOr]
    rw [this]
    norm_num
  · obtain ⟨coef, hco⟩ := stokes2corr_affine (p := "XXYY_FROM_I") (by decide)
    intro r c i
    rw [(degridder_value hd coef hco).1]
    by_cases hr : r < 1
    · obtain rfl : r = 0 := by omega
      rw [if_pos (by norm_num)]
      show (if c < 1 then collected _ 4 coef uvw _ 0 c i else 0) = (0 : ℂ)
      by_cases hc : c < 1
      · rw [if_pos hc]
        obtain rfl : c = 0 := by omega
        have s0 : scaledD (unitCfg 4 "wlinapprox" "XXYY_FROM_I" "conv_1d_axisymmetric_packed_gather" (Real.pi / 4, 0)) 4 uvw 0 0 0 = ((1 : ℤ) : ℝ) := by
          show rowCoord _ (Real.pi / 4, 0) (0, 0) uvw 0 0 * scaleFactor 4 (3600 * 180 / (Real.pi * 4)) / 1 = _
          rw [d0]
          have := hsc
          norm_num at this ⊢
          exact this
        unfold collected
        have : gathered (gatherTapOf "conv_1d_axisymmetric_packed_gather") unitKern 4 0 ((1 : ℤ) : ℝ)
            (scaledD (unitCfg 4 "wlinapprox" "XXYY_FROM_I" "conv_1d_axisymmetric_packed_gather" (Real.pi / 4, 0)) 4 uvw 0 0 1)
            (fun a => if a = cell 4 0 2 1 then 1 else 0) = 0 := by
          unfold gathered
          refine Finset.sum_eq_zero fun v hv => Finset.sum_eq_zero fun u hu => ?_
          rw [Finset.mem_range] at hv hu
          rw [unit_tap', unit_tap', disc_int]
          by_cases hu3 : u = 3
          · have hz : (fun a : ℤ => if a = cell 4 0 2 1 then (1 : ℂ) else 0) (cell 4 0 v u) = 0 := by
              refine if_neg fun e => ?_
              have := cell_inj (npix := 4) (v := v) (u := u) ⟨by omega, by exact_mod_cast hv, by omega, by exact_mod_cast hu⟩ (by simp [inGrid]) e
              omega
            rw [hz, mul_zero]
          · rw [if_neg (c := (u : ℤ) = 1 + ((4 / 2 : Nat) : ℤ)) (by norm_num; omega)]
            simp
        rw [s0]
        show coef i * gathered (gatherTapOf "conv_1d_axisymmetric_packed_gather") unitKern 4 0 ((1 : ℤ) : ℝ) _ _ / _ = 0
        rw [this]
        simp
      · rw [if_neg hc]
    · rw [if_neg hr]

/-! ## C104 -/

/-- C104, part proved: with the one dimensional policies nothing outside the grid is written, wherever the visibilities fall. -/
theorem C104_safe_partial (cfg : Cfg) (hname : cfg.conv ∈ oneDim) (npix nrow nchan ur uc : Nat) (uvw : Nat → ℝ)
    (vis : Nat → Nat → Nat → ℂ) (norm : Bool) (junk : ℤ → ℂ) (s : GridState)
    (h : gridder cfg npix nrow nchan ur uc uvw vis norm junk = .ok s) (a : ℤ)
    (ha : a < 0 ∨ (nband cfg.nmap cfg.chanmap : ℤ) * npix * npix ≤ a) : s.grid a = junk a := by
  have hout : ¬ (0 ≤ a ∧ a < cell npix (nband cfg.nmap cfg.chanmap) 0 0) := by
    unfold cell
    simp only [add_zero]
    omega
  obtain ⟨conv, x, h1, h2, h3, h4, h5, h6, h7, h8, hs⟩ := gridder_cases h
  simp only [] at hs
  obtain ⟨-, -, g3, -⟩ := gridRows_spec cfg conv h1 npix nchan nrow (zeroGrid npix (nband cfg.nmap cfg.chanmap) junk) uvw vis
  generalize (forRange nrow { grid := zeroGrid npix (nband cfg.nmap cfg.chanmap) junk, wt := fun _ => 0, uvw := uvw, vis := vis }
          fun r s => gridRow cfg conv npix nchan r s) = t at *
  have ht : t.grid a = junk a := by
    rw [g3, zeroGrid, if_neg hout]
    rw [Finset.sum_eq_zero, add_zero]
    intro r _
    refine Finset.sum_eq_zero fun c hc => ?_
    rw [Finset.mem_range] at hc
    have hb : cfg.chanmap c < nband cfg.nmap cfg.chanmap := lt_nband (by omega)
    have : kappa cfg.conv cfg.kern npix (cfg.chanmap c) (scaled cfg npix uvw r c 0) (scaled cfg npix uvw r c 1) a = 0 := by
      have hn : ¬ cfg.conv = "conv_nn_scatter" := by
        intro e; rw [e] at hname; revert hname; decide
      rw [kappa, if_neg hn]
      split_ifs
      · exact scatterCoef_outside _ _ _ _ _ _ _ _ hb hout
      · exact scatterCoef_outside _ _ _ _ _ _ _ _ hb hout
    rw [this]
    simp
  rw [hs]
  cases norm with
  | false => exact ht
  | true =>
    show normaliseGrid npix _ t.wt t.grid a = _
    unfold normaliseGrid
    refine Eq.trans ?_ ht
    refine forRange_const (obs := fun g : ℤ → ℂ => g a) fun b hb g => ?_
    show (if _ then _ else _) = _
    rw [if_neg]
    rintro ⟨e1, e2⟩
    apply hout
    unfold cell at *
    have hb' : (b : ℤ) + 1 ≤ nband cfg.nmap cfg.chanmap := by exact_mod_cast hb
    push_cast at e2
    simp only [add_zero] at *
    constructor
    · have : (0 : ℤ) ≤ (b : ℤ) * npix * npix := by positivity
      omega
    · have : ((b : ℤ) + 1) * npix * npix ≤ (nband cfg.nmap cfg.chanmap : ℤ) * npix * npix := by
        refine mul_le_mul_of_nonneg_right (mul_le_mul_of_nonneg_right hb' ?_) ?_ <;> positivity
      omega

/-- C104 is violated by the nearest neighbour policy: a visibility beyond the upper edge is added to memory outside the grid, for
every content of that memory, and one below the lower edge is added to a cell at the opposite side. -/
theorem C104_violated (junk : ℤ → ℂ) :
    (∃ s, gridder (unitCfg 1 "None" "I_FROM_XXYY" "conv_nn_scatter" (0, 0)) 1 1 1 1 3 (fun i => if i = 0 then 5 else 0) (fun _ _ _ => 1)
      false junk = .ok s ∧ s.grid 5 = junk 5 + 1) ∧
    ∃ s, gridder (unitCfg 4 "None" "I_FROM_XXYY" "conv_nn_scatter" (0, 0)) 4 1 1 1 3 (fun i => if i = 0 then -3 else 0) (fun _ _ _ => 1)
      false junk = .ok s ∧ s.grid (cell 4 0 2 3) = 1 := by
  have hok : ∀ npix, GridOk (unitCfg npix "None" "I_FROM_XXYY" "conv_nn_scatter" (0, 0)) 1 1 1 3 := fun npix =>
    ⟨⟨_, rfl⟩, ⟨_, rfl⟩, rfl, rfl, by simp [unitCfg], rfl, rfl, rfl⟩
  constructor
  · obtain ⟨s, hs⟩ := (gridder_ok_iff (npix := 1) (uvw := fun i => if i = 0 then 5 else 0) (vis := fun _ _ _ => 1) (norm := false)
      (junk := junk)).2 (hok 1)
    refine ⟨s, hs, ?_⟩
    obtain ⟨conv, x, h1, -, -, -, -, -, -, -, he⟩ := gridder_cases hs
    obtain ⟨-, -, g3, -⟩ := gridRows_spec (unitCfg 1 "None" "I_FROM_XXYY" "conv_nn_scatter" (0, 0)) conv h1 1 1 1
      (zeroGrid 1 (nband (unitCfg 1 "None" "I_FROM_XXYY" "conv_nn_scatter" (0, 0)).nmap
        (unitCfg 1 "None" "I_FROM_XXYY" "conv_nn_scatter" (0, 0)).chanmap) junk) (fun i => if i = 0 then 5 else 0) (fun _ _ _ => 1)
    rw [he]
    simp only [Bool.false_eq_true, if_false]
    rw [g3]
    have hz : zeroGrid 1 (nband (unitCfg 1 "None" "I_FROM_XXYY" "conv_nn_scatter" (0, 0)).nmap
        (unitCfg 1 "None" "I_FROM_XXYY" "conv_nn_scatter" (0, 0)).chanmap) junk 5 = junk 5 := by
      simp [zeroGrid, unitCfg, nband, forRange, cell]
    rw [hz]
    congr 1
    simp only [Finset.sum_range_one]
    have s0 : scaled (unitCfg 1 "None" "I_FROM_XXYY" "conv_nn_scatter" (0, 0)) 1 (fun i => if i = 0 then 5 else 0) 0 0 0 = ((5 : ℤ) : ℝ) := by
      show (5 : ℝ) * scaleFactor 1 (3600 * 180 / (Real.pi * ((1 : Nat) : ℝ))) / 1 = _
      rw [unit_scale 1 (by norm_num)]
      norm_num
    have s1 : scaled (unitCfg 1 "None" "I_FROM_XXYY" "conv_nn_scatter" (0, 0)) 1 (fun i => if i = 0 then 5 else 0) 0 0 1 = ((0 : ℤ) : ℝ) := by
      show (0 : ℝ) * scaleFactor 1 (3600 * 180 / (Real.pi * ((1 : Nat) : ℝ))) / 1 = _
      simp
    rw [s0, s1]
    have hst : stokesVal (unitCfg 1 "None" "I_FROM_XXYY" "conv_nn_scatter" (0, 0)) (fun i => if i = 0 then 5 else 0) (fun _ _ _ => 1) 0 0 = 1 := by
      show okOr 0 (Except.ok ((1 + 1 : ℂ) * (1 / 2))) = 1
      norm_num [okOr]
    rw [hst, kappa, disc_int, disc_int]
    simp [wrap, cell, unitCfg]
  · obtain ⟨s, hs⟩ := (gridder_ok_iff (npix := 4) (uvw := fun i => if i = 0 then -3 else 0) (vis := fun _ _ _ => 1) (norm := false)
      (junk := junk)).2 (hok 4)
    refine ⟨s, hs, ?_⟩
    rw [(gridder_value hs).1 0 2 3 (by simp [unitCfg, nband, forRange]) (by simp [inGrid]), divisor, if_neg (by simp), div_one]
    simp only [Finset.sum_range_one]
    have s0 : scaled (unitCfg 4 "None" "I_FROM_XXYY" "conv_nn_scatter" (0, 0)) 4 (fun i => if i = 0 then -3 else 0) 0 0 0 = ((-3 : ℤ) : ℝ) := by
      show (-3 : ℝ) * scaleFactor 4 (3600 * 180 / (Real.pi * ((4 : Nat) : ℝ))) / 1 = _
      rw [unit_scale 4 (by norm_num)]
      norm_num
    have s1 : scaled (unitCfg 4 "None" "I_FROM_XXYY" "conv_nn_scatter" (0, 0)) 4 (fun i => if i = 0 then -3 else 0) 0 0 1 = ((0 : ℤ) : ℝ) := by
      show (0 : ℝ) * scaleFactor 4 (3600 * 180 / (Real.pi * ((4 : Nat) : ℝ))) / 1 = _
      simp
    rw [s0, s1]
    have hst : stokesVal (unitCfg 4 "None" "I_FROM_XXYY" "conv_nn_scatter" (0, 0)) (fun i => if i = 0 then -3 else 0) (fun _ _ _ => 1) 0 0 = 1 := by
      show okOr 0 (Except.ok ((1 + 1 : ℂ) * (1 / 2))) = 1
      norm_num [okOr]
    rw [hst, kappa, disc_int, disc_int]
    simp [wrap, cell, unitCfg]

/-! ## C105 -/

/-- C105: every lookup of the unpacked policies is inside the kernel, and reads the sample that is less than one step of the
oversampled kernel away from the distance between the cell and the visibility. -/
theorem C105_nearest (k : Kern) (hlen : k.len = k.os * (k.W + 2)) (hos : 0 < k.os) (npix : Nat) (s : ℝ) (t : Nat) (ht : t < k.W) :
    ∃ i : ℤ, unpackedTap k npix s t = k.mem i ∧ 0 ≤ i ∧ i < k.len ∧
      |(i : ℝ) - (((k.W / 2 : Nat) : ℝ) + 1 + ((lookup k npix s t : ℝ) - (s + ((npix / 2 : Nat) : ℝ)))) * k.os| < 1 := by
  have hcl := npRound_close (s + ((npix / 2 : Nat) : ℝ))
  have hos' : (1 : ℝ) ≤ k.os := by exact_mod_cast hos
  have hf : |(frac k npix s : ℝ) - (-(s + ((npix / 2 : Nat) : ℝ)) + (disc npix s : ℝ)) * k.os| < 1 := by
    unfold frac pyInt
    generalize (-(s + ((npix / 2 : Nat) : ℝ)) + (disc npix s : ℝ)) * (k.os : ℝ) = x
    have a1 := Int.floor_le x
    have a2 := Int.lt_floor_add_one x
    have a3 := Int.le_ceil x
    have a4 := Int.ceil_lt_add_one x
    split_ifs <;> rw [abs_lt] <;> constructor <;> linarith
  have hf2 : |(frac k npix s : ℝ)| ≤ k.os / 2 := by
    have hx : |(-(s + ((npix / 2 : Nat) : ℝ)) + (disc npix s : ℝ)) * k.os| ≤ k.os / 2 := by
      rw [abs_mul, abs_of_nonneg (show (0 : ℝ) ≤ k.os by linarith)]
      have : |-(s + ((npix / 2 : Nat) : ℝ)) + (disc npix s : ℝ)| ≤ 1 / 2 := by
        rw [neg_add_eq_sub]; exact hcl
      nlinarith
    unfold frac pyInt
    generalize (-(s + ((npix / 2 : Nat) : ℝ)) + (disc npix s : ℝ)) * (k.os : ℝ) = x at *
    rw [abs_le] at hx
    split_ifs with h0
    · rw [abs_of_nonneg (by exact_mod_cast Int.floor_nonneg.2 h0)]
      exact (Int.floor_le x).trans hx.2
    · have : (⌈x⌉ : ℝ) ≤ 0 := by
        have : ⌈x⌉ ≤ 0 := Int.ceil_le.2 (by push_cast; linarith)
        exact_mod_cast this
      rw [abs_of_nonpos this]
      have := Int.le_ceil x
      linarith
  rw [abs_le] at hf2
  have hlow : -(k.os : ℤ) ≤ 2 * frac k npix s := by
    have : -(k.os : ℝ) ≤ 2 * (frac k npix s : ℝ) := by linarith [hf2.1]
    exact_mod_cast this
  have hup : 2 * frac k npix s ≤ k.os := by
    have : 2 * (frac k npix s : ℝ) ≤ (k.os : ℝ) := by linarith [hf2.2]
    exact_mod_cast this
  have hpos : 0 ≤ ((t : ℤ) + 1) * k.os + frac k npix s := by
    have : (k.os : ℤ) ≤ ((t : ℤ) + 1) * k.os := by nlinarith
    omega
  refine ⟨((t : ℤ) + 1) * k.os + frac k npix s, ?_, hpos, ?_, ?_⟩
  · rw [unpackedTap, wrap, if_neg (by omega)]
  · rw [hlen]
    push_cast
    have h1 : (t : ℤ) + 1 ≤ k.W := by exact_mod_cast ht
    have h2 : ((t : ℤ) + 1) * k.os ≤ k.W * k.os := mul_le_mul_of_nonneg_right h1 (by positivity)
    have h3 : (k.os : ℤ) * (k.W + 2) = k.W * k.os + 2 * k.os := by ring
    have h4 : (1 : ℤ) ≤ k.os := by exact_mod_cast hos
    omega
  · have e : (((((t : ℤ) + 1) * k.os + frac k npix s : ℤ)) : ℝ) -
        (((k.W / 2 : Nat) : ℝ) + 1 + ((lookup k npix s t : ℝ) - (s + ((npix / 2 : Nat) : ℝ)))) * k.os =
        (frac k npix s : ℝ) - (-(s + ((npix / 2 : Nat) : ℝ)) + (disc npix s : ℝ)) * k.os := by
      simp only [lookup, Int.cast_add, Int.cast_sub, Int.cast_mul, Int.cast_natCast, Int.cast_one]
      ring
    rw [e]
    exact hf

theorem frac_range (k : Kern) (npix : Nat) (s : ℝ) (hos : 0 < k.os) : -(k.os : ℤ) ≤ frac k npix s ∧ frac k npix s < k.os := by
  have hcl := npRound_close (s + ((npix / 2 : Nat) : ℝ))
  have hos' : (1 : ℝ) ≤ k.os := by exact_mod_cast hos
  have hx : |(-(s + ((npix / 2 : Nat) : ℝ)) + (disc npix s : ℝ)) * k.os| ≤ k.os / 2 := by
    rw [abs_mul, abs_of_nonneg (show (0 : ℝ) ≤ k.os by linarith)]
    have : |-(s + ((npix / 2 : Nat) : ℝ)) + (disc npix s : ℝ)| ≤ 1 / 2 := by
      rw [neg_add_eq_sub]; exact hcl
    nlinarith
  unfold frac pyInt
  generalize (-(s + ((npix / 2 : Nat) : ℝ)) + (disc npix s : ℝ)) * (k.os : ℝ) = x at *
  rw [abs_le] at hx
  split_ifs with h0
  · constructor
    · have : (0 : ℤ) ≤ ⌊x⌋ := Int.floor_nonneg.2 h0
      omega
    · rw [Int.floor_lt]; push_cast; linarith [hx.2]
  · constructor
    · have : (((-(k.os : ℤ)) : ℤ) : ℝ) ≤ (⌈x⌉ : ℝ) := by
        push_cast
        have := Int.le_ceil x
        linarith [hx.1]
      exact_mod_cast this
    · have : ⌈x⌉ ≤ 0 := Int.ceil_le.2 (by push_cast; linarith)
      omega

/-- C105: a packed kernel gives the taps that the kernel it was packed from gives with the unpacked policies, for every coordinate. -/
theorem C105_packed_taps (K p undef : Nat → ℝ) (W os : Nat) (hos : 0 < os) (hp : packKernel undef (os * (W + 2)) K W os = .ok p)
    (k k' : Kern) (hk : k.W = W ∧ k.os = os ∧ k.len = os * (W + 2) ∧ ∀ i : Nat, i < k.len → k.mem i = K i)
    (hk' : k'.W = W ∧ k'.os = os ∧ k'.len = os * (W + 2) ∧ ∀ i : Nat, i < k'.len → k'.mem i = p i)
    (npix : Nat) (s : ℝ) (t : Nat) (ht : t < W) : packedTap k' npix s t = unpackedTap k npix s t := by
  obtain ⟨rfl, rfl, e3, e4⟩ := hk
  obtain ⟨f1, f2, f3, f4⟩ := hk'
  have hfr : frac k' npix s = frac k npix s := by unfold frac; rw [f2]
  obtain ⟨r1, r2⟩ := frac_range k npix s hos
  obtain ⟨a, h1, h2⟩ := C74_lookup undef K p k.W k.os hp t ht (frac k npix s) r1 r2
  have conv : ∀ (q : Kern) (A : Nat → ℝ) (i : ℤ), (∀ i : Nat, i < q.len → q.mem i = A i) → pyGet q.len A i = some a →
      q.mem (wrap q.len i) = a := by
    intro q A i hq h
    unfold pyGet at h
    unfold wrap
    split_ifs at h with c1 c2
    · rw [if_neg (by omega)]
      have := hq i.toNat (by omega)
      rw [show ((i.toNat : Nat) : ℤ) = i by omega] at this
      rw [this]; exact Option.some.inj h
    · rw [if_pos c2.1]
      have := hq (i + q.len).toNat (by omega)
      rw [show (((i + q.len).toNat : Nat) : ℤ) = i + q.len by omega] at this
      rw [this]; exact Option.some.inj h
  rw [packedTap, unpackedTap, hfr, f1]
  rw [conv k' p _ f4 (by rw [f3]; exact h2), conv k K _ e4 (by rw [e3]; exact_mod_cast h1)]

/-- C105: gridding with the packed kernel gives the grid that gridding with the kernel gives. -/
theorem C105_packed_grid (K p undef : Nat → ℝ) (W os : Nat) (hos : 0 < os) (hp : packKernel undef (os * (W + 2)) K W os = .ok p)
    (cfg : Cfg) (k k' : Kern) (hk : k.W = W ∧ k.os = os ∧ k.len = os * (W + 2) ∧ ∀ i : Nat, i < k.len → k.mem i = K i)
    (hk' : k'.W = W ∧ k'.os = os ∧ k'.len = os * (W + 2) ∧ ∀ i : Nat, i < k'.len → k'.mem i = p i)
    (npix nrow nchan ur uc : Nat) (uvw : Nat → ℝ) (vis : Nat → Nat → Nat → ℂ) (junk : ℤ → ℂ) (s : GridState)
    (h : gridder { cfg with kern := k, conv := "conv_1d_axisymmetric_unpacked_scatter" } npix nrow nchan ur uc uvw vis false junk = .ok s) :
    ∃ s', gridder { cfg with kern := k', conv := "conv_1d_axisymmetric_packed_scatter" } npix nrow nchan ur uc uvw vis false junk = .ok s' ∧
      ∀ b v u, b < nband cfg.nmap cfg.chanmap → inGrid npix v u → s'.grid (cell npix b v u) = s.grid (cell npix b v u) := by
  obtain ⟨-, q2, q3⟩ := gridder_ok_iff.1 ⟨s, h⟩
  obtain ⟨s', hs'⟩ := (gridder_ok_iff (cfg := { cfg with kern := k', conv := "conv_1d_axisymmetric_packed_scatter" })
    (npix := npix) (nrow := nrow) (nchan := nchan) (ur := ur) (uc := uc) (uvw := uvw) (vis := vis) (norm := false) (junk := junk)).2
    ⟨⟨_, rfl⟩, q2, q3⟩
  refine ⟨s', hs', fun b v u hb hin => ?_⟩
  have htap : ∀ x (g : ℤ), tapAt (scatterTapOf "conv_1d_axisymmetric_packed_scatter") k' npix x g =
      tapAt (scatterTapOf "conv_1d_axisymmetric_unpacked_scatter") k npix x g := by
    intro x g
    have e : ¬ ("conv_1d_axisymmetric_unpacked_scatter" = "conv_1d_axisymmetric_packed_scatter") := by decide
    unfold tapAt scatterTapOf
    rw [if_pos rfl, if_neg e, hk.1, hk'.1]
    split_ifs with hr
    · exact C105_packed_taps K p undef W os hos hp k k' hk hk' npix x _ (by omega)
    · rfl
  rw [C76_value _ (show "conv_1d_axisymmetric_unpacked_scatter" ∈ oneDim by decide) _ _ _ _ _ _ _ _ _ h b v u hb hin,
    C76_value _ (show "conv_1d_axisymmetric_packed_scatter" ∈ oneDim by decide) _ _ _ _ _ _ _ _ _ hs' b v u hb hin]
  refine Finset.sum_congr rfl fun r _ => Finset.sum_congr rfl fun c _ => ?_
  simp only [htap]
  rfl

/-- A concrete case: a kernel of width 3 with oversampling 4. -/
example : ∃ p, packKernel (fun _ => 0) (4 * (3 + 2)) (fun i => (i : ℝ)) 3 4 = .ok p :=
  let ⟨p, h, _⟩ := pack_spec (fun _ => 0) (fun i => (i : ℝ)) 3 4
  ⟨p, h⟩

end Verif.Gridding
