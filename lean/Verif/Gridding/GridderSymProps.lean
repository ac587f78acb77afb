/-
C172: the gridder under changes of the order, the direction and the position of the baselines.
-/
import Verif.Gridding.GridderDaskProps

set_option autoImplicit false

namespace Verif.Gridding

open Finset

/-! ## Order of the rows -/

private theorem coord_row {cfg : Cfg} (hb : cfg.baseline = "None" ∨ cfg.baseline = "wlinapprox") (p0 p : RaDec)
    (uvw uvw' : Nat → ℝ) (r r' : Nat) (h : ∀ j < 3, uvw' (3 * r' + j) = uvw (3 * r + j)) (j : Nat) (hj : j < 3) :
    rowCoord cfg p0 p uvw' r' j = rowCoord cfg p0 p uvw r j := by
  have h0 := h 0 (by omega)
  have h1 := h 1 (by omega)
  have h2 := h 2 (by omega)
  simp only [add_zero] at h0
  unfold rowCoord baselinePolicy
  rcases hb with hb | hb
  · rw [hb, if_pos rfl, if_pos rfl]
    exact h j hj
  · rw [hb, if_neg (by decide), if_neg (by decide), if_pos rfl, if_neg (by decide), if_neg (by decide), if_pos rfl]
    simp only [okOr, uvwPlanar]
    obtain rfl | rfl | rfl : j = 0 ∨ j = 1 ∨ j = 2 := by omega
    · simp [Function.update, h0, h2]
    · simp [Function.update, h1, h2]
    · simp [Function.update, h2]

/-- C172, part proved: the order of the rows does not matter, whatever the policies, normalised or not. Missing: the baseline
policy "rotate", which reads beyond its row, see `C172_order_violated`. -/
theorem C172_order_partial (cfg : Cfg) (hb : cfg.baseline = "None" ∨ cfg.baseline = "wlinapprox") (npix nrow nchan ur uc : Nat)
    (uvw uvw' : Nat → ℝ) (vis vis' : Nat → Nat → Nat → ℂ) (norm : Bool) (junk : ℤ → ℂ) (s : GridState)
    (σ : Nat → Nat) (hσ : Set.BijOn σ {r | r < nrow} {r | r < nrow})
    (hu : ∀ r < nrow, ∀ j < 3, uvw' (3 * r + j) = uvw (3 * σ r + j)) (hv : ∀ r < nrow, vis' r = vis (σ r))
    (h : gridder cfg npix nrow nchan ur uc uvw vis norm junk = .ok s) :
    ∃ s', gridder cfg npix nrow nchan ur uc uvw' vis' norm junk = .ok s' ∧
      ∀ b y x, b < nband cfg.nmap cfg.chanmap → inGrid npix y x → s'.grid (cell npix b y x) = s.grid (cell npix b y x) := by
  obtain ⟨s', hs'⟩ := (gridder_ok_iff (vis := vis') (uvw := uvw') (npix := npix) (norm := norm) (junk := junk)).2
    (gridder_ok_iff.1 ⟨s, h⟩)
  have hsc : ∀ r < nrow, ∀ c j, j < 3 → scaled cfg npix uvw' r c j = scaled cfg npix uvw (σ r) c j := by
    intro r hr c j hj
    unfold scaled
    rw [coord_row hb _ _ uvw uvw' (σ r) r (hu r hr) j hj]
  have hst : ∀ r < nrow, ∀ c, stokesVal cfg uvw' vis' r c = stokesVal cfg uvw vis (σ r) c := by
    intro r hr c
    unfold stokesVal phased
    have h0 := hu r hr 0 (by omega)
    simp only [add_zero] at h0
    rw [h0, hu r hr 1 (by omega), hu r hr 2 (by omega), hv r hr]
  have sum : ∀ {M : Type} [AddCommMonoid M] (f : Nat → M), ∑ r ∈ range nrow, f (σ r) = ∑ r ∈ range nrow, f r := by
    intro M _ f
    refine sum_nbij σ ?_ ?_ ?_ fun r _ => rfl
    · intro r hr
      exact mem_range.2 (hσ.mapsTo (mem_range.1 hr))
    · intro a ha b hb' e
      exact hσ.injOn (by simpa using ha) (by simpa using hb') e
    · intro a ha
      obtain ⟨r, hr, e⟩ := hσ.surjOn (show a ∈ {r | r < nrow} by simpa using ha)
      exact ⟨r, by simpa using hr, e⟩
  refine ⟨s', hs', fun b y x hbn hin => ?_⟩
  rw [(gridder_value hs').1 b y x hbn hin, (gridder_value h).1 b y x hbn hin]
  refine congrArg₂ (· / ·) ?_ ?_
  · rw [← sum fun r => ∑ c ∈ range nchan, (kappa cfg.conv cfg.kern npix (cfg.chanmap c)
        (scaled cfg npix uvw r c 0) (scaled cfg npix uvw r c 1) (cell npix b y x) : ℂ) * stokesVal cfg uvw vis r c]
    refine sum_congr rfl fun r hr => sum_congr rfl fun c _ => ?_
    rw [hsc r (mem_range.1 hr) c 0 (by omega), hsc r (mem_range.1 hr) c 1 (by omega), hst r (mem_range.1 hr)]
  · have hw : weight cfg npix nrow nchan uvw' b = weight cfg npix nrow nchan uvw b := by
      unfold weight
      rw [← sum fun r => ∑ c ∈ range nchan, if cfg.chanmap c = b then omega cfg.conv cfg.kern npix
        (scaled cfg npix uvw r c 0) (scaled cfg npix uvw r c 1) else 0]
      refine sum_congr rfl fun r hr => sum_congr rfl fun c _ => ?_
      rw [hsc r (mem_range.1 hr) c 0 (by omega), hsc r (mem_range.1 hr) c 1 (by omega)]
    unfold divisor
    rw [hw]

/-! ## Reversed baselines -/

/-- Specification: where the correlations of the reversed baseline are found: cross hands change places. -/
def handsOf (stokes : String) (i : Nat) : Nat :=
  if stokes ∈ ["I_FROM_XXXYYXYY", "I_FROM_RRRLLRLL", "Q_FROM_XXXYYXYY", "Q_FROM_RRRLLRLL", "U_FROM_XXXYYXYY", "U_FROM_RRRLLRLL",
      "V_FROM_RRRLLRLL", "V_FROM_XXXYYXYY"] then (if i = 1 then 2 else if i = 2 then 1 else i)
  else if stokes ∈ ["U_FROM_XYYX", "U_FROM_RLLR", "V_FROM_XYYX"] then (if i = 0 then 1 else if i = 1 then 0 else i)
  else i

private theorem stokes_reversed (p : String) (w : Nat → ℂ) :
    okOr 0 (corr2stokes p fun i => star (w (handsOf p i))) = star (okOr 0 (corr2stokes p w)) := by
  by_cases h : p ∈ toStokesNames
  · simp only [toStokesNames, List.mem_cons, List.not_mem_nil, or_false] at h
    rcases h with h | h | h | h | h | h | h | h | h | h | h | h | h | h | h <;> subst h <;>
      simp [corr2stokes, handsOf, okOr] <;> ring
  · rw [(C75_supported p 0 w).2.2.2 h, (C75_supported p 0 fun i => star (w (handsOf p i))).2.2.2 h]
    simp [okOr]

private theorem round_neg (x : ℝ) (c : ℤ) : npRound (2 * (c : ℝ) - x) = 2 * c - npRound x := by
  by_cases hz : (⌊x⌋ : ℝ) = x
  · have : npRound x = ⌊x⌋ := by unfold npRound; rw [if_pos (by rw [hz]; norm_num)]
    rw [this]
    rw [show 2 * (c : ℝ) - x = ((2 * c - ⌊x⌋ : ℤ) : ℝ) by push_cast; rw [hz], npRound_int]
  · have h1 : (⌊x⌋ : ℝ) < x := lt_of_le_of_ne (Int.floor_le x) hz
    have h2 := Int.lt_floor_add_one x
    have hf : ⌊2 * (c : ℝ) - x⌋ = 2 * c - ⌊x⌋ - 1 := by
      rw [Int.floor_eq_iff]
      push_cast
      constructor <;> linarith
    unfold npRound
    rw [hf]
    push_cast
    split_ifs <;> first | omega | (exfalso; linarith)

private theorem disc_neg (npix : Nat) (s : ℝ) : disc npix (-s) = 2 * ((npix / 2 : Nat) : ℤ) - disc npix s := by
  unfold disc
  generalize npix / 2 = m
  rw [← round_neg]
  congr 1
  push_cast
  ring

private theorem frac_neg (k : Kern) (npix : Nat) (s : ℝ) : frac k npix (-s) = -frac k npix s := by
  unfold frac
  rw [disc_neg]
  have e : ((-(-s + ((npix / 2 : Nat) : ℝ)) + ((2 * ((npix / 2 : Nat) : ℤ) - disc npix s : ℤ) : ℝ)) * (k.os : ℝ)) =
      -((-(s + ((npix / 2 : Nat) : ℝ)) + (disc npix s : ℝ)) * (k.os : ℝ)) := by
    generalize npix / 2 = m
    push_cast; ring
  rw [e]
  generalize (-(s + ((npix / 2 : Nat) : ℝ)) + (disc npix s : ℝ)) * (k.os : ℝ) = x
  unfold pyInt
  by_cases h0 : 0 ≤ x
  · rw [if_pos h0]
    by_cases hz : x = 0
    · subst hz; simp
    · rw [if_neg (by push Not; have := lt_of_le_of_ne h0 (Ne.symm hz); linarith), Int.ceil_neg]
  · rw [if_neg h0, if_pos (by linarith), Int.floor_neg]

/-- A kernel that is symmetric around its centre. -/
def SymmetricKern (k : Kern) : Prop :=
  k.len = k.os * (k.W + 2) ∧ 0 < k.os ∧ k.W % 2 = 1 ∧
    ∀ i j : ℤ, 0 ≤ i → 0 ≤ j → i + j = k.os * (k.W + 1) → k.mem i = k.mem j

private theorem tap_neg {k : Kern} (hk : SymmetricKern k) (npix : Nat) (s : ℝ) (t : Nat) (ht : t < k.W) :
    unpackedTap k npix (-s) (k.W - 1 - t) = unpackedTap k npix s t := by
  obtain ⟨hlen, hos, -, hsym⟩ := hk
  obtain ⟨r1, r2⟩ := frac_range k npix s hos
  obtain ⟨q1, q2⟩ := frac_range k npix (-s) hos
  rw [frac_neg] at q1 q2
  have a1 : (0 : ℤ) ≤ ((t : ℤ) + 1) * k.os + frac k npix s := by nlinarith
  have e : ((k.W - 1 - t : Nat) : ℤ) + 1 = k.W - t := by omega
  have a2 : (0 : ℤ) ≤ (((k.W - 1 - t : Nat) : ℤ) + 1) * k.os + -frac k npix s := by
    have : (1 : ℤ) ≤ (k.W : ℤ) - t := by omega
    rw [e]
    nlinarith
  unfold unpackedTap wrap
  rw [frac_neg, if_neg (by omega), if_neg (by omega)]
  refine hsym _ _ a2 a1 ?_
  rw [e]
  ring

private theorem tapAt_neg {k : Kern} (hk : SymmetricKern k) (npix : Nat) (s : ℝ) (g : ℤ) :
    tapAt unpackedTap k npix (-s) (2 * ((npix / 2 : Nat) : ℤ) - g) = tapAt unpackedTap k npix s g := by
  have hW := hk.2.2.1
  unfold tapAt
  rw [disc_neg]
  generalize hm : ((k.W / 2 : Nat) : ℤ) = m
  have hm' : (k.W : ℤ) = 2 * m + 1 := by omega
  by_cases h : 0 ≤ g - disc npix s + m ∧ g - disc npix s + m < k.W
  · rw [if_pos (by omega), if_pos h]
    have := tap_neg hk npix s (g - disc npix s + m).toNat (by omega)
    rw [← this]
    congr 1
    omega
  · rw [if_neg (by omega), if_neg h]

private theorem taps_neg {k : Kern} (hk : SymmetricKern k) (npix : Nat) (s : ℝ) :
    ∑ t ∈ range k.W, unpackedTap k npix (-s) t = ∑ t ∈ range k.W, unpackedTap k npix s t := by
  rw [← sum_range_reflect]
  exact sum_congr rfl fun t ht => tap_neg hk npix s t (mem_range.1 ht)

/-- C172: baselines written the other way round (`-u, -v, -w`, with conjugated visibilities and exchanged cross hands) give the
conjugate of the grid, reflected in its centre, if the kernel is symmetric: they hold the same data. Not with the baseline
policy "rotate". -/
theorem C172_reversal (cfg : Cfg) (hconv : cfg.conv = "conv_1d_axisymmetric_unpacked_scatter") (hk : SymmetricKern cfg.kern)
    (hb : cfg.baseline = "None" ∨ cfg.baseline = "wlinapprox") (npix nrow nchan ur uc : Nat)
    (uvw : Nat → ℝ) (vis : Nat → Nat → Nat → ℂ) (norm : Bool) (junk : ℤ → ℂ) (s : GridState)
    (h : gridder cfg npix nrow nchan ur uc uvw vis norm junk = .ok s) :
    ∃ s', gridder cfg npix nrow nchan ur uc (fun i => -uvw i) (fun r c i => star (vis r c (handsOf cfg.stokes i))) norm junk =
        .ok s' ∧
      ∀ b y x y' x', b < nband cfg.nmap cfg.chanmap → inGrid npix y x → inGrid npix y' x' →
        y + y' = 2 * ((npix / 2 : Nat) : ℤ) → x + x' = 2 * ((npix / 2 : Nat) : ℤ) →
        s'.grid (cell npix b y' x') = star (s.grid (cell npix b y x)) := by
  obtain ⟨s', hs'⟩ := (gridder_ok_iff (vis := fun r c i => star (vis r c (handsOf cfg.stokes i))) (uvw := fun i => -uvw i)
    (npix := npix) (norm := norm) (junk := junk)).2 (gridder_ok_iff.1 ⟨s, h⟩)
  have hsc : ∀ r c j, j < 3 → scaled cfg npix (fun i => -uvw i) r c j = -scaled cfg npix uvw r c j := by
    intro r c j hj
    have : rowCoord cfg cfg.phaseCentre cfg.imageCentre (fun i => -uvw i) r j =
        -rowCoord cfg cfg.phaseCentre cfg.imageCentre uvw r j := by
      unfold rowCoord baselinePolicy
      rcases hb with hb | hb
      · rw [hb, if_pos rfl, if_pos rfl]; rfl
      · rw [hb, if_neg (by decide), if_neg (by decide), if_pos rfl, if_neg (by decide), if_neg (by decide), if_pos rfl]
        simp only [okOr, uvwPlanar]
        obtain rfl | rfl | rfl : j = 0 ∨ j = 1 ∨ j = 2 := by omega
        · simp [Function.update]; ring
        · simp [Function.update]; ring
        · simp [Function.update]
    unfold scaled
    rw [this]
    ring
  have hst : ∀ r c, stokesVal cfg (fun i => -uvw i) (fun r c i => star (vis r c (handsOf cfg.stokes i))) r c =
      star (stokesVal cfg uvw vis r c) := by
    intro r c
    unfold stokesVal
    rw [← stokes_reversed]
    congr 2
    funext i
    unfold phased phasePolicy
    split_ifs
    · rfl
    · simp only [okOr, phaseRotate]
      have e : ∀ a b d : ℝ, 1 * 2 * Real.pi * (-uvw (3 * r) * a + -uvw (3 * r + 1) * b + -uvw (3 * r + 2) * d) / cfg.wavelengths c =
          -(1 * 2 * Real.pi * (uvw (3 * r) * a + uvw (3 * r + 1) * b + uvw (3 * r + 2) * d) / cfg.wavelengths c) := by
        intros; ring
      rw [e, Real.cos_neg, Real.sin_neg, star_mul']
      congr 1
      simp only [RCLike.star_def, map_add, map_mul, Complex.conj_ofReal, Complex.conj_I]
      push_cast
      ring
    · rfl
  have hmem : cfg.conv ∈ oneDim := by rw [hconv]; decide
  have htap : scatterTapOf cfg.conv = unpackedTap := by rw [hconv, scatterTapOf, if_neg (by decide)]
  refine ⟨s', hs', fun b y x y' x' hbn hin hin' hy hx => ?_⟩
  obtain rfl : y' = 2 * ((npix / 2 : Nat) : ℤ) - y := by omega
  obtain rfl : x' = 2 * ((npix / 2 : Nat) : ℤ) - x := by omega
  rw [(gridder_value hs').1 b _ _ hbn hin', (gridder_value h).1 b y x hbn hin, star_div₀, star_sum]
  refine congrArg₂ (· / ·) ?_ ?_
  · refine sum_congr rfl fun r _ => ?_
    rw [star_sum]
    refine sum_congr rfl fun c _ => ?_
    rw [star_mul', hst, kappa_cell hmem _ _ _ _ _ _ _ _ hin', kappa_cell hmem _ _ _ _ _ _ _ _ hin, hsc r c 0 (by omega),
      hsc r c 1 (by omega), htap, tapAt_neg hk, tapAt_neg hk, RCLike.star_def, Complex.conj_ofReal]
  · have hw : weight cfg npix nrow nchan (fun i => -uvw i) b = weight cfg npix nrow nchan uvw b := by
      unfold weight
      refine sum_congr rfl fun r _ => sum_congr rfl fun c _ => ?_
      rw [hsc r c 0 (by omega), hsc r c 1 (by omega)]
      have ho : ∀ su sv, omega cfg.conv cfg.kern npix su sv =
          (∑ t ∈ range cfg.kern.W, unpackedTap cfg.kern npix sv t) * ∑ t ∈ range cfg.kern.W, unpackedTap cfg.kern npix su t := by
        intro su sv
        unfold omega
        rw [hconv, if_neg (by decide), if_neg (by decide)]
      rw [ho, ho, taps_neg hk, taps_neg hk]
    unfold divisor
    rw [hw]
    split_ifs
    · rw [RCLike.star_def, Complex.conj_ofReal]
    · exact (star_one ℂ).symm

/-- C172: the kernels of the package are symmetric. -/
theorem C172_kernels (W os : Nat) (hW : W % 2 = 1) (hos : 0 < os) (a : ℝ) (jn : Nat → ℝ → ℝ) (auto : Nat → ℝ) (b c : Option ℝ)
    (o : Nat) (K : Nat → ℝ)
    (hK : sinc W os a = .ok K ∨ kbsinc jn auto W b os o = .ok K ∨ hanningsinc auto W c os = .ok K) :
    SymmetricKern { mem := fun i => K i.toNat, len := os * (W + 2), W := W, os := os } := by
  have hu : uspace W os = .ok fun k => (k : ℝ) / os - ((W + 2) / 2 : Nat) := by simp [uspace, hW]
  have ne : (os : ℝ) ≠ 0 := by positivity
  have sym : ∀ i j : Nat, i + j = os * (W + 1) → (j : ℝ) / os - ((W + 2) / 2 : Nat) = -((i : ℝ) / os - ((W + 2) / 2 : Nat)) := by
    intro i j hij
    obtain ⟨m, rfl⟩ : ∃ m, W = 2 * m + 1 := ⟨W / 2, by omega⟩
    have e : (2 * m + 1 + 2) / 2 = m + 1 := by omega
    have hij' : (i : ℝ) + j = os * (2 * m + 1 + 1) := by exact_mod_cast hij
    rw [e]
    field_simp
    push_cast
    linarith
  have even : ∀ x y : ℝ, npSinc (-x * y) = npSinc (x * y) := by
    intro x y
    unfold npSinc
    by_cases h : x * y = 0
    · rw [if_pos h, if_pos (by linarith)]
    · rw [if_neg h, if_neg (by intro h'; apply h; linarith), show Real.pi * (-x * y) = -(Real.pi * (x * y)) by ring, Real.sin_neg,
        neg_div_neg_eq]
  refine ⟨rfl, hos, hW, ?_⟩
  have key : ∀ i j : Nat, i + j = os * (W + 1) → K i = K j := by
    intro i j hij
    rcases hK with hK | hK | hK
    · rw [sinc, hu] at hK
      cases hK
      simp only [normalise, sym i j hij, even]
    · simp only [kbsinc, sinc, hu] at hK
      cases hK
      simp only [normalise, sym i j hij, even, kbRadicand]
      simp only [mul_neg, neg_div, neg_sq]
    · simp only [hanningsinc, sinc, hu] at hK
      cases hK
      simp only [normalise, sym i j hij, even]
      simp only [mul_neg, Real.cos_neg]
  intro i j hi hj hij
  simp only at hij ⊢
  refine key _ _ ?_
  have : (i.toNat : ℤ) + j.toNat = os * (W + 1) := by rw [Int.toNat_of_nonneg hi, Int.toNat_of_nonneg hj]; exact hij
  exact_mod_cast this

/-! ## Shifted baselines -/

/-- Half way between two cells. -/
def Halfway (x : ℝ) : Prop := x - ⌊x⌋ = 1 / 2

private theorem round_add (x : ℝ) (d : ℤ) (h : Even d ∨ ¬ Halfway x) : npRound (x + d) = npRound x + d := by
  unfold npRound
  rw [Int.floor_add_intCast]
  have e : x + (d : ℝ) - ((⌊x⌋ + d : ℤ) : ℝ) = x - ⌊x⌋ := by push_cast; ring
  rw [e]
  split_ifs with h1 h2 h3 h4 h5
  · rfl
  · ring
  · rfl
  · rcases h with h | h
    · obtain ⟨m, rfl⟩ := h; omega
    · exact absurd (by unfold Halfway; linarith) h
  · rcases h with h | h
    · obtain ⟨m, rfl⟩ := h; omega
    · exact absurd (by unfold Halfway; linarith) h
  · ring

private theorem disc_add (npix : Nat) (s : ℝ) (d : ℤ) (h : Even d ∨ ¬ Halfway s) : disc npix (s + d) = disc npix s + d := by
  unfold disc
  generalize npix / 2 = m
  rw [← round_add _ d]
  · congr 1; ring
  · refine h.imp_right fun h' hh => h' ?_
    unfold Halfway at hh ⊢
    rw [Int.floor_add_natCast] at hh
    push_cast at hh
    linarith

private theorem tapAt_add {tap : Kern → Nat → ℝ → Nat → ℝ} (ht : tap = unpackedTap ∨ tap = packedTap) (k : Kern) (npix : Nat) (s : ℝ)
    (d g : ℤ) (h : Even d ∨ ¬ Halfway s) :
    (∀ t, tap k npix (s + d) t = tap k npix s t) ∧ tapAt tap k npix (s + d) (g + d) = tapAt tap k npix s g := by
  have hf : frac k npix (s + d) = frac k npix s := by
    unfold frac
    rw [disc_add npix s d h]
    congr 2
    push_cast
    ring
  have hk : ∀ t, tap k npix (s + d) t = tap k npix s t := by
    intro t
    rcases ht with rfl | rfl
    · unfold unpackedTap; rw [hf]
    · unfold packedTap; rw [hf]
  refine ⟨hk, ?_⟩
  unfold tapAt
  rw [disc_add npix s d h, show g + d - (disc npix s + d) = g - disc npix s by ring, hk]

/-- C172, part proved: baselines moved by whole cells move the grid by as many cells, normalised or not: for moves by an even
number of cells and for visibilities that are not half way between two cells. Missing: moves of such visibilities by an odd
number of cells, see `C172_shift_violated`. Without baseline and phase transforms. -/
theorem C172_shift_partial (cfg : Cfg) (hconv : cfg.conv ∈ oneDim) (hb : cfg.baseline = "None") (hp : cfg.phase = "None")
    (npix nrow nchan ur uc : Nat) (uvw uvw' : Nat → ℝ) (vis : Nat → Nat → Nat → ℂ) (norm : Bool) (junk : ℤ → ℂ) (s : GridState)
    (du dv : ℤ) (cells : Nat → Nat → Nat → ℝ)
    (hcells : ∀ r c j, cells r c j = uvw (3 * r + j) * scaleFactor npix cfg.cellsize / cfg.wavelengths c)
    (hu : ∀ r < nrow, ∀ c < nchan, uvw' (3 * r) * scaleFactor npix cfg.cellsize / cfg.wavelengths c = cells r c 0 + du)
    (hv : ∀ r < nrow, ∀ c < nchan, uvw' (3 * r + 1) * scaleFactor npix cfg.cellsize / cfg.wavelengths c = cells r c 1 + dv)
    (hhu : Even du ∨ ∀ r < nrow, ∀ c < nchan, ¬ Halfway (cells r c 0))
    (hhv : Even dv ∨ ∀ r < nrow, ∀ c < nchan, ¬ Halfway (cells r c 1))
    (h : gridder cfg npix nrow nchan ur uc uvw vis norm junk = .ok s) :
    ∃ s', gridder cfg npix nrow nchan ur uc uvw' vis norm junk = .ok s' ∧
      ∀ b y x, b < nband cfg.nmap cfg.chanmap → inGrid npix y x → inGrid npix (y + dv) (x + du) →
        s'.grid (cell npix b (y + dv) (x + du)) = s.grid (cell npix b y x) := by
  obtain ⟨s', hs'⟩ := (gridder_ok_iff (vis := vis) (uvw := uvw') (npix := npix) (norm := norm) (junk := junk)).2
    (gridder_ok_iff.1 ⟨s, h⟩)
  have hrow : ∀ (w : Nat → ℝ) r j, rowCoord cfg cfg.phaseCentre cfg.imageCentre w r j = w (3 * r + j) := by
    intro w r j
    unfold rowCoord baselinePolicy
    rw [hb, if_pos rfl]
    rfl
  have hs : ∀ r c j, scaled cfg npix uvw r c j = cells r c j := by
    intro r c j
    rw [hcells, scaled, hrow]
  have hs0 : ∀ r < nrow, ∀ c < nchan, scaled cfg npix uvw' r c 0 = cells r c 0 + du := by
    intro r hr c hc
    rw [scaled, hrow, ← hu r hr c hc, add_zero]
  have hs1 : ∀ r < nrow, ∀ c < nchan, scaled cfg npix uvw' r c 1 = cells r c 1 + dv := by
    intro r hr c hc
    rw [scaled, hrow, ← hv r hr c hc]
  have hst : ∀ r c, stokesVal cfg uvw' vis r c = stokesVal cfg uvw vis r c := by
    intro r c
    unfold stokesVal phased phasePolicy
    rw [hp, if_pos rfl, if_pos rfl]
  have ht : scatterTapOf cfg.conv = unpackedTap ∨ scatterTapOf cfg.conv = packedTap := by
    unfold scatterTapOf
    split_ifs
    · exact Or.inr rfl
    · exact Or.inl rfl
  have hu' : ∀ r < nrow, ∀ c < nchan, Even du ∨ ¬ Halfway (cells r c 0) := fun r hr c hc => hhu.imp_right fun h => h r hr c hc
  have hv' : ∀ r < nrow, ∀ c < nchan, Even dv ∨ ¬ Halfway (cells r c 1) := fun r hr c hc => hhv.imp_right fun h => h r hr c hc
  refine ⟨s', hs', fun b y x hbn hin hin' => ?_⟩
  rw [(gridder_value hs').1 b _ _ hbn hin', (gridder_value h).1 b y x hbn hin]
  refine congrArg₂ (· / ·) ?_ ?_
  · refine sum_congr rfl fun r hr => sum_congr rfl fun c hc => ?_
    rw [mem_range] at hr hc
    rw [kappa_cell hconv _ _ _ _ _ _ _ _ hin', kappa_cell hconv _ _ _ _ _ _ _ _ hin, hst, hs0 r hr c hc, hs1 r hr c hc, hs, hs,
      (tapAt_add ht _ _ _ _ _ (hu' r hr c hc)).2, (tapAt_add ht _ _ _ _ _ (hv' r hr c hc)).2]
  · have hw : weight cfg npix nrow nchan uvw' b = weight cfg npix nrow nchan uvw b := by
      unfold weight
      refine sum_congr rfl fun r hr => sum_congr rfl fun c hc => ?_
      rw [mem_range] at hr hc
      have ho : ∀ su sv, omega cfg.conv cfg.kern npix su sv = (∑ t ∈ range cfg.kern.W, scatterTapOf cfg.conv cfg.kern npix sv t) *
          ∑ t ∈ range cfg.kern.W, scatterTapOf cfg.conv cfg.kern npix su t := by
        intro su sv
        simp only [oneDim, List.mem_cons, List.not_mem_nil, or_false] at hconv
        unfold omega scatterTapOf
        rcases hconv with e | e
        · rw [e, if_neg (by decide), if_pos rfl, if_pos rfl]
        · rw [e, if_neg (by decide), if_neg (by decide), if_neg (by decide)]
      rw [ho, ho, hs0 r hr c hc, hs1 r hr c hc, hs, hs]
      simp only [(tapAt_add ht _ _ _ _ 0 (hu' r hr c hc)).1, (tapAt_add ht _ _ _ _ 0 (hv' r hr c hc)).1]
    unfold divisor
    rw [hw]

/-- C172 is violated by visibilities half way between two cells: they go to the even one, so a move by one cell moves one of them
by two cells. -/
theorem C172_shift_violated : ∃ (uvw uvw' : Nat → ℝ) (s s' : GridState),
    gridder (unitCfg 8 "None" "I_FROM_XXYY" "conv_1d_axisymmetric_unpacked_scatter" (0, 0)) 8 1 1 1 3 uvw (fun _ _ _ => 1) false
      (fun _ => 0) = .ok s ∧
    gridder (unitCfg 8 "None" "I_FROM_XXYY" "conv_1d_axisymmetric_unpacked_scatter" (0, 0)) 8 1 1 1 3 uvw' (fun _ _ _ => 1) false
      (fun _ => 0) = .ok s' ∧
    uvw 0 = 1 / 2 ∧ uvw' 0 = uvw 0 + 1 ∧ (∀ i, i ≠ 0 → uvw' i = uvw i) ∧
    s.grid (cell 8 0 4 4) = 1 ∧ s'.grid (cell 8 0 4 5) = 0 ∧ s'.grid (cell 8 0 4 6) = 1 := by
  have ok : GridOk (unitCfg 8 "None" "I_FROM_XXYY" "conv_1d_axisymmetric_unpacked_scatter" (0, 0)) 1 1 1 3 :=
    ⟨⟨_, rfl⟩, ⟨_, rfl⟩, rfl, rfl, by decide, rfl, rfl, rfl⟩
  have value : ∀ (uvw : Nat → ℝ) (s : GridState),
      gridder (unitCfg 8 "None" "I_FROM_XXYY" "conv_1d_axisymmetric_unpacked_scatter" (0, 0)) 8 1 1 1 3 uvw (fun _ _ _ => 1) false
        (fun _ => 0) = .ok s → ∀ v u, inGrid 8 v u →
        s.grid (cell 8 0 v u) = if v = disc 8 (uvw 1) ∧ u = disc 8 (uvw 0) then 1 else 0 := by
    intro uvw s h v u hin
    rw [C76_value _ (by decide) _ _ _ _ _ _ _ _ _ h 0 v u (by simp [unitCfg, nband, forRange]) hin]
    simp only [sum_range_one]
    refine (if_pos rfl).trans ?_
    have hsc : ∀ j, scaled (unitCfg 8 "None" "I_FROM_XXYY" "conv_1d_axisymmetric_unpacked_scatter" (0, 0)) 8 uvw 0 0 j = uvw j := by
      intro j
      show uvw (3 * 0 + j) * scaleFactor 8 (3600 * 180 / (Real.pi * (8 : Nat))) / 1 = _
      rw [unit_scale 8 (by norm_num), mul_one, div_one, Nat.mul_zero, Nat.zero_add]
    rw [hsc, hsc]
    show ((tapAt _ unitKern 8 _ _ * tapAt _ unitKern 8 _ _ : ℝ) : ℂ) * _ = _
    rw [unit_tap, unit_tap]
    have : stokesVal (unitCfg 8 "None" "I_FROM_XXYY" "conv_1d_axisymmetric_unpacked_scatter" (0, 0)) uvw (fun _ _ _ => 1) 0 0 = 1 := by
      show okOr 0 (Except.ok ((1 + 1 : ℂ) * (1 / 2))) = 1
      norm_num [okOr]
    rw [this]
    by_cases h1 : v = disc 8 (uvw 1) <;> by_cases h2 : u = disc 8 (uvw 0) <;> simp [h1, h2]
  have d0 : disc 8 0 = 4 := by have := disc_int 8 0; simpa using this
  have d1 : disc 8 (1 / 2) = 4 := by
    have hf : ⌊(1 / 2 : ℝ) + ((8 / 2 : Nat) : ℝ)⌋ = 4 := by rw [Int.floor_eq_iff]; norm_num
    unfold disc npRound
    rw [hf]; norm_num
  have d2 : disc 8 (1 / 2 + 1) = 6 := by
    have hf : ⌊(1 / 2 + 1 : ℝ) + ((8 / 2 : Nat) : ℝ)⌋ = 5 := by rw [Int.floor_eq_iff]; norm_num
    unfold disc npRound
    rw [hf]; norm_num
  obtain ⟨s, hs⟩ := (gridder_ok_iff (npix := 8) (uvw := fun i => if i = 0 then 1 / 2 else 0) (vis := fun _ _ _ => 1) (norm := false)
    (junk := fun _ => 0)).2 ok
  obtain ⟨s', hs'⟩ := (gridder_ok_iff (npix := 8) (uvw := fun i => if i = 0 then 1 / 2 + 1 else 0) (vis := fun _ _ _ => 1)
    (norm := false) (junk := fun _ => 0)).2 ok
  refine ⟨_, _, s, s', hs, hs', rfl, rfl, fun i hi => ?_, ?_, ?_, ?_⟩
  · simp [hi]
  · rw [value _ _ hs 4 4 (by simp [inGrid])]; simp [d0]; rw [← d1]; norm_num
  · rw [value _ _ hs' 4 5 (by simp [inGrid])]; simp only [if_true]; rw [d2]; norm_num
  · rw [value _ _ hs' 4 6 (by simp [inGrid])]; simp only [if_true]; rw [d2]; simp [d0]

/-- C172 is violated by the baseline policy "rotate": two rows in the other order give another grid. -/
theorem C172_order_violated : ∃ (uvw uvw' : Nat → ℝ) (s s' : GridState),
    gridder (unitCfg 4 "rotate" "I_FROM_XXYY" "conv_1d_axisymmetric_unpacked_scatter" (Real.pi / 2, 0)) 4 2 1 2 3 uvw
      (fun _ _ _ => 1) false (fun _ => 0) = .ok s ∧
    gridder (unitCfg 4 "rotate" "I_FROM_XXYY" "conv_1d_axisymmetric_unpacked_scatter" (Real.pi / 2, 0)) 4 2 1 2 3 uvw'
      (fun _ _ _ => 1) false (fun _ => 0) = .ok s' ∧
    (∀ j < 3, uvw' j = uvw (3 + j) ∧ uvw' (3 + j) = uvw j) ∧ s.grid (cell 4 0 2 2) = 1 ∧ s'.grid (cell 4 0 2 2) = 2 := by
  have ok : GridOk (unitCfg 4 "rotate" "I_FROM_XXYY" "conv_1d_axisymmetric_unpacked_scatter" (Real.pi / 2, 0)) 2 1 2 3 :=
    ⟨⟨_, rfl⟩, ⟨_, rfl⟩, rfl, rfl, by decide, rfl, rfl, rfl⟩
  have value : ∀ (uvw : Nat → ℝ) (s : GridState),
      gridder (unitCfg 4 "rotate" "I_FROM_XXYY" "conv_1d_axisymmetric_unpacked_scatter" (Real.pi / 2, 0)) 4 2 1 2 3 uvw
        (fun _ _ _ => 1) false (fun _ => 0) = .ok s →
        s.grid (cell 4 0 2 2) = ∑ r ∈ range 2, if disc 4 (okOr uvw (baselinePolicy "rotate" uvw (3 * r) (0, 0) (Real.pi / 2, 0))
          (3 * r + 1)) = 2 ∧ disc 4 (okOr uvw (baselinePolicy "rotate" uvw (3 * r) (0, 0) (Real.pi / 2, 0)) (3 * r + 0)) = 2
          then 1 else 0 := by
    intro uvw s h
    rw [C76_value _ (by decide) _ _ _ _ _ _ _ _ _ h 0 2 2 (by simp [unitCfg, nband, forRange]) (by simp [inGrid])]
    refine sum_congr rfl fun r _ => ?_
    simp only [sum_range_one]
    refine (if_pos rfl).trans ?_
    have hsc : ∀ j, scaled (unitCfg 4 "rotate" "I_FROM_XXYY" "conv_1d_axisymmetric_unpacked_scatter" (Real.pi / 2, 0)) 4 uvw r 0 j =
        okOr uvw (baselinePolicy "rotate" uvw (3 * r) (0, 0) (Real.pi / 2, 0)) (3 * r + j) := by
      intro j
      show rowCoord _ (0, 0) (Real.pi / 2, 0) uvw r j * scaleFactor 4 (3600 * 180 / (Real.pi * (4 : Nat))) / 1 = _
      rw [unit_scale 4 (by norm_num), mul_one, div_one]
      rfl
    rw [hsc, hsc]
    show ((tapAt _ unitKern 4 _ _ * tapAt _ unitKern 4 _ _ : ℝ) : ℂ) * _ = _
    rw [unit_tap, unit_tap]
    have : stokesVal (unitCfg 4 "rotate" "I_FROM_XXYY" "conv_1d_axisymmetric_unpacked_scatter" (Real.pi / 2, 0)) uvw
        (fun _ _ _ => 1) r 0 = 1 := by
      show okOr 0 (Except.ok ((1 + 1 : ℂ) * (1 / 2))) = 1
      norm_num [okOr]
    rw [this]
    generalize disc 4 (okOr uvw (baselinePolicy "rotate" uvw (3 * r) (0, 0) (Real.pi / 2, 0)) (3 * r + 1)) = d1
    generalize disc 4 (okOr uvw (baselinePolicy "rotate" uvw (3 * r) (0, 0) (Real.pi / 2, 0)) (3 * r + 0)) = d0
    by_cases h1 : d1 = 2
    · by_cases h2 : d0 = 2
      · rw [if_pos h1.symm, if_pos h2.symm, if_pos ⟨h1, h2⟩]; norm_num
      · rw [if_pos h1.symm, if_neg (Ne.symm h2), if_neg fun h => h2 h.2]; norm_num
    · rw [if_neg (Ne.symm h1), if_neg (c := d1 = 2 ∧ d0 = 2) fun h => h1 h.1]; norm_num
  have dd : ∀ n : ℤ, disc 4 n = n + 2 := fun n => disc_int 4 n
  obtain ⟨s, hs⟩ := (gridder_ok_iff (npix := 4) (uvw := fun i => if i = 3 then 1 else 0) (vis := fun _ _ _ => 1) (norm := false)
    (junk := fun _ => 0)).2 ok
  obtain ⟨s', hs'⟩ := (gridder_ok_iff (npix := 4) (uvw := fun i => if i = 0 then 1 else 0) (vis := fun _ _ _ => 1)
    (norm := false) (junk := fun _ => 0)).2 ok
  refine ⟨_, _, s, s', hs, hs', fun j hj => ?_, ?_, ?_⟩
  · obtain rfl | rfl | rfl : j = 0 ∨ j = 1 ∨ j = 2 := by omega
    · simp
    · simp
    · simp
  · rw [value _ _ hs]
    have c00 : okOr (fun i => if i = 3 then (1 : ℝ) else 0) (baselinePolicy "rotate" (fun i => if i = 3 then 1 else 0) (3 * 0) (0, 0)
        (Real.pi / 2, 0)) (3 * 0 + 0) = ((-1 : ℤ) : ℝ) := by
      simp [baselinePolicy, okOr, uvwRotate, rotMatrix, Function.update]
    have c10 : okOr (fun i => if i = 3 then (1 : ℝ) else 0) (baselinePolicy "rotate" (fun i => if i = 3 then 1 else 0) (3 * 1) (0, 0)
        (Real.pi / 2, 0)) (3 * 1 + 0) = ((0 : ℤ) : ℝ) := by
      simp [baselinePolicy, okOr, uvwRotate, rotMatrix, Function.update]
    have c11 : okOr (fun i => if i = 3 then (1 : ℝ) else 0) (baselinePolicy "rotate" (fun i => if i = 3 then 1 else 0) (3 * 1) (0, 0)
        (Real.pi / 2, 0)) (3 * 1 + 1) = ((0 : ℤ) : ℝ) := by
      simp [baselinePolicy, okOr, uvwRotate, rotMatrix, Function.update]
    rw [sum_range_succ, sum_range_one, c00, c10, c11, dd, dd]
    norm_num
  · rw [value _ _ hs']
    have c00 : okOr (fun i => if i = 0 then (1 : ℝ) else 0) (baselinePolicy "rotate" (fun i => if i = 0 then 1 else 0) (3 * 0) (0, 0)
        (Real.pi / 2, 0)) (3 * 0 + 0) = ((0 : ℤ) : ℝ) := by
      simp [baselinePolicy, okOr, uvwRotate, rotMatrix, Function.update]
    have c01 : okOr (fun i => if i = 0 then (1 : ℝ) else 0) (baselinePolicy "rotate" (fun i => if i = 0 then 1 else 0) (3 * 0) (0, 0)
        (Real.pi / 2, 0)) (3 * 0 + 1) = ((0 : ℤ) : ℝ) := by
      simp [baselinePolicy, okOr, uvwRotate, rotMatrix, Function.update]
    have c10 : okOr (fun i => if i = 0 then (1 : ℝ) else 0) (baselinePolicy "rotate" (fun i => if i = 0 then 1 else 0) (3 * 1) (0, 0)
        (Real.pi / 2, 0)) (3 * 1 + 0) = ((0 : ℤ) : ℝ) := by
      simp [baselinePolicy, okOr, uvwRotate, rotMatrix, Function.update]
    have c11 : okOr (fun i => if i = 0 then (1 : ℝ) else 0) (baselinePolicy "rotate" (fun i => if i = 0 then 1 else 0) (3 * 1) (0, 0)
        (Real.pi / 2, 0)) (3 * 1 + 1) = ((0 : ℤ) : ℝ) := by
      simp [baselinePolicy, okOr, uvwRotate, rotMatrix, Function.update]
    rw [sum_range_succ, sum_range_one, c00, c01, c10, c11, dd]
    norm_num

/-- The hypotheses of the theorems hold: the gridder returns, exchanging two rows is a bijection, the kernel of one tap and the
`sinc` kernel of three taps are symmetric, and a quarter is not half way. -/
example : GridOk (unitCfg 8 "wlinapprox" "I_FROM_XXYY" "conv_1d_axisymmetric_unpacked_scatter" (1, 1)) 2 1 2 3 ∧
    Set.BijOn (fun r => 1 - r) {r | r < 2} {r | r < 2} ∧ SymmetricKern unitKern ∧ (∃ K, sinc 3 2 1 = .ok K) ∧ ¬ Halfway (1 / 4) := by
  refine ⟨⟨⟨_, rfl⟩, ⟨_, rfl⟩, rfl, rfl, by decide, rfl, rfl, rfl⟩, ⟨?_, ?_, ?_⟩, ⟨rfl, one_pos, rfl, fun _ _ _ _ _ => rfl⟩, ⟨_, rfl⟩, ?_⟩
  · intro r hr; simp only [Set.mem_ofPred_eq] at *; omega
  · intro r hr r' hr' e; simp only [Set.mem_ofPred_eq] at *; omega
  · intro r hr
    simp only [Set.mem_ofPred_eq, Set.mem_image] at *
    exact ⟨1 - r, by omega, by omega⟩
  · have : ⌊(1 / 4 : ℝ)⌋ = 0 := by rw [Int.floor_eq_iff]; norm_num
    unfold Halfway
    rw [this]
    norm_num

end Verif.Gridding
