/-
Properties of the restoration of images: C129.
-/
import Verif.Deconv.Restore
import Verif.Deconv.HogbomProps
import Mathlib.Tactic.NormNum

set_option autoImplicit false

namespace Verif.Deconv

/-! ### specification -/

/-- The samples of a square psf of side `N` that are fitted, row after row: `x` counts columns and `y` counts rows, and the
value is that of the psf where it reaches half of its largest value `peak`, and zero elsewhere. -/
def FitSamples (N : Nat) (psf : Nat → Nat → ℝ) (peak : ℝ) (xy : Nat → ℝ × ℝ) (data : Nat → ℝ) : Prop :=
  ∀ row < N, ∀ col < N, xy (row * N + col) = ((col : ℝ), (row : ℝ)) ∧
    (peak ≤ 2 * psf row col → data (row * N + col) = psf row col) ∧
    (2 * psf row col < peak → data (row * N + col) = 0)

/-- `beam` is the fitted function, sampled with `x` counting columns and `y` counting rows, divided by its largest sample,
which is that at `(row, col)`. -/
def ScaledSamples (N : Nat) (g : GaussParams) (beam : Nat → Nat → ℝ) (row col : Nat) : Prop :=
  row < N ∧ col < N ∧ (∀ r < N, ∀ c < N, g.eval c r ≤ g.eval col row) ∧
    ∀ r < N, ∀ c < N, beam r c = g.eval c r / g.eval col row

/-- The image of components `clean` (side `n`) blurred with `beam`, whose centre is the pixel `(n - 1, n - 1)`. -/
noncomputable def blurred (n : Nat) (clean beam : Nat → Nat → ℝ) (x y : Nat) : ℝ :=
  ∑ p ∈ Finset.range n, ∑ q ∈ Finset.range n, clean p q * beam (x + (n - 1) - p) (y + (n - 1) - q)

/-! ### lemmas -/

private theorem idx_lt {N r c : Nat} (hr : r < N) (hc : c < N) : r * N + c < N * N := by
  calc r * N + c < r * N + N := by omega
    _ = (r + 1) * N := by ring
    _ ≤ N * N := Nat.mul_le_mul_right _ hr

private theorem idx_div {N r c : Nat} (hc : c < N) : (r * N + c) / N = r := by
  rw [Nat.add_comm, Nat.add_mul_div_right _ _ (by omega), Nat.div_eq_of_lt hc, Nat.zero_add]

private theorem idx_mod {N r c : Nat} (hc : c < N) : (r * N + c) % N = c := by
  rw [Nat.add_comm, Nat.add_mul_mod_self_right, Nat.mod_eq_of_lt hc]

private theorem gridPoint_idx {N r c : Nat} (hc : c < N) : gridPoint N (r * N + c) = ((c : ℝ), (r : ℝ)) := by
  unfold gridPoint
  rw [idx_div hc, idx_mod hc]

private theorem samples (N : Nat) (hN : 0 < N) (psf : Nat → Nat → ℝ) {p q : Nat} (h : IsLargestAt N N psf p q) :
    FitSamples N psf (psf p q) (gridPoint N) (ravel N (psfFit N N psf)) := by
  have hm : imgMax N N psf = psf p q := by
    obtain ⟨⟨p', q', hp, hq, e⟩, hall⟩ := imgMax_spec N N psf hN hN
    exact le_antisymm (e ▸ h.2.2 p' hp q' hq) (hall p h.1 q h.2.1)
  intro row _ col hc
  refine ⟨gridPoint_idx hc, fun h1 => ?_, fun h1 => ?_⟩
  · unfold ravel psfFit
    rw [idx_div hc, idx_mod hc, hm, if_pos (by linarith)]
  · unfold ravel psfFit
    rw [idx_div hc, idx_mod hc, hm, if_neg (by linarith)]

private theorem fit_ok {fit : CurveFit} {N : Nat} (hN : 3 ≤ N) {psf : Nat → Nat → ℝ} {g : GaussParams}
    (h : fit (N * N) (gridPoint N) (ravel N (psfFit N N psf)) (initialGuess N N) = .ok g) :
    ∃ beam row col, fit2dGaussian fit N N psf = .ok beam ∧ ScaledSamples N g beam row col := by
  have h7 : ¬ N * N < 7 := by nlinarith
  have hNN : 0 < N * N := by nlinarith
  obtain ⟨⟨z, k, hz, hk, e⟩, hall⟩ := imgMax_spec 1 (N * N)
    (fun _ k => g.eval (gridPoint N k).1 (gridPoint N k).2) (by omega) hNN
  have hrow : k / N < N := Nat.div_lt_of_lt_mul hk
  have hcol : k % N < N := Nat.mod_lt _ (by omega)
  have hk' : gridPoint N k = (((k % N : Nat) : ℝ), ((k / N : Nat) : ℝ)) := rfl
  refine ⟨fun a b => g.eval (gridPoint N (a * N + b)).1 (gridPoint N (a * N + b)).2 /
    imgMax 1 (N * N) (fun _ k => g.eval (gridPoint N k).1 (gridPoint N k).2), k / N, k % N, ?_, hrow, hcol, ?_, ?_⟩
  · unfold fit2dGaussian
    rw [if_neg (by omega)]
    unfold curveFit
    rw [if_neg h7, h]
  · intro r hr c hc
    have := hall 0 (by omega) (r * N + c) (idx_lt hr hc)
    rw [e, gridPoint_idx hc, hk'] at this
    exact this
  · intro r hr c hc
    show g.eval (gridPoint N (r * N + c)).1 (gridPoint N (r * N + c)).2 / _ = _
    rw [e, hk', gridPoint_idx hc]

/-- The part of the convolution that is kept lies inside a psf of twice the size. -/
private theorem convolve_eq (n : Nat) (clean beam : Nat → Nat → ℝ) {x y : Nat} (hx : x < n) (hy : y < n) :
    fftconvolveSame n n (2 * n) (2 * n) clean beam x y = blurred n clean beam x y := by
  unfold fftconvolveSame blurred
  refine Finset.sum_congr rfl fun p hp => Finset.sum_congr rfl fun q hq => ?_
  have hp := Finset.mem_range.mp hp
  have hq := Finset.mem_range.mp hq
  dsimp only
  have e : (2 * n - 1) / 2 = n - 1 := by omega
  rw [e, if_pos (by omega)]

/-! ### theorems -/

/-- **C129**: for every square psf of side at least three, the parameters are fitted to the pixels of the psf that reach
half of its peak, and zeros elsewhere, with `x` counting columns and `y` rows; an exception of the fit is passed on, and
otherwise the clean beam is the fitted function divided by its largest sample. -/
theorem C129_beam (fit : CurveFit) (N : Nat) (hN : 3 ≤ N) (psf : Nat → Nat → ℝ) (p q : Nat) (hp : IsLargestAt N N psf p q) :
    ∃ xy data p0, FitSamples N psf (psf p q) xy data ∧
      (∀ e, fit (N * N) xy data p0 = .error e → fit2dGaussian fit N N psf = .error e) ∧
      ∀ g, fit (N * N) xy data p0 = .ok g →
        ∃ beam row col, fit2dGaussian fit N N psf = .ok beam ∧ ScaledSamples N g beam row col := by
  refine ⟨gridPoint N, ravel N (psfFit N N psf), initialGuess N N, samples N (by omega) psf hp, fun e h => ?_,
    fun g h => fit_ok hN h⟩
  unfold fit2dGaussian curveFit
  rw [if_neg (by omega), if_neg (by nlinarith), h]

/-- **C129**: when the fitted function is positive somewhere on the grid, the largest value of the clean beam is one. -/
theorem C129_unit_peak (fit : CurveFit) (N : Nat) (hN : 3 ≤ N) (psf beam : Nat → Nat → ℝ)
    (h : fit2dGaussian fit N N psf = .ok beam) :
    ∃ g, (∃ xy data p0, fit (N * N) xy data p0 = .ok g) ∧
      ((∃ r < N, ∃ c < N, 0 < g.eval c r) →
        (∃ r < N, ∃ c < N, beam r c = 1) ∧ ∀ r < N, ∀ c < N, beam r c ≤ 1) := by
  cases hf : fit (N * N) (gridPoint N) (ravel N (psfFit N N psf)) (initialGuess N N) with
  | error e =>
    unfold fit2dGaussian curveFit at h
    rw [if_neg (by omega), if_neg (by nlinarith), hf] at h
    cases h
  | ok g =>
    refine ⟨g, ⟨_, _, _, hf⟩, ?_⟩
    obtain ⟨beam', row, col, e, h1, h2, h3, h4⟩ := fit_ok (psf := psf) hN hf
    rw [e] at h
    cases h
    rintro ⟨r, hr, c, hc, h5⟩
    have h6 : 0 < g.eval col row := lt_of_lt_of_le h5 (h3 r hr c hc)
    refine ⟨⟨row, h1, col, h2, ?_⟩, fun r hr c hc => ?_⟩
    · rw [h4 row h1 col h2, div_self h6.ne']
    · rw [h4 r hr c hc]
      exact (div_le_one h6).mpr (h3 r hr c hc)

/-- **C129**: for every square image with at least two pixels along each side, every psf of twice the size, gain, threshold
and iteration limit, and every fit that succeeds: restoring what `hogbom_clean` returned replaces the psf by the clean beam
around every component, that is, the convolved model is the model blurred with the clean beam, the restored image is that
plus the residual, and hence it is the dirty image plus the model blurred with the difference of clean beam and psf. -/
theorem C129_restore (fit : CurveFit) (n : Nat) (dirty psf : Nat → Nat → ℝ) (gamma : ℝ) (t : Option ℝ)
    (niter : Option Int) (clean residual beam : Nat → Nat → ℝ)
    (hc : hogbomClean n n (2 * n) (2 * n) dirty psf gamma t niter = .ok (clean, residual))
    (hb : fit2dGaussian fit (2 * n) (2 * n) psf = .ok beam) :
    ∃ restored model, restore fit n n (2 * n) (2 * n) clean psf residual = .ok (restored, model) ∧
      ∀ x < n, ∀ y < n, model x y = blurred n clean beam x y ∧
        restored x y = residual x y + blurred n clean beam x y ∧
        restored x y = dirty x y + blurred n clean (fun r c => beam r c - psf r c) x y := by
  have hn : 0 < n := by
    rcases Nat.eq_zero_or_pos n with h | h
    · subst h
      rw [(C83_rejects 0 0 0 0 dirty psf gamma t niter).2.2] at hc
      cases hc
    · exact h
  refine ⟨_, _, by unfold restore; rw [hb], fun x hx y hy => ⟨?_, ?_, ?_⟩⟩
  · exact convolve_eq n clean beam hx hy
  · show fftconvolveSame n n (2 * n) (2 * n) clean beam x y + residual x y = _
    rw [convolve_eq n clean beam hx hy, add_comm]
  · show fftconvolveSame n n (2 * n) (2 * n) clean beam x y + residual x y = _
    rw [convolve_eq n clean beam hx hy]
    obtain ⟨clean', residual', e, h⟩ := C83_accounts_for_dirty n hn dirty psf gamma t niter
    rw [hc] at e
    cases e
    rw [← h x hx y hy]
    unfold blurred
    simp only [mul_sub, Finset.sum_sub_distrib]
    ring

/-- **C129**: an exception of the fit is the exception of `restore`. -/
theorem C129_error (fit : CurveFit) (nx ny px py : Nat) (clean psf residual : Nat → Nat → ℝ) (e : PyErr)
    (h : fit2dGaussian fit px py psf = .error e) : restore fit nx ny px py clean psf residual = .error e := by
  unfold restore
  rw [h]

/-- **C129**: where a component appears. If the clean beam of a psf of twice the size of the image is largest at the pixel
`(r, c)`, a model of one positive component at `(p, q)` is largest at `(p + r - (n - 1), q + c - (n - 1))` after the
convolution, when that is a pixel of the image: at the component if `(r, c)` is `(n - 1, n - 1)`, and one pixel below and to
the right of it if `(r, c)` is `(n, n)`, where the fit starts. -/
theorem C129_position (n : Nat) (beam : Nat → Nat → ℝ) (v : ℝ) (hv : 0 < v) (p q r c P Q : Nat)
    (hb : IsLargestAt (2 * n) (2 * n) beam r c) (hp : p < n) (hq : q < n) (hP : P < n) (hQ : Q < n)
    (hr : P + (n - 1) = p + r) (hc : Q + (n - 1) = q + c) :
    IsLargestAt n n (fftconvolveSame n n (2 * n) (2 * n) (fun x y => if x = p ∧ y = q then v else 0) beam) P Q := by
  have one : ∀ x < n, ∀ y < n, fftconvolveSame n n (2 * n) (2 * n) (fun x y => if x = p ∧ y = q then v else 0) beam x y =
      v * beam (x + (n - 1) - p) (y + (n - 1) - q) := by
    intro x hx y hy
    rw [convolve_eq n _ beam hx hy]
    unfold blurred
    rw [Finset.sum_eq_single p, Finset.sum_eq_single q]
    · simp
    · intro b _ hb; simp [hb]
    · intro h; exact absurd (Finset.mem_range.mpr hq) h
    · intro b _ hb
      exact Finset.sum_eq_zero fun c _ => by simp [hb]
    · intro h; exact absurd (Finset.mem_range.mpr hp) h
  refine ⟨hP, hQ, fun x hx y hy => ?_⟩
  rw [one x hx y hy, one _ hP _ hQ]
  have e1 : P + (n - 1) - p = r := by omega
  have e2 : Q + (n - 1) - q = c := by omega
  rw [e1, e2]
  exact mul_le_mul_of_nonneg_left (hb.2.2 _ (by omega) _ (by omega)) hv.le

/-- **C129** refuted for images of one pixel: `hogbom_clean` accepts them, but no fit makes `restore` succeed: it raises
`TypeError`, since the psf has four pixels and the Gaussian seven parameters. -/
theorem C129_one_pixel_violated (fit : CurveFit) (clean psf residual : Nat → Nat → ℝ) (gamma : ℝ) (t : Option ℝ)
    (niter : Option Int) (dirty : Nat → Nat → ℝ) :
    (∃ r, hogbomClean 1 1 2 2 dirty psf gamma t niter = .ok r) ∧
    restore fit 1 1 2 2 clean psf residual = .error .typeError := by
  constructor
  · obtain ⟨c, r, h, _⟩ := C83_accounts_for_dirty 1 (by omega) dirty psf gamma t niter
    exact ⟨_, h⟩
  · refine C129_error _ _ _ _ _ _ _ _ _ ?_
    unfold fit2dGaussian curveFit
    rw [if_neg (by omega), if_pos (by omega)]

/-- **C129** refuted for a psf that is not square: of a psf of two rows and four columns, fitted by the round Gaussian of
width one around the first pixel, the clean beam has the value of that Gaussian one pixel away from the centre at the pixel
that is two pixels away. -/
theorem C129_oblong_violated : ∃ (fit : CurveFit) (g : GaussParams) (psf beam : Nat → Nat → ℝ),
    (∀ n xy data p0, fit n xy data p0 = .ok g) ∧ fit2dGaussian fit 2 4 psf = .ok beam ∧
    beam 0 0 = 1 ∧ g.eval 0 0 = 1 ∧ beam 0 2 = g.eval 1 0 ∧ beam 0 2 ≠ g.eval 2 0 := by
  have hev : ∀ x y : ℝ, (⟨1, 0, 0, 1, 1, 0, 0⟩ : GaussParams).eval x y = Real.exp (-(x ^ 2 / 2 + y ^ 2 / 2)) := by
    intro x y
    unfold GaussParams.eval
    rw [C93_elliptical _ _ _ _ _ _ _ _ _ (by norm_num) (by norm_num)]
    simp [ellipticalGaussian]
  have htop : imgMax 1 (4 * 2) (fun _ k => (⟨1, 0, 0, 1, 1, 0, 0⟩ : GaussParams).eval (gridPoint 2 k).1 (gridPoint 2 k).2)
      = 1 := by
    obtain ⟨⟨z, k, hz, hk, e⟩, hall⟩ := imgMax_spec 1 (4 * 2)
      (fun _ k => (⟨1, 0, 0, 1, 1, 0, 0⟩ : GaussParams).eval (gridPoint 2 k).1 (gridPoint 2 k).2) (by omega) (by omega)
    refine le_antisymm ?_ ?_
    · rw [e, hev]
      refine Real.exp_le_one_iff.mpr ?_
      have := sq_nonneg (gridPoint 2 k).1
      have := sq_nonneg (gridPoint 2 k).2
      linarith
    · have := hall 0 (by omega) 0 (by omega)
      rw [hev] at this
      simpa [gridPoint] using this
  refine ⟨fun _ _ _ _ => .ok ⟨1, 0, 0, 1, 1, 0, 0⟩, ⟨1, 0, 0, 1, 1, 0, 0⟩, fun _ _ => 1, _, fun _ _ _ _ => rfl, by
    unfold fit2dGaussian curveFit
    rw [if_neg (by omega), if_neg (by omega)], ?_, ?_, ?_, ?_⟩
  · show _ / _ = _
    rw [htop]
    dsimp only
    rw [hev]
    simp [gridPoint]
  · rw [hev]; simp
  · show _ / _ = _
    rw [htop]
    dsimp only
    rw [hev, hev]
    simp [gridPoint]
  · show _ / _ ≠ _
    rw [htop]
    dsimp only
    rw [hev, hev]
    intro h
    simp [gridPoint] at h
    norm_num at h

/-- An image that is zero outside its `m1` rows and `m2` columns. -/
noncomputable def zeroOutside (m1 m2 : Nat) (b : Nat → Nat → ℝ) (i j : Int) : ℝ :=
  if 0 ≤ i ∧ i < m1 ∧ 0 ≤ j ∧ j < m2 then b i.toNat j.toNat else 0

/-- **C129** For images and psfs of any shapes, each component appears in the restored image as the beam, with the pixel
`((m1 - 1) / 2, (m2 - 1) / 2)` of the beam on the component and nothing beyond the edges of the beam. -/
theorem C129_shapes (fit : CurveFit) (nx ny px py : Nat) (clean psf residual beam : Nat → Nat → ℝ)
    (hb : fit2dGaussian fit px py psf = .ok beam) :
    ∃ restored model, restore fit nx ny px py clean psf residual = .ok (restored, model) ∧
      ∀ x y : Nat, restored x y = residual x y + model x y ∧
        model x y = ∑ p ∈ Finset.range nx, ∑ q ∈ Finset.range ny,
          clean p q * zeroOutside px py beam ((x : Int) - p + (((px - 1) / 2 : Nat) : Int))
            ((y : Int) - q + (((py - 1) / 2 : Nat) : Int)) := by
  refine ⟨_, _, by unfold restore; rw [hb], fun x y => ⟨add_comm _ _, ?_⟩⟩
  unfold fftconvolveSame
  refine Finset.sum_congr rfl fun p _ => Finset.sum_congr rfl fun q _ => ?_
  dsimp only
  unfold zeroOutside
  by_cases h : p ≤ x + (px - 1) / 2 ∧ x + (px - 1) / 2 - p < px ∧ q ≤ y + (py - 1) / 2 ∧ y + (py - 1) / 2 - q < py
  · rw [if_pos h, if_pos (by omega)]
    congr 2 <;> omega
  · rw [if_neg h, if_neg (by omega), mul_zero]

/-- Non-vacuity: a psf of four by four pixels with the peak at `(1, 1)`, fitted by a Gaussian around `(1, 1)`. -/
example : ∃ (fit : CurveFit) (clean residual beam : Nat → Nat → ℝ),
    hogbomClean 2 2 4 4 (fun x y => if x = 0 ∧ y = 1 then 1 else 0) (fun x y => if x = 1 ∧ y = 1 then 1 else 0)
      (1 / 2 : ℝ) none none = .ok (clean, residual) ∧
    fit2dGaussian fit 4 4 (fun x y => if x = 1 ∧ y = 1 then 1 else 0) = .ok beam ∧
    (∃ r < 4, ∃ c < 4, beam r c = 1) := by
  have hpos : ∃ r < 4, ∃ c < 4, 0 < (⟨1, 1, 1, 1, 1, 0, 0⟩ : GaussParams).eval ((c : Nat) : ℝ) ((r : Nat) : ℝ) :=
    ⟨1, by omega, 1, by omega, by
      have := (C93_bounds ((1 : Nat) : ℝ) ((1 : Nat) : ℝ) 1 1 1 1 1 0 0 (by norm_num) (by norm_num) (by norm_num)).1
      exact this⟩
  obtain ⟨c, r, h, _⟩ := C83_accounts_for_dirty 2 (by omega) (fun x y => if x = 0 ∧ y = 1 then 1 else 0)
    (fun x y => if x = 1 ∧ y = 1 then 1 else 0) (1 / 2 : ℝ) none none
  obtain ⟨b, _, _, hb, _⟩ := fit_ok (fit := fun _ _ _ _ => .ok ⟨1, 1, 1, 1, 1, 0, 0⟩) (N := 4) (by omega)
    (psf := fun x y => if x = 1 ∧ y = 1 then 1 else 0) rfl
  obtain ⟨g, ⟨_, _, _, hg⟩, h1⟩ := C129_unit_peak _ 4 (by omega) _ b hb
  cases hg
  exact ⟨fun _ _ _ _ => .ok ⟨1, 1, 1, 1, 1, 0, 0⟩, c, r, b, h, hb, (h1 hpos).1⟩

end Verif.Deconv
