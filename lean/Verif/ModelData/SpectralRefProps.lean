/-
C154: spectra do not depend on the reference frequency, the unit of frequency or the unit of flux.
-/
import Verif.ModelData.SpectralProps
import Mathlib.Data.Nat.Choose.Sum

set_option autoImplicit false

namespace Verif.ModelData

open Finset

/-! ### Specification -/

/-- Specification: the coefficients, about a new origin, of a polynomial without constant term. If `y = a x + d` then
`∑ i < n, c i y ^ (i + 1)` and `∑ j < n, shifted n c a d j x ^ (j + 1)` differ by a constant only. -/
noncomputable def shifted (n : Nat) (c : Nat → ℝ) (a d : ℝ) (j : Nat) : ℝ :=
  a ^ (j + 1) * ∑ i ∈ range n, c i * (i + 1).choose (j + 1) * d ^ (i - j)

/-- Specification: spectral parameters moved to a new reference frequency. The indices of a power law stay, the
coefficients of a logarithmic polynomial are those about the new origin. -/
noncomputable def movedIndices (k : Kind) (n : Nat) (spi : Nat → ℝ) (rf rf' : ℝ) : Nat → ℝ :=
  match k with
  | .std => spi
  | .log => shifted n spi 1 (Real.log (rf' / rf))
  | .log10 => shifted n spi 1 (Real.logb 10 (rf' / rf))

/-! ### Lemmas -/

private theorem shift_power (k : Nat) (a d x : ℝ) :
    (a * x + d) ^ (k + 1) = d ^ (k + 1) +
      ∑ j ∈ range (k + 1), a ^ (j + 1) * (((k + 1).choose (j + 1) : ℝ) * d ^ (k - j)) * x ^ (j + 1) := by
  rw [add_pow, sum_range_succ']
  simp only [pow_zero, Nat.sub_zero, one_mul, Nat.choose_zero_right, Nat.cast_one, mul_one]
  rw [add_comm]
  congr 1
  refine sum_congr rfl fun j _ => ?_
  rw [mul_pow, Nat.add_sub_add_right]
  ring

private theorem shift_poly (n : Nat) (c : Nat → ℝ) (a d x : ℝ) :
    ∑ i ∈ range n, c i * (a * x + d) ^ (i + 1) =
      ∑ i ∈ range n, c i * d ^ (i + 1) + ∑ j ∈ range n, shifted n c a d j * x ^ (j + 1) := by
  have h1 : ∀ i ∈ range n, c i * (a * x + d) ^ (i + 1) = c i * d ^ (i + 1) +
      ∑ j ∈ range n, a ^ (j + 1) * (c i * ((i + 1).choose (j + 1) : ℝ) * d ^ (i - j)) * x ^ (j + 1) := by
    intro i hi
    rw [shift_power, mul_add, mul_sum]
    congr 1
    have hi' := mem_range.1 hi
    rw [← sum_subset (range_mono (show i + 1 ≤ n by omega))]
    · exact sum_congr rfl fun j _ => by ring
    · intro j _ hj
      rw [Nat.choose_eq_zero_of_lt (by rw [mem_range] at hj; omega)]
      simp
  rw [sum_congr rfl h1, sum_add_distrib]
  congr 1
  rw [sum_comm]
  refine sum_congr rfl fun j _ => ?_
  rw [shifted, mul_sum, sum_mul]

private theorem exp_ne (x : ℝ) : Real.log (Real.exp x) = x := Real.log_exp x

private theorem logb_ten (x : ℝ) : Real.logb 10 ((10 : ℝ) ^ x) = x := Real.logb_rpow (by norm_num) (by norm_num)

/-- The documented spectra, moved. -/
theorem spectralSpec_moved (k : Kind) (stokes : ℝ) (n : Nat) (spi : Nat → ℝ) (rf rf' freq : ℝ) (h : 0 < rf)
    (h' : 0 < rf') (hf : 0 < freq) :
    spectralSpec k (spectralSpec k stokes n spi rf rf') n (movedIndices k n spi rf rf') rf' freq =
      spectralSpec k stokes n spi rf freq := by
  have hsplit : freq / rf = freq / rf' * (rf' / rf) := by field_simp
  cases k with
  | std =>
    simp only [spectralSpec, movedIndices]
    rw [mul_assoc, ← prod_mul_distrib]
    congr 1
    refine prod_congr rfl fun i _ => ?_
    rw [hsplit, Real.mul_rpow (by positivity) (by positivity), mul_comm]
  | log =>
    simp only [spectralSpec, movedIndices, exp_ne]
    congr 1
    rw [hsplit, Real.log_mul (by positivity) (by positivity), add_assoc]
    congr 1
    have := shift_poly n spi 1 (Real.log (rf' / rf)) (Real.log (freq / rf'))
    rw [one_mul] at this
    exact this.symm
  | log10 =>
    simp only [spectralSpec, movedIndices, logb_ten]
    congr 1
    rw [hsplit, Real.logb_mul (by positivity) (by positivity), add_assoc]
    congr 1
    have := shift_poly n spi 1 (Real.logb 10 (rf' / rf)) (Real.logb 10 (freq / rf'))
    rw [one_mul] at this
    exact this.symm

/-! ### C154 -/

/-- **C154** `spectral_model`: replace every reference frequency by another one, the Stokes parameters by the spectrum
there and the spectral parameters by the moved ones: the spectra are the same at every positive frequency. Any number of
sources, spectral parameters and polarisations, and any mixture of the three models. -/
theorem C154_moved (sdims pdims : List Nat) (nspi : Nat) (stokes : Nat → Nat → ℝ) (spi : Nat → Nat → Nat → ℝ)
    (refFreq refFreq' freq : Nat → ℝ) (base : Base) (hd : pdims.length = sdims.length) (hp : sdims.prod = pdims.prod)
    (kind : Nat → Kind) (nonempty : base ≠ .list []) (scalar : base ≠ .other)
    (hk : ∀ p < sdims.prod, (baseAt p base).bind baseKind = some (kind p))
    (pos : ∀ s, 0 < refFreq s) (pos' : ∀ s, 0 < refFreq' s) :
    ∃ out out',
      spectralModel sdims pdims nspi stokes spi refFreq freq base = .ok out ∧
      spectralModel sdims pdims nspi
        (fun s p => spectralSpec (kind p) (stokes s p) nspi (fun i => spi s i p) (refFreq s) (refFreq' s))
        (fun s i p => movedIndices (kind p) nspi (fun i => spi s i p) (refFreq s) (refFreq' s) i)
        refFreq' freq base = .ok out' ∧
      ∀ s f, 0 < freq f → ∀ p < sdims.prod, out' s f p = out s f p := by
  obtain ⟨out, h1, h2⟩ := C47_value sdims pdims nspi stokes spi refFreq freq base hd hp kind nonempty scalar hk
  obtain ⟨out', h1', h2'⟩ := C47_value sdims pdims nspi
    (fun s p => spectralSpec (kind p) (stokes s p) nspi (fun i => spi s i p) (refFreq s) (refFreq' s))
    (fun s i p => movedIndices (kind p) nspi (fun i => spi s i p) (refFreq s) (refFreq' s) i)
    refFreq' freq base hd hp kind nonempty scalar hk
  refine ⟨out, out', h1, h1', fun s f hf p hp => ?_⟩
  rw [h2 s f p hp, h2' s f p hp]
  exact spectralSpec_moved (kind p) (stokes s p) nspi (fun i => spi s i p) (refFreq s) (refFreq' s) (freq f)
    (pos s) (pos' s) hf

/-- **C154** The moved parameters of a power law are the given ones, and so are those of a logarithmic model with one
parameter: there the reference frequency changes the flux only. -/
theorem C154_index_kept (k : Kind) (spi : Nat → ℝ) (rf rf' : ℝ) : movedIndices k 1 spi rf rf' 0 = spi 0 := by
  cases k <;> simp [movedIndices, shifted]

/-- **C154** The unit of frequency is immaterial: multiplying all frequencies and reference frequencies by one nonzero
number changes nothing, whether the call succeeds or not. -/
theorem C154_unit (sdims pdims : List Nat) (nspi : Nat) (stokes : Nat → Nat → ℝ) (spi : Nat → Nat → Nat → ℝ)
    (refFreq freq : Nat → ℝ) (base : Base) (c : ℝ) (hc : c ≠ 0) :
    spectralModel sdims pdims nspi stokes spi (fun s => c * refFreq s) (fun f => c * freq f) base =
      spectralModel sdims pdims nspi stokes spi refFreq freq base := by
  have cell : ∀ k st sp s f, specCell k st nspi sp (c * refFreq s) (c * freq f) =
      specCell k st nspi sp (refFreq s) (freq f) := by
    intro k st sp s f
    simp only [specCell_eq, spectralSpec, mul_div_mul_left _ _ hc]
  cases base with
  | other => rfl
  | scalar b => simp only [spectralModel, spectralLoop, cell]
  | list l => simp only [spectralModel, spectralLoop, cell]

/-- **C154** The unit of flux is immaterial: with positive Stokes parameters (for the two logarithmic models; any for
power laws) a positive factor on the Stokes parameters is the same factor on the spectra. -/
theorem C154_flux (sdims pdims : List Nat) (nspi : Nat) (stokes : Nat → Nat → ℝ) (spi : Nat → Nat → Nat → ℝ)
    (refFreq freq : Nat → ℝ) (base : Base) (c : ℝ) (hc : 0 < c) (hd : pdims.length = sdims.length)
    (hp : sdims.prod = pdims.prod) (kind : Nat → Kind) (nonempty : base ≠ .list []) (scalar : base ≠ .other)
    (hk : ∀ p < sdims.prod, (baseAt p base).bind baseKind = some (kind p))
    (pos : ∀ s p, kind p ≠ .std → 0 < stokes s p) :
    ∃ out out', spectralModel sdims pdims nspi stokes spi refFreq freq base = .ok out ∧
      spectralModel sdims pdims nspi (fun s p => c * stokes s p) spi refFreq freq base = .ok out' ∧
      ∀ s f, ∀ p < sdims.prod, out' s f p = c * out s f p := by
  obtain ⟨out, h1, h2⟩ := C47_value sdims pdims nspi stokes spi refFreq freq base hd hp kind nonempty scalar hk
  obtain ⟨out', h1', h2'⟩ := C47_value sdims pdims nspi (fun s p => c * stokes s p) spi refFreq freq base hd hp kind
    nonempty scalar hk
  refine ⟨out, out', h1, h1', fun s f p hp => ?_⟩
  rw [h2 s f p hp, h2' s f p hp]
  have hpos := pos s p
  cases hkp : kind p with
  | std => simp only [spectralSpec, mul_assoc]
  | log =>
    have := hpos (by rw [hkp]; decide)
    simp only [spectralSpec]
    rw [Real.log_mul hc.ne' this.ne', add_assoc, Real.exp_add, Real.exp_log hc]
  | log10 =>
    have := hpos (by rw [hkp]; decide)
    simp only [spectralSpec]
    rw [Real.logb_mul hc.ne' this.ne', add_assoc, Real.rpow_add (by norm_num),
      Real.rpow_logb (by norm_num) (by norm_num) hc]

/-- A mixture of models, two spectral parameters, and reference frequencies moved from 1 to 2: the hypotheses hold and
the spectra are the same at frequency 3. -/
example : ∃ out out',
    spectralModel [2] [2] 2 (fun _ _ => 5) (fun _ i _ => i + 1) (fun _ => 1) (fun _ => 3)
      (.list [.str "log", .str "std"]) = .ok out ∧
    spectralModel [2] [2] 2
      (fun _ p => spectralSpec (if p = 0 then .log else .std) 5 2 (fun i => i + 1) 1 2)
      (fun _ i p => movedIndices (if p = 0 then .log else .std) 2 (fun i => i + 1) 1 2 i)
      (fun _ => 2) (fun _ => 3) (.list [.str "log", .str "std"]) = .ok out' ∧ out' 0 0 0 = out 0 0 0 := by
  obtain ⟨o, o', h, h', e⟩ := C154_moved [2] [2] 2 (fun _ _ => 5) (fun _ i _ => i + 1) (fun _ => 1) (fun _ => 2)
    (fun _ => 3) (.list [.str "log", .str "std"]) rfl rfl (fun p => if p = 0 then .log else .std)
    (by simp) (by simp)
    (by
      intro p hp
      have : p = 0 ∨ p = 1 := by simp at hp; omega
      rcases this with rfl | rfl <;> rfl)
    (by intro; norm_num) (by intro; norm_num)
  exact ⟨o, o', h, h', e 0 0 (by norm_num) 0 (by norm_num)⟩

/-- With two logarithmic parameters the first one does change. -/
example : movedIndices .log 2 (fun i => i + 1) 1 (Real.exp 1) 0 = 1 + 4 := by
  simp [movedIndices, shifted, sum_range_succ]
  norm_num

/-! ### Component models written by wsclean -/

/-- **C154** `spectra`, ordinary polynomials: the same component can be written about any other reference frequency with
the same number of coefficients. (Frequencies are arbitrary, reference frequencies nonzero.) -/
theorem C154_ordinary (nsrc nchan n : Nat) (flux : Nat → ℝ) (coeffs : Nat → Nat → ℝ) (refFreq refFreq' freq : Nat → ℝ)
    (empty : Nat → Nat → ℝ) (pos : ∀ s, refFreq s ≠ 0) (pos' : ∀ s, refFreq' s ≠ 0) :
    ∃ out out',
      spectra nsrc nsrc nsrc nchan n flux coeffs (.scalar false) refFreq freq empty = .ok out ∧
      spectra nsrc nsrc nsrc nchan n
        (fun s => ordinarySpectrum (flux s) n (coeffs s) (refFreq' s) (refFreq s))
        (fun s => shifted n (coeffs s) (refFreq' s / refFreq s) (refFreq' s / refFreq s - 1))
        (.scalar false) refFreq' freq empty = .ok out' ∧
      ∀ s < nsrc, ∀ f < nchan, out' s f = out s f := by
  obtain ⟨out, h1, h2⟩ := C48_value_partial nsrc nchan n flux coeffs (.scalar false) refFreq freq empty trivial
    (by intro s _ h; cases h)
  obtain ⟨out', h1', h2'⟩ := C48_value_partial nsrc nchan n
    (fun s => ordinarySpectrum (flux s) n (coeffs s) (refFreq' s) (refFreq s))
    (fun s => shifted n (coeffs s) (refFreq' s / refFreq s) (refFreq' s / refFreq s - 1))
    (.scalar false) refFreq' freq empty trivial (by intro s _ h; cases h)
  refine ⟨out, out', h1, h1', fun s hs f hf => ?_⟩
  rw [h2 s hs f hf, h2' s hs f hf]
  simp only [LogPoly.at, Bool.false_eq_true, if_false, ordinarySpectrum]
  have e : freq f / refFreq s - 1 =
      refFreq' s / refFreq s * (freq f / refFreq' s - 1) + (refFreq' s / refFreq s - 1) := by
    have := pos s; have := pos' s
    field_simp
    ring
  rw [e, shift_poly, add_assoc]

/-- **C154** `spectra`, logarithmic polynomials with positive flux and coefficients (the ones that are accepted, see C48):
moved to a higher reference frequency the component is still accepted and has the same spectrum at every positive
frequency. (Moved to a lower one its coefficients may become negative and be refused.) -/
theorem C154_logarithmic (nsrc nchan n : Nat) (flux : Nat → ℝ) (coeffs : Nat → Nat → ℝ)
    (refFreq refFreq' freq : Nat → ℝ) (empty : Nat → Nat → ℝ) (pos : ∀ s, 0 < refFreq s) (pos' : ∀ s, 0 < refFreq' s)
    (hf : ∀ f, 0 < freq f) (good : ∀ s < nsrc, 0 < flux s ∧ ∀ c < n, 0 < coeffs s c)
    (up : ∀ s < nsrc, refFreq s ≤ refFreq' s) :
    ∃ out out',
      spectra nsrc nsrc nsrc nchan n flux coeffs (.scalar true) refFreq freq empty = .ok out ∧
      spectra nsrc nsrc nsrc nchan n
        (fun s => logSpectrum (flux s) n (coeffs s) (refFreq' s) (refFreq s))
        (fun s => shifted n (coeffs s) 1 (Real.log (refFreq' s / refFreq s)))
        (.scalar true) refFreq' freq empty = .ok out' ∧
      ∀ s < nsrc, ∀ f < nchan, out' s f = out s f := by
  obtain ⟨out, h1, h2⟩ := C48_value_partial nsrc nchan n flux coeffs (.scalar true) refFreq freq empty trivial
    (by
      rintro s hs - (h | ⟨c, hc, h⟩)
      · exact absurd (good s hs).1 (not_lt.2 h)
      · exact absurd ((good s hs).2 c hc) (not_lt.2 h))
  obtain ⟨out', h1', h2'⟩ := C48_value_partial nsrc nchan n
    (fun s => logSpectrum (flux s) n (coeffs s) (refFreq' s) (refFreq s))
    (fun s => shifted n (coeffs s) 1 (Real.log (refFreq' s / refFreq s)))
    (.scalar true) refFreq' freq empty trivial
    (by
      rintro s hs - (h | ⟨c, hc, h⟩)
      · exact absurd (Real.exp_pos _) (not_lt.2 h)
      · refine absurd ?_ (not_lt.2 h)
        have hd : 0 ≤ Real.log (refFreq' s / refFreq s) :=
          Real.log_nonneg ((one_le_div (pos s)).2 (up s hs))
        rw [shifted, one_pow, one_mul]
        refine sum_pos' (fun i hi => ?_) ⟨c, mem_range.2 hc, ?_⟩
        · exact mul_nonneg (mul_nonneg ((good s hs).2 i (mem_range.1 hi)).le (Nat.cast_nonneg _)) (pow_nonneg hd _)
        · simpa using (good s hs).2 c hc)
  refine ⟨out, out', h1, h1', fun s hs f hf' => ?_⟩
  rw [h2 s hs f hf', h2' s hs f hf']
  simp only [LogPoly.at, if_true]
  exact spectralSpec_moved .log (flux s) n (coeffs s) (refFreq s) (refFreq' s) (freq f) (pos s) (pos' s) (hf f)

/-- Two coefficients about 1 and about 2: `3 + 2 (ν - 1) + (ν - 1)²` is `6 + 8 (ν / 2 - 1) + 4 (ν / 2 - 1)²`. -/
example : ordinarySpectrum 3 2 (fun i => if i = 0 then 2 else 1) 2 1 = 6 ∧
    shifted 2 (fun i => if i = 0 then 2 else 1) 2 1 0 = 8 ∧ shifted 2 (fun i => if i = 0 then 2 else 1) 2 1 1 = 4 := by
  refine ⟨?_, ?_, ?_⟩ <;> norm_num [ordinarySpectrum, shifted, sum_range_succ]

end Verif.ModelData
