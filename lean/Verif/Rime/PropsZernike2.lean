/-
C147: Zernike modes are orthogonal; what the coefficients of a Zernike beam determine.
-/
import Verif.Rime.ZernikeLemmas
import Mathlib.Analysis.SpecialFunctions.Complex.Arg

set_option autoImplicit false

namespace Verif.Rime

open Finset Verif.Rime.Zern

/-! ### specification -/

/-- What `zernike(j, rho, phi)` returns. -/
noncomputable def modeValue (j : Nat) (rho phi : ℝ) : ℝ :=
  match zernike j rho phi with
  | .ok z => z
  | .error _ => 0

/-- `np.arctan2(y, x)`: the angle of the point `(x, y)`, between `-π` and `π`. -/
noncomputable def npArctan2 (y x : ℝ) : ℝ := Complex.arg ⟨x, y⟩

/-- The integral over the unit disc, in polar coordinates. -/
noncomputable def discIntegral (f : ℝ → ℝ → ℝ) : ℝ :=
  ∫ phi in (-Real.pi)..Real.pi, ∫ rho in (0 : ℝ)..1, f rho phi * rho

/-- The integral of the square of mode `j` over the disc, as in the literature: `π / (n + 1)`, and half of that for modes that
depend on the angle. -/
noncomputable def modeNorm (j : Nat) : ℝ :=
  if (noll j).2 = 0 then Real.pi / ((noll j).1 + 1) else Real.pi / (2 * ((noll j).1 + 1))

/-! ### lemmas -/

/-- The polynomial extension of a mode. -/
private noncomputable def sep (j : Nat) (rho phi : ℝ) : ℝ := radial (noll j).1 (noll j).2.natAbs rho * ang (noll j).2 phi

private theorem modeValue_eq (j : Nat) (rho phi : ℝ) (h : rho ≤ 1) : modeValue j rho phi = sep j rho phi := by
  unfold modeValue
  rw [C43_value j rho phi h]
  rfl

private theorem disc_congr (f g : ℝ → ℝ → ℝ) (h : ∀ rho phi, 0 < rho → rho ≤ 1 → -Real.pi < phi → phi ≤ Real.pi → f rho phi = g rho phi) :
    discIntegral f = discIntegral g := by
  unfold discIntegral
  refine intervalIntegral.integral_congr_ae (Filter.Eventually.of_forall fun phi hphi => ?_)
  refine intervalIntegral.integral_congr_ae (Filter.Eventually.of_forall fun rho hrho => ?_)
  rw [Set.uIoc_of_le (by linarith [Real.pi_pos])] at hphi
  rw [Set.uIoc_of_le (by norm_num)] at hrho
  rw [h rho phi hrho.1 hrho.2 hphi.1 hphi.2]

private theorem gram (j k : Nat) :
    (∫ rho in (0 : ℝ)..1, radial (noll j).1 (noll j).2.natAbs rho * radial (noll k).1 (noll k).2.natAbs rho * rho) *
      (∫ phi in (-Real.pi)..Real.pi, ang (noll j).2 phi * ang (noll k).2 phi) = if j = k then modeNorm j else 0 := by
  have mode : ∀ j, (noll j).2.natAbs ≤ (noll j).1 ∧ ((noll j).1 - (noll j).2.natAbs) % 2 = 0 := by
    intro j
    obtain ⟨h1, h2⟩ := C43_noll_mode j
    rw [Int.abs_eq_natAbs] at h1
    exact ⟨by omega, by omega⟩
  rw [ang_orth]
  split_ifs with h1 h2 h3 h3
  · subst h3
    rw [radial_norm _ _ (mode j).1 (mode j).2, modeNorm, if_pos h2]
    field_simp
  · rw [← h1, radial_orth _ _ _ (mode j).1 (mode j).2 (h1 ▸ (mode k).1) (h1 ▸ (mode k).2) fun e =>
      h3 (C43_noll_injective j k (Prod.ext e h1)), zero_mul]
  · subst h3
    rw [radial_norm _ _ (mode j).1 (mode j).2, modeNorm, if_neg h2]
    field_simp
  · rw [← h1, radial_orth _ _ _ (mode j).1 (mode j).2 (h1 ▸ (mode k).1) (h1 ▸ (mode k).2) fun e =>
      h3 (C43_noll_injective j k (Prod.ext e h1)), zero_mul]
  · rename_i h3
    exact absurd (congrArg (fun i => (noll i).2) h3) h1
  · rw [mul_zero]

private theorem disc_square (n : Nat) (idx : Nat → Nat) (hidx : ∀ p < n, ∀ q < n, idx p = idx q → p = q) (a : Nat → ℝ) :
    discIntegral (fun rho phi => (∑ p ∈ range n, a p * sep (idx p) rho phi) ^ 2) =
      ∑ p ∈ range n, a p ^ 2 * modeNorm (idx p) := by
  unfold discIntegral
  have e : ∀ rho phi : ℝ, (∑ p ∈ range n, a p * sep (idx p) rho phi) ^ 2 * rho =
      ∑ x ∈ range n ×ˢ range n, a x.1 * a x.2 * (ang (noll (idx x.1)).2 phi * ang (noll (idx x.2)).2 phi) *
        (radial (noll (idx x.1)).1 (noll (idx x.1)).2.natAbs rho * radial (noll (idx x.2)).1 (noll (idx x.2)).2.natAbs rho * rho) := by
    intro rho phi
    rw [pow_two, sum_mul_sum, ← sum_product', sum_mul]
    refine sum_congr rfl fun x _ => ?_
    unfold sep
    ring
  simp only [e]
  have h1 : ∀ phi : ℝ, ∫ rho in (0 : ℝ)..1, (∑ x ∈ range n ×ˢ range n, a x.1 * a x.2 *
        (ang (noll (idx x.1)).2 phi * ang (noll (idx x.2)).2 phi) *
        (radial (noll (idx x.1)).1 (noll (idx x.1)).2.natAbs rho *
          radial (noll (idx x.2)).1 (noll (idx x.2)).2.natAbs rho * rho)) =
      ∑ x ∈ range n ×ˢ range n, a x.1 * a x.2 * (∫ rho in (0 : ℝ)..1, radial (noll (idx x.1)).1 (noll (idx x.1)).2.natAbs rho *
        radial (noll (idx x.2)).1 (noll (idx x.2)).2.natAbs rho * rho) *
        (ang (noll (idx x.1)).2 phi * ang (noll (idx x.2)).2 phi) := by
    intro phi
    rw [intervalIntegral.integral_finsetSum]
    · refine sum_congr rfl fun x _ => ?_
      rw [intervalIntegral.integral_const_mul]
      ring
    · intro x _
      have c1 := radial_continuous (noll (idx x.1)).1 (noll (idx x.1)).2.natAbs
      have c2 := radial_continuous (noll (idx x.2)).1 (noll (idx x.2)).2.natAbs
      exact Continuous.intervalIntegrable (by fun_prop) _ _
  simp only [h1]
  rw [intervalIntegral.integral_finsetSum]
  · have h2 : ∀ x ∈ range n ×ˢ range n, (∫ phi in (-Real.pi)..Real.pi, a x.1 * a x.2 *
        (∫ rho in (0 : ℝ)..1, radial (noll (idx x.1)).1 (noll (idx x.1)).2.natAbs rho *
        radial (noll (idx x.2)).1 (noll (idx x.2)).2.natAbs rho * rho) *
        (ang (noll (idx x.1)).2 phi * ang (noll (idx x.2)).2 phi)) =
        if x.1 = x.2 then a x.1 ^ 2 * modeNorm (idx x.1) else 0 := by
      intro x hx
      rw [intervalIntegral.integral_const_mul, mul_assoc, gram]
      rw [mem_product, mem_range, mem_range] at hx
      by_cases h : x.1 = x.2
      · rw [if_pos h, if_pos (by rw [h]), h]
        ring
      · rw [if_neg h, if_neg fun e => h (hidx _ hx.1 _ hx.2 e), mul_zero]
    rw [sum_congr rfl h2, sum_product]
    refine sum_congr rfl fun p hp => ?_
    rw [sum_ite_eq, if_pos hp]
  · intro x _
    have c1 := ang_continuous (noll (idx x.1)).2
    have c2 := ang_continuous (noll (idx x.2)).2
    exact Continuous.intervalIntegrable (by fun_prop) _ _

private theorem polar (rho phi : ℝ) (h0 : 0 < rho) (h1 : -Real.pi < phi) (h2 : phi ≤ Real.pi) :
    Real.sqrt ((rho * Real.sin phi) ^ 2 + (rho * Real.cos phi) ^ 2) = rho ∧
    npArctan2 (rho * Real.sin phi) (rho * Real.cos phi) = phi := by
  constructor
  · rw [show (rho * Real.sin phi) ^ 2 + (rho * Real.cos phi) ^ 2 = rho ^ 2 * (Real.sin phi ^ 2 + Real.cos phi ^ 2) by ring,
      Real.sin_sq_add_cos_sq, mul_one, Real.sqrt_sq h0.le]
  · unfold npArctan2
    rw [show (⟨rho * Real.cos phi, rho * Real.sin phi⟩ : ℂ) =
      (rho : ℂ) * (Complex.cos (phi : ℂ) + Complex.sin (phi : ℂ) * Complex.I) by
        apply Complex.ext <;> simp [Complex.cos_ofReal_re, Complex.sin_ofReal_re]]
    exact Complex.arg_mul_cos_add_sin_mul_I h0 ⟨h1, h2⟩

/-! ### properties -/

/-- **C147** Different modes are orthogonal on the disc. -/
theorem C147_orthogonal (j k : Nat) (h : j ≠ k) :
    discIntegral (fun rho phi => modeValue j rho phi * modeValue k rho phi) = 0 := by
  rw [disc_congr _ (fun rho phi => sep j rho phi * sep k rho phi) fun rho phi _ h1 _ _ => by
    rw [modeValue_eq _ _ _ h1, modeValue_eq _ _ _ h1]]
  unfold discIntegral
  have h1 : ∀ phi : ℝ, ∫ rho in (0 : ℝ)..1, sep j rho phi * sep k rho phi * rho =
      (∫ rho in (0 : ℝ)..1, radial (noll j).1 (noll j).2.natAbs rho * radial (noll k).1 (noll k).2.natAbs rho * rho) *
        (ang (noll j).2 phi * ang (noll k).2 phi) := by
    intro phi
    rw [← intervalIntegral.integral_mul_const]
    have : ∀ rho : ℝ, sep j rho phi * sep k rho phi * rho =
      radial (noll j).1 (noll j).2.natAbs rho * radial (noll k).1 (noll k).2.natAbs rho * rho *
        (ang (noll j).2 phi * ang (noll k).2 phi) := fun rho => by unfold sep; ring
    simp only [this]
  simp only [h1]
  rw [intervalIntegral.integral_const_mul, gram, if_neg h]

/-- **C147** The power of the beam (the integral of the squared modulus over the disc) is the sum of the powers of its
modes. -/
theorem C147_power (npoly : Nat) (coeffs : Nat → ℂ) (nollIndex : Nat → Nat)
    (hidx : ∀ p < npoly, ∀ q < npoly, nollIndex p = nollIndex q → p = q) (beam : ℝ → ℝ → ℂ)
    (hbeam : ∀ l m, l ^ 2 + m ^ 2 ≤ 1 → zernikeDde npArctan2 l m npoly coeffs nollIndex = .ok (beam l m)) :
    discIntegral (fun rho phi => ‖beam (rho * Real.sin phi) (rho * Real.cos phi)‖ ^ 2) =
      ∑ p ∈ range npoly, ‖coeffs p‖ ^ 2 * modeNorm (nollIndex p) := by
  have hval : ∀ rho phi, 0 < rho → rho ≤ 1 → -Real.pi < phi → phi ≤ Real.pi →
      ‖beam (rho * Real.sin phi) (rho * Real.cos phi)‖ ^ 2 =
        (∑ p ∈ range npoly, (coeffs p).re * sep (nollIndex p) rho phi) ^ 2 +
        (∑ p ∈ range npoly, (coeffs p).im * sep (nollIndex p) rho phi) ^ 2 := by
    intro rho phi h0 h1 h2 h3
    obtain ⟨e1, e2⟩ := polar rho phi h0 h2 h3
    obtain ⟨z, hz, hd⟩ := C43_dde npArctan2 (rho * Real.sin phi) (rho * Real.cos phi) npoly coeffs nollIndex
    have hle : (rho * Real.sin phi) ^ 2 + (rho * Real.cos phi) ^ 2 ≤ 1 := by
      rw [show (rho * Real.sin phi) ^ 2 + (rho * Real.cos phi) ^ 2 =
        rho ^ 2 * (Real.sin phi ^ 2 + Real.cos phi ^ 2) by ring, Real.sin_sq_add_cos_sq]
      nlinarith
    rw [hbeam _ _ hle] at hd
    have hz' : ∀ p, z p = sep (nollIndex p) rho phi := by
      intro p
      have := hz p
      rw [e1, e2] at this
      rw [← modeValue_eq _ _ _ h1]
      unfold modeValue
      rw [this]
    injection hd with hd
    rw [hd, Complex.sq_norm, Complex.normSq_apply, Complex.re_sum, Complex.im_sum]
    simp only [Complex.re_mul_ofReal, Complex.im_mul_ofReal, hz']
    ring
  rw [disc_congr _ _ hval]
  have hadd : ∀ f g : ℝ → ℝ → ℝ, Continuous (Function.uncurry f) → Continuous (Function.uncurry g) →
      discIntegral (fun rho phi => f rho phi + g rho phi) = discIntegral f + discIntegral g := by
    intro f g hf hg
    unfold discIntegral
    have hf' : Continuous fun p : ℝ × ℝ => f p.2 p.1 * p.2 := by
      have : Continuous fun p : ℝ × ℝ => Function.uncurry f (p.2, p.1) := hf.comp (by fun_prop)
      exact this.mul continuous_snd
    have hg' : Continuous fun p : ℝ × ℝ => g p.2 p.1 * p.2 := by
      have : Continuous fun p : ℝ × ℝ => Function.uncurry g (p.2, p.1) := hg.comp (by fun_prop)
      exact this.mul continuous_snd
    have i1 : ∀ phi : ℝ, ∫ rho in (0 : ℝ)..1, (f rho phi + g rho phi) * rho =
        (∫ rho in (0 : ℝ)..1, f rho phi * rho) + ∫ rho in (0 : ℝ)..1, g rho phi * rho := by
      intro phi
      rw [← intervalIntegral.integral_add]
      · simp only [add_mul]
      · exact Continuous.intervalIntegrable (hf'.comp (by fun_prop : Continuous fun r : ℝ => (phi, r))) _ _
      · exact Continuous.intervalIntegrable (hg'.comp (by fun_prop : Continuous fun r : ℝ => (phi, r))) _ _
    simp only [i1]
    rw [intervalIntegral.integral_add]
    · exact Continuous.intervalIntegrable (intervalIntegral.continuous_parametric_intervalIntegral_of_continuous'
        (f := fun phi rho => f rho phi * rho) hf' 0 1) _ _
    · exact Continuous.intervalIntegrable (intervalIntegral.continuous_parametric_intervalIntegral_of_continuous'
        (f := fun phi rho => g rho phi * rho) hg' 0 1) _ _
  have hc : ∀ a : Nat → ℝ, Continuous (Function.uncurry fun rho phi : ℝ =>
      (∑ p ∈ range npoly, a p * sep (nollIndex p) rho phi) ^ 2) := by
    intro a
    unfold sep
    refine Continuous.pow (continuous_finsetSum _ fun p _ => ?_) 2
    have c1 := radial_continuous (noll (nollIndex p)).1 (noll (nollIndex p)).2.natAbs
    have c2 := ang_continuous (noll (nollIndex p)).2
    exact continuous_const.mul ((c1.comp continuous_fst).mul (c2.comp continuous_snd))
  rw [hadd _ _ (hc _) (hc _), disc_square _ _ hidx, disc_square _ _ hidx, ← sum_add_distrib]
  refine sum_congr rfl fun p _ => ?_
  rw [Complex.sq_norm, Complex.normSq_apply]
  ring

example : ∀ p < 3, ∀ q < 3, (fun i : Nat => 2 * i + 1) p = (fun i : Nat => 2 * i + 1) q → p = q := by
  intro p _ q _ h
  simp only at h
  omega

/-- **C147** The integral of the square of a mode. -/
theorem C147_norm (j : Nat) : discIntegral (fun rho phi => modeValue j rho phi ^ 2) = modeNorm j := by
  have h := disc_square 1 (fun _ => j) (fun p hp q hq _ => by omega) fun _ => 1
  simp only [sum_range_one, one_mul, one_pow] at h
  rw [← h]
  exact disc_congr _ _ fun rho phi _ h1 _ _ => by rw [modeValue_eq _ _ _ h1]

/-- **C147** A Zernike beam determines its coefficients: when the listed modes are different, two sets of coefficients give the
same beam on the disc only if they are equal. -/
theorem C147_unique (npoly : Nat) (c c' : Nat → ℂ) (nollIndex : Nat → Nat)
    (hidx : ∀ p < npoly, ∀ q < npoly, nollIndex p = nollIndex q → p = q)
    (h : ∀ l m, l ^ 2 + m ^ 2 ≤ 1 →
      zernikeDde npArctan2 l m npoly c nollIndex = zernikeDde npArctan2 l m npoly c' nollIndex) :
    ∀ p < npoly, c p = c' p := by
  have hz : ∀ l m, l ^ 2 + m ^ 2 ≤ 1 → zernikeDde npArctan2 l m npoly (fun p => c p - c' p) nollIndex = .ok 0 := by
    intro l m hlm
    obtain ⟨z, hz, hd⟩ := C43_dde npArctan2 l m npoly c nollIndex
    obtain ⟨z', hz', hd'⟩ := C43_dde npArctan2 l m npoly c' nollIndex
    obtain ⟨z'', hz'', hd''⟩ := C43_dde npArctan2 l m npoly (fun p => c p - c' p) nollIndex
    have e' : z' = z := funext fun p => by have := (hz' p).symm.trans (hz p); injection this
    have e'' : z'' = z := funext fun p => by have := (hz'' p).symm.trans (hz p); injection this
    rw [hd'', e'']
    have := h l m hlm
    rw [hd, hd', e'] at this
    injection this with this
    refine congrArg _ ?_
    simp only [sub_mul]
    rw [sum_sub_distrib, this, sub_self]
  have hp := C147_power npoly (fun p => c p - c' p) nollIndex hidx (fun _ _ => 0) hz
  have h0 : discIntegral (fun rho phi => ‖(fun _ _ => 0 : ℝ → ℝ → ℂ) (rho * Real.sin phi) (rho * Real.cos phi)‖ ^ 2) = 0 := by
    unfold discIntegral
    simp
  rw [h0] at hp
  have hpos : ∀ j, 0 < modeNorm j := by
    intro j
    unfold modeNorm
    have := Real.pi_pos
    split_ifs <;> positivity
  have hall := (sum_eq_zero_iff_of_nonneg fun p _ => mul_nonneg (sq_nonneg _) (hpos (nollIndex p)).le).1 hp.symm
  intro p hpn
  have := hall p (mem_range.2 hpn)
  rcases mul_eq_zero.1 this with h1 | h1
  · exact sub_eq_zero.1 (norm_eq_zero.1 (pow_eq_zero_iff (by norm_num) |>.1 h1))
  · exact absurd h1 (hpos _).ne'

/-- **C147** Listing a mode twice, only the sum of its coefficients matters. -/
theorem C147_unique_violated : ¬ ∀ (npoly : Nat) (c c' : Nat → ℂ) (nollIndex : Nat → Nat),
    (∀ l m, l ^ 2 + m ^ 2 ≤ 1 →
      zernikeDde npArctan2 l m npoly c nollIndex = zernikeDde npArctan2 l m npoly c' nollIndex) → ∀ p < npoly, c p = c' p := by
  intro h
  have := h 2 (fun p => if p = 0 then 1 else 0) (fun p => if p = 0 then 0 else 1) (fun _ => 4) (fun l m _ => by
    obtain ⟨z, hz, hd⟩ := C43_dde npArctan2 l m 2 (fun p => if p = 0 then 1 else 0) fun _ => 4
    obtain ⟨z', hz', hd'⟩ := C43_dde npArctan2 l m 2 (fun p => if p = 0 then 0 else 1) fun _ => 4
    have e : z 0 = z' 1 := by have := (hz 0).symm.trans (hz' 1); injection this
    rw [hd, hd']
    simp [sum_range_succ, e]) 0 (by norm_num)
  simp at this

/-- **C147** Turning the coordinates by `alpha` mixes the two modes of the same degree and opposite orders, and leaves modes of
order zero alone. -/
theorem C147_rotation (rho phi alpha : ℝ) (n : Nat) (m : Nat) (hm : 0 < m) (jc js : Nat)
    (hc : noll jc = (n, (m : Int))) (hs : noll js = (n, -(m : Int))) :
    modeValue jc rho (phi + alpha) =
      Real.cos (m * alpha) * modeValue jc rho phi - Real.sin (m * alpha) * modeValue js rho phi ∧
    modeValue js rho (phi + alpha) =
      Real.sin (m * alpha) * modeValue jc rho phi + Real.cos (m * alpha) * modeValue js rho phi := by
  by_cases h : rho ≤ 1
  · rw [modeValue_eq _ _ _ h, modeValue_eq _ _ _ h, modeValue_eq _ _ _ h, modeValue_eq _ _ _ h]
    unfold sep ang
    rw [hc, hs]
    simp only [Int.natAbs_natCast, Int.natAbs_neg]
    rw [if_pos (by omega : (0 : Int) < m), if_neg (by omega : ¬ (0 : Int) < -m), if_pos (by omega : -(m : Int) < 0),
      if_pos (by omega : (0 : Int) < m), if_neg (by omega : ¬ (0 : Int) < -m), if_pos (by omega : -(m : Int) < 0)]
    rw [mul_add, Real.cos_add, Real.sin_add]
    constructor <;> ring
  · have h' := not_le.1 h
    unfold modeValue
    rw [C43_outside _ _ _ h', C43_outside _ _ _ h', C43_outside _ _ _ h', C43_outside _ _ _ h']
    simp

example : noll 1 = (1, 1) ∧ noll 2 = (1, -1) := by
  constructor <;> (unfold noll; simp [nollLoop])

/-- **C147** Modes of order zero do not depend on the angle. -/
theorem C147_round (rho phi phi' : ℝ) (j : Nat) (h : (noll j).2 = 0) : modeValue j rho phi = modeValue j rho phi' := by
  unfold modeValue zernike
  rw [h]
  simp

/-- **C147** On the axis only the modes of order zero contribute. -/
theorem C147_centre (phi : ℝ) (j : Nat) :
    modeValue j 0 phi = if (noll j).2 = 0 then (-1) ^ ((noll j).1 / 2) else 0 := by
  obtain ⟨h1, h2⟩ := C43_noll_mode j
  rw [Int.abs_eq_natAbs] at h1
  obtain ⟨b, hb⟩ : ∃ b, (noll j).1 = (noll j).2.natAbs + 2 * b := ⟨((noll j).1 - (noll j).2.natAbs) / 2, by omega⟩
  rw [modeValue_eq _ _ _ (by norm_num)]
  unfold sep
  rw [hb, radial_eq]
  split_ifs with h
  · rw [h]
    unfold ang
    simp only [Int.natAbs_zero, zero_add, lt_irrefl, if_false, mul_one]
    rw [sum_range_succ, sum_eq_zero fun k hk => by
      rw [mem_range] at hk
      rw [zero_pow (by omega), mul_zero], show 2 * b / 2 = b by omega, Nat.sub_self, Nat.mul_zero, pow_zero, mul_one, zero_add]
    unfold coef
    simp only [zero_add, Nat.sub_self, Nat.factorial_zero, Nat.cast_one, mul_one]
    rw [show 2 * b - b = b by omega, mul_div_assoc, div_self (by exact_mod_cast b.factorial_ne_zero), mul_one]
  · rw [sum_eq_zero fun k _ => by rw [zero_pow (by omega), mul_zero], zero_mul]

end Verif.Rime
