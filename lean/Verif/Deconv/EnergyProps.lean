/-
Property C174: CLEAN approaches the sky and reaches its threshold.
-/
import Verif.Deconv.HogbomProps
import Mathlib.Analysis.SpecialFunctions.Trigonometric.Basic
import Mathlib.Algebra.Order.Archimedean.Real.Basic

set_option autoImplicit false

namespace Verif.Deconv

section
variable {K : Type*} [Field K] [LinearOrder K] [IsStrictOrderedRing K]

/-- An `n` by `n` sky seen through the psf, whose centre is at `(n - 1, n - 1)`. -/
def seen (n : Nat) (psf sky : Nat → Nat → K) (x y : Nat) : K :=
  ∑ p ∈ Finset.range n, ∑ q ∈ Finset.range n, sky p q * psf (x + (n - 1) - p) (y + (n - 1) - q)

/-- The power of an image as the interferometer sees it: the product of the image and the image seen through the psf,
summed over pixels. -/
def power (n : Nat) (psf u : Nat → Nat → K) : K :=
  ∑ x ∈ Finset.range n, ∑ y ∈ Finset.range n, u x y * seen n psf u x y

/-- A psf that is 1 at its centre, is the same at opposite points, and sees no image with negative power. -/
structure Beam (n : Nat) (psf : Nat → Nat → K) : Prop where
  centre : psf (n - 1) (n - 1) = 1
  symm : ∀ x ≤ 2 * (n - 1), ∀ y ≤ 2 * (n - 1), psf x y = psf (2 * (n - 1) - x) (2 * (n - 1) - y)
  power : ∀ u : Nat → Nat → K, 0 ≤ power n psf u

omit [IsStrictOrderedRing K] in
/-- Removing a component from an image changes its power by the square of what is seen at the pixel. -/
theorem power_remove (n : Nat) (psf e e' : Nat → Nat → K) (hb : Beam n psf) (p q : Nat) (hp : p < n) (hq : q < n)
    (gamma : K) (he : ∀ x < n, ∀ y < n, e' x y = e x y - if x = p ∧ y = q then gamma * seen n psf e p q else 0) :
    power n psf e' = power n psf e - gamma * (2 - gamma) * seen n psf e p q ^ 2 := by
  set r := seen n psf e p q with hr
  have hpick : ∀ f : Nat → Nat → K, ∑ x ∈ Finset.range n, ∑ y ∈ Finset.range n,
      (if x = p ∧ y = q then gamma * r else 0) * f x y = gamma * r * f p q := by
    intro f
    rw [Finset.sum_eq_single p]
    · rw [Finset.sum_eq_single q]
      · simp
      · intro b _ hb; simp [hb]
      · intro hb; exact absurd (Finset.mem_range.mpr hq) hb
    · intro b _ hb; simp [hb]
    · intro hb; exact absurd (Finset.mem_range.mpr hp) hb
  have hseen : ∀ x y, seen n psf e' x y = seen n psf e x y -
      gamma * r * psf (x + (n - 1) - p) (y + (n - 1) - q) := by
    intro x y
    unfold seen
    rw [← hpick fun p q => psf (x + (n - 1) - p) (y + (n - 1) - q), ← Finset.sum_sub_distrib]
    refine Finset.sum_congr rfl fun a ha => ?_
    rw [← Finset.sum_sub_distrib]
    refine Finset.sum_congr rfl fun b hb => ?_
    rw [he a (Finset.mem_range.1 ha) b (Finset.mem_range.1 hb)]
    ring
  have h1 : power n psf e' = power n psf e -
      ∑ x ∈ Finset.range n, ∑ y ∈ Finset.range n, (if x = p ∧ y = q then gamma * r else 0) * seen n psf e x y -
      gamma * r * ∑ x ∈ Finset.range n, ∑ y ∈ Finset.range n, e x y * psf (x + (n - 1) - p) (y + (n - 1) - q) +
      gamma * r * ∑ x ∈ Finset.range n, ∑ y ∈ Finset.range n, (if x = p ∧ y = q then gamma * r else 0) *
        psf (x + (n - 1) - p) (y + (n - 1) - q) := by
    unfold power
    simp only [Finset.mul_sum, ← Finset.sum_sub_distrib, ← Finset.sum_add_distrib]
    refine Finset.sum_congr rfl fun x hx => Finset.sum_congr rfl fun y hy => ?_
    rw [he x (Finset.mem_range.1 hx) y (Finset.mem_range.1 hy), hseen]
    ring
  have h2 : ∑ x ∈ Finset.range n, ∑ y ∈ Finset.range n, e x y * psf (x + (n - 1) - p) (y + (n - 1) - q) = r := by
    rw [hr]
    unfold seen
    refine Finset.sum_congr rfl fun x hx => Finset.sum_congr rfl fun y hy => ?_
    have hx' := Finset.mem_range.1 hx
    have hy' := Finset.mem_range.1 hy
    rw [hb.symm (x + (n - 1) - p) (by omega) (y + (n - 1) - q) (by omega),
      show 2 * (n - 1) - (x + (n - 1) - p) = p + (n - 1) - x by omega,
      show 2 * (n - 1) - (y + (n - 1) - q) = q + (n - 1) - y by omega]
  rw [h1, hpick, hpick, h2, ← hr, show p + (n - 1) - p = n - 1 by omega, show q + (n - 1) - q = n - 1 by omega, hb.centre]
  ring

/-- What remains of the sky after the rounds of a run. -/
theorem run_power {n : Nat} {psf sky : Nat → Nat → K} (hb : Beam n psf) {gamma threshold : K} {dirty : Nat → Nat → K} {k : Nat}
    {clean residual : Nat → Nat → K} (h : CleanRun n psf gamma threshold dirty k clean residual)
    (hd : ∀ x < n, ∀ y < n, dirty x y = seen n psf sky x y) (hg : 0 ≤ gamma) (hg2 : gamma ≤ 2) (ht : 0 ≤ threshold) :
    power n psf (fun x y => sky x y - clean x y) + k * (gamma * (2 - gamma) * threshold ^ 2) ≤ power n psf sky := by
  obtain ⟨R, C, P, Q, h0, h1, h2, h3, h4⟩ := h
  rw [← h3]
  have : ∀ j ≤ k, (∀ x < n, ∀ y < n, R j x y = seen n psf (fun x y => sky x y - C j x y) x y) ∧
      power n psf (fun x y => sky x y - C j x y) + j * (gamma * (2 - gamma) * threshold ^ 2) ≤ power n psf sky := by
    intro j
    induction j with
    | zero =>
      intro _
      have : (fun x y => sky x y - C 0 x y) = sky := by funext x y; rw [h1]; ring
      rw [this, h0]
      exact ⟨hd, by simp⟩
    | succ j ih =>
      intro hj
      obtain ⟨i1, i2⟩ := ih (by omega)
      obtain ⟨a1, a2, a3, a4⟩ := h4 j (by omega)
      have hpw := power_remove n psf (fun x y => sky x y - C j x y) (fun x y => sky x y - C (j + 1) x y) hb (P j) (Q j)
        a1.1 a1.2.1 gamma (by
          intro x hx y hy
          show sky x y - C (j + 1) x y = sky x y - C j x y - _
          rw [a3, i1 _ a1.1 _ a1.2.1]
          ring)
      rw [← i1 _ a1.1 _ a1.2.1] at hpw
      refine ⟨?_, ?_⟩
      · intro x hx y hy
        rw [a4 x hx y hy, i1 x hx y hy]
        unfold seen
        have hpick : ∑ p ∈ Finset.range n, ∑ q ∈ Finset.range n,
            (if p = P j ∧ q = Q j then gamma * R j (P j) (Q j) else 0) * psf (x + (n - 1) - p) (y + (n - 1) - q) =
            gamma * R j (P j) (Q j) * psf (x + (n - 1) - P j) (y + (n - 1) - Q j) := by
          rw [Finset.sum_eq_single (P j)]
          · rw [Finset.sum_eq_single (Q j)]
            · simp
            · intro q _ hq; simp [hq]
            · intro hq; exact absurd (Finset.mem_range.mpr a1.2.1) hq
          · intro p _ hp; simp [hp]
          · intro hp; exact absurd (Finset.mem_range.mpr a1.1) hp
        rw [← hpick, ← Finset.sum_sub_distrib]
        refine Finset.sum_congr rfl fun a _ => ?_
        rw [← Finset.sum_sub_distrib]
        refine Finset.sum_congr rfl fun b _ => ?_
        show (sky a b - C j a b) * _ - _ = (sky a b - C (j + 1) a b) * _
        rw [a3]
        ring
      · have hsq : threshold ^ 2 ≤ R j (P j) (Q j) ^ 2 := by
          rw [← sq_abs (R j (P j) (Q j))]
          exact pow_le_pow_left₀ ht a2.le 2
        have hgg : 0 ≤ gamma * (2 - gamma) := mul_nonneg hg (by linarith)
        have := mul_le_mul_of_nonneg_left hsq hgg
        rw [hpw]
        push_cast
        linarith
  exact (this k le_rfl).2

/-- **C174.** Let the dirty image be a sky seen through the psf, and the gain between 0 and 2. What remains of the sky after
CLEAN, the sky minus the model, has no more power than the sky. -/
theorem C174_power (n : Nat) (hn : 0 < n) (psf sky dirty : Nat → Nat → K) (hb : Beam n psf)
    (hd : ∀ x < n, ∀ y < n, dirty x y = seen n psf sky x y) (gamma : K) (hg : 0 ≤ gamma) (hg2 : gamma ≤ 2) (t : Option K)
    (ht : ∀ a ∈ t, 0 ≤ a) (niter : Option Int) :
    ∃ clean residual, hogbomClean n n (2 * n) (2 * n) dirty psf gamma t niter = .ok (clean, residual) ∧
      power n psf (fun x y => sky x y - clean x y) ≤ power n psf sky := by
  obtain ⟨clean, residual, k, p, q, e1, _, e2, _, _⟩ := hogbom_spec n hn dirty psf gamma t niter
  refine ⟨clean, residual, e1, ?_⟩
  have ht0 : 0 ≤ t.getD (1 / 5) := by
    cases t with
    | none => norm_num
    | some a => exact ht a rfl
  have h0 : 0 ≤ absThreshold t (dirty p q) := mul_nonneg ht0 (abs_nonneg _)
  have := run_power hb e2 hd hg hg2 h0
  have hk : 0 ≤ (k : K) * (gamma * (2 - gamma) * absThreshold t (dirty p q) ^ 2) :=
    mul_nonneg (Nat.cast_nonneg k) (mul_nonneg (mul_nonneg hg (by linarith)) (sq_nonneg _))
  linarith

/-- **C174.** With the gain strictly between 0 and 2, the threshold is reached whenever more than
`power / (gamma (2 - gamma) threshold²)` rounds are allowed: the largest value of the residual is then at most the threshold
in absolute value. -/
theorem C174_threshold (n : Nat) (hn : 0 < n) (psf sky dirty : Nat → Nat → K) (hb : Beam n psf)
    (hd : ∀ x < n, ∀ y < n, dirty x y = seen n psf sky x y) (gamma : K) (hg : 0 < gamma) (hg2 : gamma < 2) (t : Option K)
    (ht : ∀ a ∈ t, 0 < a) (niter : Nat) (p q : Nat) (hp : IsLargestAt n n dirty p q) (h0 : dirty p q ≠ 0)
    (hni : power n psf sky < (niter + 1 : K) * (gamma * (2 - gamma) * (t.getD (1 / 5) * |dirty p q|) ^ 2)) :
    ∃ clean residual p' q', hogbomClean n n (2 * n) (2 * n) dirty psf gamma t (some (niter : Int)) = .ok (clean, residual) ∧
      IsLargestAt n n residual p' q' ∧ |residual p' q'| ≤ t.getD (1 / 5) * |dirty p q| := by
  obtain ⟨clean, residual, k, p1, q1, e1, e2, e3, _, e5⟩ := hogbom_spec n hn dirty psf gamma t (some (niter : Int))
  have hpq : dirty p1 q1 = dirty p q := le_antisymm (hp.2.2 _ e2.1 _ e2.2.1) (e2.2.2 _ hp.1 _ hp.2.1)
  have ht0 : 0 < t.getD (1 / 5) := by
    cases t with
    | none => norm_num
    | some a => exact ht a rfl
  rw [hpq] at e3 e5
  have h1 : 0 < absThreshold t (dirty p q) := mul_pos ht0 (abs_pos.2 h0)
  rcases e5 with ⟨p', q', f1, f2⟩ | e5
  · exact ⟨clean, residual, p', q', e1, f1, f2⟩
  · exfalso
    have := run_power hb e3 hd hg.le hg2.le h1.le
    have hk : (niter + 1 : K) ≤ k := by
      have : (niter + 1 : Nat) ≤ k := by simp at e5; omega
      exact_mod_cast this
    have hpos : 0 < gamma * (2 - gamma) * absThreshold t (dirty p q) ^ 2 :=
      mul_pos (mul_pos hg (by linarith)) (by positivity)
    have h3 := mul_le_mul_of_nonneg_right hk hpos.le
    have h4 := hb.power (fun x y => sky x y - clean x y)
    unfold absThreshold at h3 this
    linarith

end

/-- The psf of an array on an `n` by `n` field: the mean, with weights that are not negative and sum to 1, of the fringes of
its baselines. -/
noncomputable def arrayPsf (n N : Nat) (w u v : Nat → ℝ) (x y : Nat) : ℝ :=
  ∑ k ∈ Finset.range N, w k * Real.cos (u k * ((x : ℝ) - ((n - 1 : Nat) : ℝ)) + v k * ((y : ℝ) - ((n - 1 : Nat) : ℝ)))

/-- **C174.** The psf of every array meets the conditions. -/
theorem C174_array (n N : Nat) (w u v : Nat → ℝ) (hw : ∀ k < N, 0 ≤ w k) (h1 : ∑ k ∈ Finset.range N, w k = 1) :
    Beam n (arrayPsf n N w u v) where
  centre := by
    unfold arrayPsf
    simp [h1]
  symm := by
    intro x hx y hy
    unfold arrayPsf
    refine Finset.sum_congr rfl fun k _ => ?_
    rw [← Real.cos_neg]
    congr 2
    push_cast [Nat.cast_sub hx, Nat.cast_sub hy]
    ring
  power := by
    intro img
    have hterm : power n (arrayPsf n N w u v) img = ∑ k ∈ Finset.range N, w k *
        ((∑ x ∈ Finset.range n, ∑ y ∈ Finset.range n, img x y * Real.cos (u k * x + v k * y)) ^ 2 +
         (∑ x ∈ Finset.range n, ∑ y ∈ Finset.range n, img x y * Real.sin (u k * x + v k * y)) ^ 2) := by
      have hsq : ∀ f : Nat → Nat → ℝ, (∑ x ∈ Finset.range n, ∑ y ∈ Finset.range n, f x y) ^ 2 =
          ∑ x ∈ Finset.range n, ∑ y ∈ Finset.range n, ∑ p ∈ Finset.range n, ∑ q ∈ Finset.range n, f x y * f p q := by
        intro f
        rw [sq, Finset.sum_mul]
        refine Finset.sum_congr rfl fun x _ => ?_
        rw [Finset.sum_mul]
        refine Finset.sum_congr rfl fun y _ => ?_
        rw [Finset.mul_sum]
        refine Finset.sum_congr rfl fun p _ => ?_
        rw [Finset.mul_sum]
      simp only [hsq, ← Finset.sum_add_distrib]
      unfold power seen arrayPsf
      simp only [Finset.mul_sum]
      symm
      rw [Finset.sum_comm]
      refine Finset.sum_congr rfl fun x hx => ?_
      rw [Finset.sum_comm]
      refine Finset.sum_congr rfl fun y hy => ?_
      rw [Finset.sum_comm]
      refine Finset.sum_congr rfl fun p hp => ?_
      rw [Finset.sum_comm]
      refine Finset.sum_congr rfl fun q hq => ?_
      refine Finset.sum_congr rfl fun k _ => ?_
      have hp' := Finset.mem_range.1 hp
      have hq' := Finset.mem_range.1 hq
      have hang : u k * (((x + (n - 1) - p : Nat) : ℝ) - ((n - 1 : Nat) : ℝ)) +
          v k * (((y + (n - 1) - q : Nat) : ℝ) - ((n - 1 : Nat) : ℝ)) =
          (u k * x + v k * y) - (u k * p + v k * q) := by
        have h3 : p ≤ x + (n - 1) := by omega
        have h4 : q ≤ y + (n - 1) := by omega
        revert h3 h4
        generalize n - 1 = c
        intro h3 h4
        rw [Nat.cast_sub h3, Nat.cast_sub h4]
        push_cast
        ring
      rw [hang, Real.cos_sub]
      ring
    rw [hterm]
    exact Finset.sum_nonneg fun k hk => mul_nonneg (hw k (Finset.mem_range.1 hk)) (by positivity)

/-- **C174.** CLEAN of what any array sees of any sky reaches its threshold if enough rounds are allowed. -/
theorem C174_reaches (n : Nat) (hn : 0 < n) (N : Nat) (w u v : Nat → ℝ) (hw : ∀ k < N, 0 ≤ w k)
    (h1 : ∑ k ∈ Finset.range N, w k = 1) (sky : Nat → Nat → ℝ) (gamma : ℝ) (hg : 0 < gamma) (hg2 : gamma < 2) (t : Option ℝ)
    (ht : ∀ a ∈ t, 0 < a) (p q : Nat) (hp : IsLargestAt n n (seen n (arrayPsf n N w u v) sky) p q)
    (h0 : seen n (arrayPsf n N w u v) sky p q ≠ 0) :
    ∃ M, ∀ niter : Nat, M ≤ niter → ∃ clean residual p' q',
      hogbomClean n n (2 * n) (2 * n) (seen n (arrayPsf n N w u v) sky) (arrayPsf n N w u v) gamma t (some (niter : Int)) =
        .ok (clean, residual) ∧
      IsLargestAt n n residual p' q' ∧
      |residual p' q'| ≤ t.getD (1 / 5) * |seen n (arrayPsf n N w u v) sky p q| := by
  have ht0 : 0 < t.getD (1 / 5) := by
    cases t with
    | none => norm_num
    | some a => exact ht a rfl
  set c := gamma * (2 - gamma) * (t.getD (1 / 5) * |seen n (arrayPsf n N w u v) sky p q|) ^ 2 with hc
  have hpos : 0 < c := by
    have : 0 < |seen n (arrayPsf n N w u v) sky p q| := abs_pos.2 h0
    exact mul_pos (mul_pos hg (by linarith)) (by positivity)
  obtain ⟨M, hM⟩ := exists_nat_gt (power n (arrayPsf n N w u v) sky / c)
  refine ⟨M, fun niter hni => ?_⟩
  refine C174_threshold n hn (arrayPsf n N w u v) sky _ (C174_array n N w u v hw h1) (fun _ _ _ _ => rfl) gamma hg hg2 t ht
    niter p q hp h0 ?_
  rw [← hc]
  rw [div_lt_iff₀ hpos] at hM
  have : (M : ℝ) ≤ niter + 1 := by
    have : (M : ℝ) ≤ niter := by exact_mod_cast hni
    linarith
  have := mul_le_mul_of_nonneg_right this hpos.le
  linarith

/-- The zero baseline alone: the psf is one everywhere, and a sky of a single source of flux 3 is seen as 3 in every pixel. -/
example : IsLargestAt 2 2 (seen 2 (arrayPsf 2 1 (fun _ => 1) (fun _ => 0) (fun _ => 0))
      (fun x y => if x = 0 ∧ y = 1 then 3 else 0)) 0 0 ∧
    seen 2 (arrayPsf 2 1 (fun _ => 1) (fun _ => 0) (fun _ => 0)) (fun x y => if x = 0 ∧ y = 1 then 3 else 0) 0 0 = 3 := by
  have h : ∀ x y, seen 2 (arrayPsf 2 1 (fun _ => 1) (fun _ => 0) (fun _ => 0))
      (fun x y => if x = 0 ∧ y = 1 then 3 else 0) x y = 3 := by
    intro x y
    unfold seen arrayPsf
    simp [Finset.sum_range_succ]
  refine ⟨⟨by omega, by omega, fun x _ y _ => ?_⟩, h 0 0⟩
  rw [h, h]

end Verif.Deconv
