/-
C136: CLEAN of a point source.
-/
import Verif.Deconv.HogbomProps

set_option autoImplicit false

namespace Verif.Deconv

variable {K : Type*} [Field K] [LinearOrder K] [IsStrictOrderedRing K]

/-- The image of a point source of flux `F` at pixel `(p, q)`, seen through a psf whose centre is pixel `(c, c)`. -/
def pointImage (psf : Nat → Nat → K) (F : K) (c p q x y : Nat) : K := F * psf (x + c - p) (y + c - q)

/-- The psf is one at its centre `(c, c)` and less than one everywhere else. -/
def UnitPeak (N : Nat) (psf : Nat → Nat → K) (c : Nat) : Prop :=
  psf c c = 1 ∧ ∀ i < N, ∀ j < N, (i ≠ c ∨ j ≠ c) → psf i j < 1

/-- C136 (partial: the centre of the psf is pixel `(n - 1, n - 1)`; see `C136_centre_violated` for the other middle pixel).
Cleaning the image of a point source leaves a single component at the pixel of the source. After `k` rounds it has the
flux `F (1 - (1 - gamma) ^ k)`, and the residual is the dirty image times `(1 - gamma) ^ k`. The rounds go on until
`(1 - gamma) ^ k` is at most the threshold, or the limit (`niter + 1`) is reached. -/
theorem C136_point_partial (n : Nat) (psf : Nat → Nat → K) (hpsf : UnitPeak (2 * n) psf (n - 1)) (F gamma : K) (hF : 0 < F)
    (hg : gamma < 1) (p q : Nat) (hp : p < n) (hq : q < n) (dirty : Nat → Nat → K)
    (hd : ∀ x < n, ∀ y < n, dirty x y = pointImage psf F (n - 1) p q x y) (t : Option K) (niter : Option Int) :
    ∃ clean residual, ∃ k : Nat, hogbomClean n n (2 * n) (2 * n) dirty psf gamma t niter = .ok (clean, residual) ∧
      (∀ x y, clean x y = if x = p ∧ y = q then F * (1 - (1 - gamma) ^ k) else 0) ∧
      (∀ x < n, ∀ y < n, residual x y = (1 - gamma) ^ k * dirty x y) ∧
      (k : Int) ≤ max (niter.getD (3 * n) + 1) 0 ∧ (∀ j < k, t.getD (1 / 5) < (1 - gamma) ^ j) ∧
      ((1 - gamma) ^ k ≤ t.getD (1 / 5) ∨ niter.getD (3 * n) + 1 ≤ (k : Int)) := by
  have h1g : 0 < 1 - gamma := by linarith
  have hpeak : ∀ (a : K) (img : Nat → Nat → K), 0 < a → (∀ x < n, ∀ y < n, img x y = a * dirty x y) → ∀ P Q,
      IsLargestAt n n img P Q → P = p ∧ Q = q ∧ img p q = a * F := by
    intro a img ha himg P Q hl
    have e0 : img p q = a * F := by
      rw [himg p hp q hq, hd p hp q hq, pointImage, show p + (n - 1) - p = n - 1 by omega,
        show q + (n - 1) - q = n - 1 by omega, hpsf.1, mul_one]
    have hge := hl.2.2 p hp q hq
    by_contra hne
    have hlt : psf (P + (n - 1) - p) (Q + (n - 1) - q) < 1 := by
      have := hl.1
      have := hl.2.1
      refine hpsf.2 _ (by omega) _ (by omega) ?_
      by_contra hc
      push Not at hc
      exact hne ⟨by omega, by omega, e0⟩
    rw [e0, himg P hl.1 Q hl.2.1, hd P hl.1 Q hl.2.1, pointImage] at hge
    have h3 := mul_lt_mul_of_pos_left hlt (mul_pos ha hF)
    rw [← mul_assoc] at hge
    linarith
  obtain ⟨clean, residual, k, p', q', e1, e2, e3, e4, e5⟩ := hogbom_spec n (by omega) dirty psf gamma t niter
  obtain ⟨rfl, rfl, e6⟩ := hpeak 1 dirty one_pos (fun x _ y _ => (one_mul _).symm) p' q' e2
  rw [one_mul] at e6
  have hthr : absThreshold t (dirty p' q') = t.getD (1 / 5) * F := by
    unfold absThreshold
    rw [e6, abs_of_pos hF]
  rw [hthr] at e3 e5
  obtain ⟨R, C, P, Q, h0, h1, h2, h3, h4⟩ := e3
  have main : ∀ j ≤ k, (∀ x < n, ∀ y < n, R j x y = (1 - gamma) ^ j * dirty x y) ∧
      (∀ x y, C j x y = if x = p' ∧ y = q' then F * (1 - (1 - gamma) ^ j) else 0) ∧
      ∀ i < j, t.getD (1 / 5) < (1 - gamma) ^ i := by
    intro j
    induction j with
    | zero =>
      intro _
      refine ⟨fun x _ y _ => by rw [h0, pow_zero, one_mul], fun x y => by rw [h1]; simp, fun i hi => absurd hi (Nat.not_lt_zero i)⟩
    | succ j ih =>
      intro hj
      obtain ⟨i1, i2, i3⟩ := ih (by omega)
      obtain ⟨a1, a2, a3, a4⟩ := h4 j (by omega)
      have hpos := pow_pos h1g j
      obtain ⟨b1, b2, b3⟩ := hpeak _ (R j) hpos i1 _ _ a1
      rw [b1, b2] at a2 a3 a4
      rw [b3] at a2 a3 a4
      refine ⟨fun x hx y hy => ?_, fun x y => ?_, fun i hi => ?_⟩
      · rw [a4 x hx y hy, i1 x hx y hy, hd x hx y hy, pointImage, pow_succ]
        ring
      · rw [a3, i2]
        split
        · rw [pow_succ]; ring
        · ring
      · rcases Nat.lt_succ_iff_lt_or_eq.1 hi with hi | rfl
        · exact i3 i hi
        · rw [abs_of_pos (mul_pos hpos hF)] at a2
          exact lt_of_mul_lt_mul_right a2 hF.le
  obtain ⟨m1, m2, m3⟩ := main k le_rfl
  refine ⟨clean, residual, k, e1, fun x y => by rw [← h3]; exact m2 x y, fun x hx y hy => by rw [← h2]; exact m1 x hx y hy,
    e4, m3, ?_⟩
  rcases e5 with ⟨P', Q', g1, g2⟩ | e5
  · refine Or.inl ?_
    have hpos := pow_pos h1g k
    obtain ⟨rfl, rfl, b3⟩ := hpeak _ residual hpos (fun x hx y hy => by rw [← h2]; exact m1 x hx y hy) _ _ g1
    rw [b3, abs_of_pos (mul_pos hpos hF)] at g2
    exact le_of_mul_le_mul_right g2 hF
  · exact Or.inr e5

/-- The hypotheses of `C136_point_partial` hold for a psf with side lobes. -/
example : UnitPeak 4 (fun i j => if i = 1 ∧ j = 1 then (1 : ℚ) else 1 / 4) (2 - 1) := by
  refine ⟨by norm_num, ?_⟩
  decide +kernel

/-! ### scaling -/

omit [Field K] [IsStrictOrderedRing K] in
private theorem peak_unique {nx ny : Nat} {a : Nat → Nat → K} {p q p' q' : Nat} (h : IsLargestAt nx ny a p q)
    (hlast : ∀ x < nx, ∀ y < ny, a x y = a p q → x < p ∨ x = p ∧ y ≤ q) (h' : IsLargestAt nx ny a p' q')
    (hlast' : ∀ x < nx, ∀ y < ny, a x y = a p' q' → x < p' ∨ x = p' ∧ y ≤ q') : p = p' ∧ q = q' := by
  have e : a p q = a p' q' := le_antisymm (h'.2.2 p h.1 q h.2.1) (h.2.2 p' h'.1 q' h'.2.1)
  have h1 := hlast p' h'.1 q' h'.2.1 e.symm
  have h2 := hlast' p h.1 q h.2.1 e
  omega

/-- The same search in an image scaled by `c`: the same position. -/
theorem findPeak_scale (nx ny : Nat) (hx : 0 < nx) (hy : 0 < ny) (a b : Nat → Nat → K) (c : K) (hc : 0 < c)
    (hb : ∀ x < nx, ∀ y < ny, b x y = c * a x y) :
    ∃ pk pk', findPeak nx ny a = .ok pk ∧ findPeak nx ny b = .ok pk' ∧ pk'.maxx = pk.maxx ∧ pk'.maxy = pk.maxy ∧
      pk'.intensity = c * pk.intensity ∧ pk.maxx < nx ∧ pk.maxy < ny := by
  obtain ⟨pk, e, hl, _, hi, hlast⟩ := findPeak_spec nx ny a hx hy
  obtain ⟨pk', e', hl', _, hi', hlast'⟩ := findPeak_spec nx ny b hx hy
  have hle : ∀ x < nx, ∀ y < ny, ∀ x' < nx, ∀ y' < ny, b x y ≤ b x' y' ↔ a x y ≤ a x' y' := by
    intro x h1 y h2 x' h3 y' h4
    rw [hb x h1 y h2, hb x' h3 y' h4]
    exact mul_le_mul_iff_right₀ hc
  obtain ⟨h1, h2⟩ := peak_unique hl hlast
    ⟨hl'.1, hl'.2.1, fun x hx y hy => (hle x hx y hy _ hl'.1 _ hl'.2.1).1 (hl'.2.2 x hx y hy)⟩
    (fun x hx y hy he => hlast' x hx y hy (by rw [hb x hx y hy, hb _ hl'.1 _ hl'.2.1, he]))
  exact ⟨pk, pk', e, e', h1.symm, h2.symm, by rw [hi', hi, ← h1, ← h2, hb _ hl.1 _ hl.2.1], hl.1, hl.2.1⟩

/-- Two states of the loop, the second scaled by `c`. -/
private def Scaled (n : Nat) (c : K) (s s' : CleanState K) : Prop :=
  (∀ x y, s'.clean x y = c * s.clean x y) ∧ (∀ x < n, ∀ y < n, s'.residuals x y = c * s.residuals x y) ∧
    s'.p = s.p ∧ s'.q = s.q ∧ s'.intensity = c * s.intensity ∧ s'.i = s.i

private theorem loop_scale {n : Nat} (hn : 0 < n) {psf : Nat → Nat → K} {gamma threshold c : K} (hc : 0 < c)
    {niter : Int} (fuel : Nat) : ∀ s s' : CleanState K, Scaled n c s s' →
    ∃ r r', cleanLoop n psf gamma threshold niter fuel s = .ok r ∧
      cleanLoop n psf gamma (c * threshold) niter fuel s' = .ok r' ∧ Scaled n c r r' := by
  induction fuel with
  | zero => intro s s' h; exact ⟨s, s', rfl, rfl, h⟩
  | succ fuel ih =>
    intro s s' h
    obtain ⟨h1, h2, h3, h4, h5, h6⟩ := h
    have hcond : (|s'.intensity| > c * threshold ∧ (s'.i : Int) ≤ niter) ↔
        (|s.intensity| > threshold ∧ (s.i : Int) ≤ niter) := by
      rw [h5, h6, abs_mul, abs_of_pos hc]
      exact and_congr_left' (mul_lt_mul_iff_right₀ hc)
    rw [cleanLoop, cleanLoop]
    by_cases hb : |s.intensity| > threshold ∧ (s.i : Int) ≤ niter
    · rw [if_pos hb, if_pos (hcond.2 hb)]
      have hres : ∀ x < n, ∀ y < n, updateResidual s'.residuals s'.intensity gamma s'.p s'.q n psf x y =
          c * updateResidual s.residuals s.intensity gamma s.p s.q n psf x y := by
        intro x hx y hy
        unfold updateResidual
        rw [h2 x hx y hy, h3, h4, h5]
        ring
      obtain ⟨pk, pk', e, e', g1, g2, g3, _, _⟩ := findPeak_scale n n hn hn
        (updateResidual s.residuals s.intensity gamma s.p s.q n psf)
        (updateResidual s'.residuals s'.intensity gamma s'.p s'.q n psf) c hc hres
      have hs : cleanStep n psf gamma s = .ok ⟨buildCleanmap s.clean s.intensity gamma s.p s.q,
          updateResidual s.residuals s.intensity gamma s.p s.q n psf, pk.maxx, pk.maxy, pk.intensity, s.i + 1⟩ := by
        unfold cleanStep
        simp only [e]
      have hs' : cleanStep n psf gamma s' = .ok ⟨buildCleanmap s'.clean s'.intensity gamma s'.p s'.q,
          updateResidual s'.residuals s'.intensity gamma s'.p s'.q n psf, pk'.maxx, pk'.maxy, pk'.intensity,
          s'.i + 1⟩ := by
        unfold cleanStep
        simp only [e']
      rw [hs, hs']
      refine ih _ _ ⟨fun x y => ?_, hres, g1, g2, g3, by simp only [h6]⟩
      simp only [buildCleanmap, h1, h3, h4, h5]
      split <;> ring
    · rw [if_neg hb, if_neg (fun h => hb (hcond.1 h))]
      exact ⟨s, s', rfl, rfl, h1, h2, h3, h4, h5, h6⟩

/-- C136. Cleaning commutes with a change of unit: for the dirty image times `c > 0`, model and residual are those of the
dirty image times `c`. -/
theorem C136_scale (n : Nat) (hn : 0 < n) (dirty psf : Nat → Nat → K) (gamma c : K) (hc : 0 < c) (t : Option K)
    (niter : Option Int) :
    ∃ clean residual clean' residual', hogbomClean n n (2 * n) (2 * n) dirty psf gamma t niter = .ok (clean, residual) ∧
      hogbomClean n n (2 * n) (2 * n) (fun x y => c * dirty x y) psf gamma t niter = .ok (clean', residual') ∧
      ∀ x < n, ∀ y < n, clean' x y = c * clean x y ∧ residual' x y = c * residual x y := by
  obtain ⟨pk, pk', e, e', g1, g2, g3, _, _⟩ := findPeak_scale n n hn hn dirty (fun x y => c * dirty x y) c hc
    (fun _ _ _ _ => rfl)
  obtain ⟨r, r', f, f', hr⟩ := loop_scale hn (psf := psf) (gamma := gamma) (threshold := t.getD (1 / 5) * |pk.intensity|)
    hc (niter := niter.getD (3 * n)) (niter.getD (3 * n) + 1).toNat
    ⟨fun _ _ => 0, dirty, pk.maxx, pk.maxy, pk.intensity, 0⟩
    ⟨fun _ _ => 0, fun x y => c * dirty x y, pk'.maxx, pk'.maxy, pk'.intensity, 0⟩
    ⟨fun _ _ => by simp, fun _ _ _ _ => rfl, g1, g2, g3, rfl⟩
  refine ⟨r.clean, r.residuals, r'.clean, r'.residuals, ?_, ?_, fun x hx y hy => ⟨hr.1 x y, hr.2.1 x hx y hy⟩⟩
  · unfold hogbomClean
    dsimp only
    rw [if_neg (by omega), if_neg (by omega), e]
    dsimp only
    cases t <;> (erw [f])
  · unfold hogbomClean
    dsimp only
    rw [if_neg (by omega), if_neg (by omega), e']
    dsimp only
    have ht : c * (t.getD (1 / 5) * |pk.intensity|) = t.getD (1 / 5) * |pk'.intensity| := by
      rw [g3, abs_mul, abs_of_pos hc]; ring
    rw [ht] at f'
    cases t <;> (erw [f'])

/-! ### the other centre -/

/-- C136 refuted for psfs whose centre is pixel `(n, n)`, which is where `fftshift` puts it: for a psf that is one at
`(n, n)` and zero elsewhere and a source anywhere but on the last row, all `niter + 1` rounds add the same
component, so the model has `niter + 1` times `gamma` times the flux, which is still in the residual. -/
theorem C136_centre_violated (n : Nat) (p q : Nat) (hp : p + 1 < n) (hq : q < n) (niter : Nat) (gamma F : K)
    (hF : 0 < F) (hg : 0 < gamma) (psf dirty : Nat → Nat → K) (hpsf : psf = fun i j => if i = n ∧ j = n then 1 else 0)
    (hd : dirty = pointImage psf F n p q) :
    ∃ clean residual, hogbomClean n n (2 * n) (2 * n) dirty psf gamma none (some (niter : Int)) = .ok (clean, residual) ∧
      clean p q = (niter + 1 : Nat) * (gamma * F) ∧ residual p q = F := by
  have hdirty : ∀ x < n, ∀ y < n, dirty x y = if x = p ∧ y = q then F else 0 := by
    intro x hx y hy
    rw [hd, hpsf, pointImage]
    by_cases h : x = p ∧ y = q
    · rw [if_pos h, if_pos (by omega), mul_one]
    · rw [if_neg h, if_neg (by omega), mul_zero]
  obtain ⟨clean, residual, k, p', q', e1, e2, ⟨R, C, P, Q, h0, h1, h2, h3, h4⟩, e4, e5⟩ :=
    hogbom_spec n (by omega) dirty psf gamma none (some (niter : Int))
  have hpeak : ∀ (img : Nat → Nat → K), img p q = F → (∀ x < n, ∀ y < n, ¬ (x = p ∧ y = q) → img x y ≤ 0) →
      ∀ P Q, IsLargestAt n n img P Q → P = p ∧ Q = q := by
    intro img h1 h2 P Q hl
    by_contra hne
    have := h2 P hl.1 Q hl.2.1 hne
    have h3 := hl.2.2 p (by omega) q hq
    rw [h1] at h3
    linarith
  have main : ∀ j ≤ k, R j p q = F ∧ (∀ x < n, ∀ y < n, ¬ (x = p ∧ y = q) → R j x y ≤ 0) ∧
      C j p q = (j : Nat) * (gamma * F) := by
    intro j
    induction j with
    | zero =>
      intro _
      refine ⟨by rw [h0, hdirty p (by omega) q hq, if_pos ⟨rfl, rfl⟩], fun x hx y hy hne => ?_, by rw [h1]; simp⟩
      rw [h0, hdirty x hx y hy, if_neg hne]
    | succ j ih =>
      intro hj
      obtain ⟨i1, i2, i3⟩ := ih (by omega)
      obtain ⟨a1, a2, a3, a4⟩ := h4 j (by omega)
      obtain ⟨b1, b2⟩ := hpeak (R j) i1 i2 _ _ a1
      rw [b1, b2, i1] at a3 a4
      refine ⟨?_, fun x hx y hy hne => ?_, ?_⟩
      · rw [a4 p (by omega) q hq, i1, hpsf]
        simp only
        rw [if_neg (by omega), mul_zero, sub_zero]
      · rw [a4 x hx y hy]
        have h5 := i2 x hx y hy hne
        have h6 : 0 ≤ gamma * F * psf (x + (n - 1) - p) (y + (n - 1) - q) := by
          refine mul_nonneg (mul_nonneg hg.le hF.le) ?_
          rw [hpsf]
          simp only
          split
          · exact zero_le_one
          · exact le_rfl
        linarith
      · rw [a3, i3, if_pos ⟨rfl, rfl⟩]
        push_cast
        ring
  obtain ⟨m1, m2, m3⟩ := main k le_rfl
  rw [h2] at m1 m2
  rw [h3] at m3
  have hk : k = niter + 1 := by
    rcases e5 with ⟨P', Q', g1, g2⟩ | e5
    · exfalso
      obtain ⟨rfl, rfl⟩ := hpeak residual m1 m2 _ _ g1
      obtain ⟨rfl, rfl⟩ := hpeak dirty (by rw [hdirty _ g1.1 _ hq, if_pos ⟨rfl, rfl⟩])
        (fun x hx y hy hne => by rw [hdirty x hx y hy, if_neg hne]) _ _ e2
      rw [m1, absThreshold, hdirty _ g1.1 _ hq, if_pos ⟨rfl, rfl⟩, abs_of_pos hF, Option.getD_none] at g2
      linarith
    · simp only [Option.getD_some] at e4 e5
      omega
  exact ⟨clean, residual, e1, by rw [m3, hk], m1⟩

/-- Such a case: a source of flux 4 in a 3 x 3 image. -/
example : ∃ clean residual, hogbomClean 3 3 6 6 (pointImage (fun i j => if i = 3 ∧ j = 3 then 1 else 0) (4 : ℚ) 3 1 2)
    (fun i j => if i = 3 ∧ j = 3 then 1 else 0) (1 / 10) none (some (99 : Nat)) = .ok (clean, residual) ∧
      clean 1 2 = (99 + 1 : Nat) * (1 / 10 * 4) ∧ residual 1 2 = 4 :=
  C136_centre_violated 3 1 2 (by omega) (by omega) 99 (1 / 10) 4 (by norm_num) (by norm_num) _ _ rfl rfl

end Verif.Deconv
