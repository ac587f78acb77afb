/-
C194: The sign of what CLEAN finds, and which part of the psf it uses.
-/
import Verif.Deconv.PointProps
import Verif.Deconv.ResumeProps

set_option autoImplicit false

set_option linter.unusedSectionVars false

namespace Verif.Deconv

variable {K : Type*} [Field K] [LinearOrder K] [IsStrictOrderedRing K]

/-! ### Lemmas -/

/-- The state is at a peak of its residuals. -/
private def Aimed (n : Nat) (s : CleanState K) : Prop :=
  IsLargestAt n n s.residuals s.p s.q ∧ s.intensity = s.residuals s.p s.q

private theorem step_aimed {n : Nat} (hn : 0 < n) {psf : Nat → Nat → K} {gamma : K} {s s' : CleanState K}
    (h : cleanStep n psf gamma s = .ok s') :
    Aimed n s' ∧ s'.clean = buildCleanmap s.clean s.intensity gamma s.p s.q ∧
      s'.residuals = updateResidual s.residuals s.intensity gamma s.p s.q n psf := by
  unfold cleanStep at h
  dsimp only at h
  obtain ⟨pk, e, hl, _, hi, _⟩ := findPeak_spec n n (updateResidual s.residuals s.intensity gamma s.p s.q n psf) hn hn
  rw [e] at h
  cases h
  exact ⟨⟨hl, hi⟩, rfl, rfl⟩

/-- What every round keeps is kept by the loop. -/
private theorem loop_inv {n : Nat} {psf : Nat → Nat → K} {gamma threshold : K} {niter : Int} {P : CleanState K → Prop}
    (hP : ∀ s s', P s → cleanStep n psf gamma s = .ok s' → P s') (fuel : Nat) :
    ∀ {s s' : CleanState K}, P s → cleanLoop n psf gamma threshold niter fuel s = .ok s' → P s' := by
  induction fuel with
  | zero => intro s s' h e; cases e; exact h
  | succ fuel ih =>
    intro s s' h e
    rw [cleanLoop] at e
    split at e
    · split at e
      · cases e
      · rename_i s1 h1
        exact ih (hP _ _ h h1) e
    · cases e; exact h

/-- The loop a successful call ran. -/
private theorem hogbom_run {n : Nat} (hn : 0 < n) {dirty psf clean residual : Nat → Nat → K} {gamma : K} {t : Option K}
    {niter : Option Int} (h : hogbomClean n n (2 * n) (2 * n) dirty psf gamma t niter = .ok (clean, residual)) :
    ∃ p q s, IsLargestAt n n dirty p q ∧
      cleanLoop n psf gamma (t.getD (1 / 5) * |dirty p q|) (niter.getD (3 * n)) (niter.getD (3 * n) + 1).toNat
        ⟨fun _ _ => 0, dirty, p, q, dirty p q, 0⟩ = .ok s ∧ s.clean = clean ∧ s.residuals = residual := by
  obtain ⟨pk, e, hl, _, hi, _⟩ := findPeak_spec n n dirty hn hn
  unfold hogbomClean at h
  dsimp only at h
  rw [if_neg (by omega), if_neg (by omega), e] at h
  dsimp only at h
  have key : ∀ T : K, (match cleanLoop n psf gamma T (niter.getD (3 * n)) (niter.getD (3 * n) + 1).toNat
      ⟨fun _ _ => 0, dirty, pk.maxx, pk.maxy, pk.intensity, 0⟩ with
      | .error e => .error e
      | .ok s => .ok (s.clean, s.residuals)) = Except.ok (ε := PyErr) (clean, residual) →
      ∃ s, cleanLoop n psf gamma T (niter.getD (3 * n)) (niter.getD (3 * n) + 1).toNat
        ⟨fun _ _ => 0, dirty, pk.maxx, pk.maxy, dirty pk.maxx pk.maxy, 0⟩ = .ok s ∧ s.clean = clean ∧ s.residuals = residual := by
    intro T h
    split at h
    · cases h
    · rename_i s hs
      cases h
      rw [hi] at hs
      exact ⟨s, hs, rfl, rfl⟩
  cases t with
  | none =>
    obtain ⟨s, hs⟩ := key _ h
    exact ⟨pk.maxx, pk.maxy, s, hl, by rw [← hi]; rw [← hi] at hs; exact hs⟩
  | some t =>
    obtain ⟨s, hs⟩ := key _ h
    exact ⟨pk.maxx, pk.maxy, s, hl, by rw [← hi]; rw [← hi] at hs; exact hs⟩

/-- A round from a peak that is not negative: the next peak is not negative and the model has not decreased. -/
private theorem step_up {n : Nat} (hn : 0 < n) {psf : Nat → Nat → K} {gamma : K} (hg : 0 ≤ gamma)
    (hpsf : gamma * psf (n - 1) (n - 1) ≤ 1) {s s' : CleanState K} (ha : Aimed n s) (h0 : 0 ≤ s.intensity)
    (h : cleanStep n psf gamma s = .ok s') :
    Aimed n s' ∧ 0 ≤ s'.intensity ∧ ∀ x y, s.clean x y ≤ s'.clean x y := by
  obtain ⟨h1, h2, h3⟩ := step_aimed hn h
  refine ⟨h1, ?_, fun x y => ?_⟩
  · have h4 := h1.1.2.2 s.p ha.1.1 s.q ha.1.2.1
    have ep : n - 1 - s.p + s.p = n - 1 := by have := ha.1.1; omega
    have eq : n - 1 - s.q + s.q = n - 1 := by have := ha.1.2.1; omega
    rw [← h1.2] at h4
    refine le_trans ?_ h4
    rw [h3]
    unfold updateResidual
    rw [ep, eq, ← ha.2]
    have := mul_nonneg h0 (sub_nonneg.2 hpsf)
    linarith [this, show s.intensity * (1 - gamma * psf (n - 1) (n - 1)) =
      s.intensity - gamma * s.intensity * psf (n - 1) (n - 1) by ring]
  · rw [h2]
    unfold buildCleanmap
    split
    · linarith [mul_nonneg h0 hg]
    · exact le_refl _

/-! ### C194 -/

/-- **C194.** If some pixel of the dirty image is not negative and a round removes at most the whole peak, all components
of the model are positive or zero, and some pixel of the residual is not negative. -/
theorem C194_positive (n : Nat) (hn : 0 < n) (dirty psf clean residual : Nat → Nat → K) (gamma : K) (t : Option K)
    (niter : Option Int) (hd : ∃ x < n, ∃ y < n, 0 ≤ dirty x y) (hg : 0 ≤ gamma) (hpsf : gamma * psf (n - 1) (n - 1) ≤ 1)
    (h : hogbomClean n n (2 * n) (2 * n) dirty psf gamma t niter = .ok (clean, residual)) :
    (∀ x y, 0 ≤ clean x y) ∧ ∃ x < n, ∃ y < n, 0 ≤ residual x y := by
  obtain ⟨p, q, s, hl, hs, rfl, rfl⟩ := hogbom_run hn h
  obtain ⟨x, hx, y, hy, h0⟩ := hd
  have hinv := loop_inv (P := fun s : CleanState K => (Aimed n s ∧ 0 ≤ s.intensity) ∧ ∀ x y, 0 ≤ s.clean x y)
    (fun s s' hs hst => by
      obtain ⟨k1, k2, k3⟩ := step_up hn hg hpsf hs.1.1 hs.1.2 hst
      exact ⟨⟨k1, k2⟩, fun x y => le_trans (hs.2 x y) (k3 x y)⟩) _
    ⟨⟨⟨hl, rfl⟩, le_trans h0 (hl.2.2 x hx y hy)⟩, fun _ _ => le_refl _⟩ hs
  exact ⟨hinv.2, s.p, hinv.1.1.1.1, s.q, hinv.1.1.1.2.1, by rw [← hinv.1.1.2]; exact hinv.1.2⟩

/-- **C194.** A longer run of the same call only adds flux to the model, at every pixel. -/
theorem C194_longer (n : Nat) (hn : 0 < n) (dirty psf clean residual clean' residual' : Nat → Nat → K) (gamma t : K)
    (a b : Nat) (hab : a ≤ b) (hd : ∃ x < n, ∃ y < n, 0 ≤ dirty x y) (hg : 0 ≤ gamma)
    (hpsf : gamma * psf (n - 1) (n - 1) ≤ 1)
    (h : hogbomClean n n (2 * n) (2 * n) dirty psf gamma (some t) (some (a : Int)) = .ok (clean, residual))
    (h' : hogbomClean n n (2 * n) (2 * n) dirty psf gamma (some t) (some (b : Int)) = .ok (clean', residual')) :
    ∀ x y, clean x y ≤ clean' x y := by
  obtain ⟨pk, e1, e2, _, e3, _⟩ := findPeak_spec n n dirty hn hn
  obtain ⟨s, hs, es⟩ := hogbom_loop e1 h
  obtain ⟨s', hs', es'⟩ := hogbom_loop e1 h'
  simp only [Prod.mk.injEq] at es es'
  obtain ⟨rfl, rfl⟩ := es
  obtain ⟨rfl, rfl⟩ := es'
  have l1 := loop_limit (n := n) (psf := psf) (gamma := gamma) (threshold := t * |pk.intensity|) (a := (a : Int))
    (b := (b : Int)) (by omega) ((a : Int) + 1).toNat ⟨fun _ _ => 0, dirty, pk.maxx, pk.maxy, pk.intensity, 0⟩
    (by push_cast; omega)
  rw [hs] at l1
  have l2 := loop_split (niter := (b : Int)) ((a : Int) + 1).toNat (b - a) l1.symm
  rw [show ((a : Int) + 1).toNat + (b - a) = ((b : Int) + 1).toNat by omega, hs'] at l2
  obtain ⟨x, hx, y, hy, h0⟩ := hd
  have hinv := loop_inv (P := fun s : CleanState K => Aimed n s ∧ 0 ≤ s.intensity)
    (fun s s' hs hst => by
      obtain ⟨k1, k2, _⟩ := step_up hn hg hpsf hs.1 hs.2 hst
      exact ⟨k1, k2⟩) _
    ⟨⟨e2, e3⟩, le_trans h0 (by rw [e3]; exact e2.2.2 x hx y hy)⟩ hs
  have hfin := loop_inv (P := fun u : CleanState K => (Aimed n u ∧ 0 ≤ u.intensity) ∧ ∀ x y, s.clean x y ≤ u.clean x y)
    (fun u u' hu hst => by
      obtain ⟨k1, k2, k3⟩ := step_up hn hg hpsf hu.1.1 hu.1.2 hst
      exact ⟨⟨k1, k2⟩, fun x y => le_trans (hu.2 x y) (k3 x y)⟩) _
    ⟨hinv, fun _ _ => le_refl _⟩ l2.symm
  exact hfin.2

/-- **C194.** With a psf that is nowhere negative the residual is nowhere above the dirty image. -/
theorem C194_residual (n : Nat) (hn : 0 < n) (dirty psf clean residual : Nat → Nat → K) (gamma : K) (t : Option K)
    (niter : Option Int) (hd : ∃ x < n, ∃ y < n, 0 ≤ dirty x y) (hg : 0 ≤ gamma) (hpsf : gamma * psf (n - 1) (n - 1) ≤ 1)
    (h0 : ∀ x y, 0 ≤ psf x y) (h : hogbomClean n n (2 * n) (2 * n) dirty psf gamma t niter = .ok (clean, residual)) :
    ∀ x y, residual x y ≤ dirty x y := by
  obtain ⟨p, q, s, hl, hs, rfl, rfl⟩ := hogbom_run hn h
  obtain ⟨x, hx, y, hy, hxy⟩ := hd
  have hinv := loop_inv (P := fun s : CleanState K => (Aimed n s ∧ 0 ≤ s.intensity) ∧ ∀ x y, s.residuals x y ≤ dirty x y)
    (fun s s' hs hst => by
      obtain ⟨k1, k2, _⟩ := step_up hn hg hpsf hs.1.1 hs.1.2 hst
      refine ⟨⟨k1, k2⟩, fun x y => le_trans ?_ (hs.2 x y)⟩
      rw [(step_aimed hn hst).2.2]
      unfold updateResidual
      have := mul_nonneg (mul_nonneg hg hs.1.2) (h0 (n - 1 - s.p + x) (n - 1 - s.q + y))
      linarith) _
    ⟨⟨⟨hl, rfl⟩, le_trans hxy (hl.2.2 x hx y hy)⟩, fun _ _ => le_refl _⟩ hs
  exact hinv.2

/-- **C194.** Sources of negative flux are never found: where the largest pixel of the dirty image is zero nothing is
cleaned, whatever the other pixels are. -/
theorem C194_absorption (n : Nat) (hn : 0 < n) (dirty psf : Nat → Nat → K) (gamma : K) (t : Option K) (niter : Option Int)
    (hd : ∀ x < n, ∀ y < n, dirty x y ≤ 0) (h0 : ∃ x < n, ∃ y < n, dirty x y = 0) :
    ∃ clean, hogbomClean n n (2 * n) (2 * n) dirty psf gamma t niter = .ok (clean, dirty) ∧ ∀ x y, clean x y = 0 := by
  obtain ⟨pk, e, hl, _, hi, _⟩ := findPeak_spec n n dirty hn hn
  obtain ⟨x, hx, y, hy, hxy⟩ := h0
  have hz : pk.intensity = 0 := by
    rw [hi]
    exact le_antisymm (hd _ hl.1 _ hl.2.1) (by rw [← hxy]; exact hl.2.2 x hx y hy)
  refine ⟨fun _ _ => 0, ?_, fun _ _ => rfl⟩
  have hloop : ∀ fuel, cleanLoop n psf gamma 0 (niter.getD (3 * n)) fuel
      ⟨fun _ _ => 0, dirty, pk.maxx, pk.maxy, pk.intensity, 0⟩ =
      .ok ⟨fun _ _ => 0, dirty, pk.maxx, pk.maxy, pk.intensity, 0⟩ := by
    intro fuel
    cases fuel with
    | zero => rfl
    | succ fuel => rw [cleanLoop, if_neg (fun h => by simp [hz] at h)]
  unfold hogbomClean
  dsimp only
  rw [if_neg (by omega), if_neg (by omega), e]
  dsimp only
  have hzero : ∀ u : K, u * |pk.intensity| = 0 := fun u => by simp [hz]
  cases t with
  | none => dsimp only; rw [hzero, hloop]
  | some t => dsimp only; rw [hzero, hloop]

/-- **C194.** Where all of the dirty image is negative or zero, the model and the residual are: no positive source is
invented, if a round does not remove more than the peak anywhere. -/
theorem C194_below_zero (n : Nat) (hn : 0 < n) (dirty psf clean residual : Nat → Nat → K) (gamma : K) (t : Option K)
    (niter : Option Int) (hd : ∀ x < n, ∀ y < n, dirty x y ≤ 0) (hg : 0 ≤ gamma)
    (hpsf : ∀ x < 2 * n - 1, ∀ y < 2 * n - 1, gamma * psf x y ≤ 1)
    (h : hogbomClean n n (2 * n) (2 * n) dirty psf gamma t niter = .ok (clean, residual)) :
    (∀ x y, clean x y ≤ 0) ∧ ∀ x < n, ∀ y < n, residual x y ≤ 0 := by
  obtain ⟨p, q, s, hl, hs, rfl, rfl⟩ := hogbom_run hn h
  have hinv := loop_inv
    (P := fun s : CleanState K => (Aimed n s ∧ ∀ x < n, ∀ y < n, s.residuals x y ≤ 0) ∧ ∀ x y, s.clean x y ≤ 0)
    (fun s s' hs hst => by
      obtain ⟨k1, k2, k3⟩ := step_aimed hn hst
      have hi : s.intensity ≤ 0 := by
        rw [hs.1.1.2]; exact hs.1.2 _ hs.1.1.1.1 _ hs.1.1.1.2.1
      refine ⟨⟨k1, fun x hx y hy => ?_⟩, fun x y => ?_⟩
      · rw [k3]
        unfold updateResidual
        have hp := hs.1.1.1.1
        have hq := hs.1.1.1.2.1
        have h1 := hpsf (n - 1 - s.p + x) (by omega) (n - 1 - s.q + y) (by omega)
        have h2 := hs.1.1.1.2.2 x hx y hy
        rw [← hs.1.1.2] at h2
        have h3 := mul_nonneg_of_nonpos_of_nonpos hi (sub_nonpos.2 h1)
        have h4 : s.intensity * (gamma * psf (n - 1 - s.p + x) (n - 1 - s.q + y) - 1) =
          gamma * s.intensity * psf (n - 1 - s.p + x) (n - 1 - s.q + y) - s.intensity := by ring
        linarith
      · rw [k2]
        unfold buildCleanmap
        split
        · linarith [hs.2 x y, mul_nonpos_of_nonpos_of_nonneg hi hg]
        · exact hs.2 x y) _
    ⟨⟨⟨hl, rfl⟩, hd⟩, fun _ _ => le_refl _⟩ hs
  exact ⟨hinv.2, hinv.1.2⟩

/-- Two states of the loop that agree on the image. -/
private def Same (n : Nat) (s s' : CleanState K) : Prop :=
  s'.clean = s.clean ∧ (∀ x < n, ∀ y < n, s'.residuals x y = s.residuals x y) ∧ s'.p = s.p ∧ s'.q = s.q ∧ s'.intensity = s.intensity ∧
    s'.i = s.i ∧ s.p < n ∧ s.q < n

private theorem loop_same {n : Nat} (hn : 0 < n) {psf psf' : Nat → Nat → K} {gamma threshold : K} {niter : Int}
    (hpsf : ∀ x < 2 * n - 1, ∀ y < 2 * n - 1, psf' x y = psf x y) (fuel : Nat) :
    ∀ {s s' : CleanState K}, Same n s s' → ∃ r r', cleanLoop n psf gamma threshold niter fuel s = .ok r ∧
      cleanLoop n psf' gamma threshold niter fuel s' = .ok r' ∧ Same n r r' := by
  induction fuel with
  | zero => intro s s' h; exact ⟨s, s', rfl, rfl, h⟩
  | succ fuel ih =>
    intro s s' h
    obtain ⟨h1, h2, h3, h4, h5, h6, h7, h8⟩ := h
    rw [cleanLoop, cleanLoop, h5, h6]
    by_cases hb : |s.intensity| > threshold ∧ (s.i : Int) ≤ niter
    · rw [if_pos hb, if_pos hb]
      have hres : ∀ x < n, ∀ y < n, updateResidual s'.residuals s'.intensity gamma s'.p s'.q n psf' x y =
          1 * updateResidual s.residuals s.intensity gamma s.p s.q n psf x y := by
        intro x hx y hy
        unfold updateResidual
        rw [h2 x hx y hy, h3, h4, h5, hpsf _ (by omega) _ (by omega), one_mul]
      obtain ⟨pk, pk', e, e', g1, g2, g3, g4, g5⟩ := findPeak_scale n n hn hn
        (updateResidual s.residuals s.intensity gamma s.p s.q n psf)
        (updateResidual s'.residuals s'.intensity gamma s'.p s'.q n psf') 1 one_pos hres
      have hs : cleanStep n psf gamma s = .ok ⟨buildCleanmap s.clean s.intensity gamma s.p s.q,
          updateResidual s.residuals s.intensity gamma s.p s.q n psf, pk.maxx, pk.maxy, pk.intensity, s.i + 1⟩ := by
        unfold cleanStep
        simp only [e]
      have hs' : cleanStep n psf' gamma s' = .ok ⟨buildCleanmap s'.clean s'.intensity gamma s'.p s'.q,
          updateResidual s'.residuals s'.intensity gamma s'.p s'.q n psf', pk'.maxx, pk'.maxy, pk'.intensity,
          s'.i + 1⟩ := by
        unfold cleanStep
        simp only [e']
      rw [hs, hs']
      exact ih ⟨by dsimp only; rw [h1, h3, h4, h5], fun x hx y hy => by have := hres x hx y hy; rw [one_mul] at this; exact this,
        g1, g2, by dsimp only; rw [g3, one_mul], by dsimp only; rw [h6], g4, g5⟩
    · rw [if_neg hb, if_neg hb]
      exact ⟨s, s', rfl, rfl, h1, h2, h3, h4, h5, h6, h7, h8⟩

/-- **C194.** The last row and the last column of the psf are never used: psfs that agree elsewhere give the same model and
the same residual. -/
theorem C194_psf (n : Nat) (hn : 0 < n) (dirty psf psf' : Nat → Nat → K) (gamma : K) (t : Option K) (niter : Option Int)
    (hpsf : ∀ x < 2 * n - 1, ∀ y < 2 * n - 1, psf' x y = psf x y) :
    ∃ clean residual residual', hogbomClean n n (2 * n) (2 * n) dirty psf gamma t niter = .ok (clean, residual) ∧
      hogbomClean n n (2 * n) (2 * n) dirty psf' gamma t niter = .ok (clean, residual') ∧
      ∀ x < n, ∀ y < n, residual' x y = residual x y := by
  obtain ⟨pk, e, hl, _, hi, _⟩ := findPeak_spec n n dirty hn hn
  obtain ⟨r, r', f, f', hr⟩ := loop_same hn (gamma := gamma) (threshold := t.getD (1 / 5) * |pk.intensity|)
    (niter := niter.getD (3 * n)) hpsf (niter.getD (3 * n) + 1).toNat
    (s := ⟨fun _ _ => 0, dirty, pk.maxx, pk.maxy, pk.intensity, 0⟩)
    (s' := ⟨fun _ _ => 0, dirty, pk.maxx, pk.maxy, pk.intensity, 0⟩)
    ⟨rfl, fun _ _ _ _ => rfl, rfl, rfl, rfl, rfl, hl.1, hl.2.1⟩
  refine ⟨r.clean, r.residuals, r'.residuals, ?_, ?_, hr.2.1⟩
  · unfold hogbomClean
    dsimp only
    rw [if_neg (by omega), if_neg (by omega), e]
    dsimp only
    cases t <;> (erw [f])
  · unfold hogbomClean
    dsimp only
    rw [if_neg (by omega), if_neg (by omega), e]
    dsimp only
    rw [← hr.1]
    cases t <;> (erw [f'])

/-- An image with a positive and a negative source, seen through a psf with sidelobes of both signs. -/
example : ∃ clean residual : Nat → Nat → ℚ,
    hogbomClean 2 2 4 4 (fun x y => if x = 0 ∧ y = 0 then 4 else if x = 1 ∧ y = 1 then -3 else 0)
      (fun x y => if x = 1 ∧ y = 1 then 1 else if x = 2 then 1 / 4 else -1 / 4) (1 / 2) none none = .ok (clean, residual) ∧
    (∀ x y, 0 ≤ clean x y) ∧ ∃ x < 2, ∃ y < 2, 0 ≤ residual x y := by
  obtain ⟨clean, residual, _, _, _, h, _⟩ := hogbom_spec 2 (by omega)
    (fun x y => if x = 0 ∧ y = 0 then (4 : ℚ) else if x = 1 ∧ y = 1 then -3 else 0)
    (fun x y => if x = 1 ∧ y = 1 then 1 else if x = 2 then 1 / 4 else -1 / 4) (1 / 2) none none
  exact ⟨clean, residual, h, C194_positive 2 (by omega) _ _ _ _ _ _ _ ⟨0, by omega, 0, by omega, by norm_num⟩ (by norm_num)
    (by norm_num) h⟩

/-- A source in absorption alone stays in the residual. -/
example : ∃ clean : Nat → Nat → ℚ,
    hogbomClean 2 2 4 4 (fun x y => if x = 1 ∧ y = 1 then -3 else 0) (fun x y => if x = 1 ∧ y = 1 then 1 else 0) (1 / 2) none none =
      .ok (clean, fun x y => if x = 1 ∧ y = 1 then -3 else 0) ∧ ∀ x y, clean x y = 0 :=
  C194_absorption 2 (by omega) _ _ _ _ _ (fun x _ y _ => by split <;> norm_num) ⟨0, by omega, 0, by omega, by norm_num⟩

end Verif.Deconv
