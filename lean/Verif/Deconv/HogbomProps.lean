/-
Properties of the Hogbom CLEAN model: C83 (model and residual account for the dirty image), C84 (iteration limit), C85
(peak search).
-/
import Verif.Deconv.Hogbom
import Mathlib.Algebra.BigOperators.Ring.Finset
import Mathlib.Algebra.Order.Ring.Rat
import Mathlib.Tactic.Ring
import Mathlib.Tactic.Linarith

set_option autoImplicit false
set_option linter.unusedSectionVars false

namespace Verif.Deconv

variable {K : Type*} [Field K] [LinearOrder K] [IsStrictOrderedRing K]

/-! ### specification -/

/-- `(p, q)` is a pixel of the image where the value is largest. -/
def IsLargestAt (nx ny : Nat) (a : Nat → Nat → K) (p q : Nat) : Prop :=
  p < nx ∧ q < ny ∧ ∀ x < nx, ∀ y < ny, a x y ≤ a p q

/-- `(p, q)` is a pixel of the image where the value is smallest. -/
def IsSmallestAt (nx ny : Nat) (a : Nat → Nat → K) (p q : Nat) : Prop :=
  p < nx ∧ q < ny ∧ ∀ x < nx, ∀ y < ny, a p q ≤ a x y

/-- `k` rounds of CLEAN with gain `gamma` from `dirty` to `residual`, leaving the components in `clean`: every round
removes `gamma` times the psf, centred on a pixel where the residual is largest and scaled by the value there, which must
exceed `threshold` in absolute value. -/
def CleanRun (n : Nat) (psf : Nat → Nat → K) (gamma threshold : K) (dirty : Nat → Nat → K) (k : Nat)
    (clean residual : Nat → Nat → K) : Prop :=
  ∃ (R C : Nat → Nat → Nat → K) (P Q : Nat → Nat),
    R 0 = dirty ∧ (∀ x y, C 0 x y = 0) ∧ R k = residual ∧ C k = clean ∧
    ∀ j < k, IsLargestAt n n (R j) (P j) (Q j) ∧ threshold < |R j (P j) (Q j)| ∧
      (∀ x y, C (j + 1) x y = C j x y + if x = P j ∧ y = Q j then gamma * R j (P j) (Q j) else 0) ∧
      ∀ x < n, ∀ y < n, R (j + 1) x y =
        R j x y - gamma * R j (P j) (Q j) * psf (x + (n - 1) - P j) (y + (n - 1) - Q j)

/-! ### the peak search -/

theorem imgMax_spec (nx ny : Nat) (a : Nat → Nat → K) (hx : 0 < nx) (hy : 0 < ny) :
    (∃ p q, p < nx ∧ q < ny ∧ imgMax nx ny a = a p q) ∧ ∀ x < nx, ∀ y < ny, a x y ≤ imgMax nx ny a := by
  have := forRange2_inv (nx := nx) (ny := ny) (init := a 0 0)
    (f := fun x y s => if s < a x y then a x y else s)
    (P := fun x y s => (∃ p q, p < nx ∧ q < ny ∧ s = a p q) ∧
      ∀ x' y', x' < nx → y' < ny → (x' < x ∨ x' = x ∧ y' < y) → a x' y' ≤ s)
    ⟨⟨0, 0, hx, hy, rfl⟩, fun x' y' _ _ h => by omega⟩
    (by
      rintro x y s h1 h2 ⟨h3, h4⟩
      split
      · rename_i hlt
        refine ⟨⟨x, y, h1, h2, rfl⟩, fun x' y' a1 a2 a3 => ?_⟩
        rcases a3 with a3 | ⟨a3, a4⟩
        · exact le_of_lt (lt_of_le_of_lt (h4 x' y' a1 a2 (Or.inl a3)) hlt)
        · rcases Nat.lt_succ_iff_lt_or_eq.mp a4 with a5 | a5
          · exact le_of_lt (lt_of_le_of_lt (h4 x' y' a1 a2 (Or.inr ⟨a3, a5⟩)) hlt)
          · rw [a3, a5]
      · rename_i hlt
        refine ⟨h3, fun x' y' a1 a2 a3 => ?_⟩
        rcases a3 with a3 | ⟨a3, a4⟩
        · exact h4 x' y' a1 a2 (Or.inl a3)
        · rcases Nat.lt_succ_iff_lt_or_eq.mp a4 with a5 | a5
          · exact h4 x' y' a1 a2 (Or.inr ⟨a3, a5⟩)
          · rw [a3, a5]; exact not_lt.mp hlt)
    (by
      rintro x s h1 ⟨h3, h4⟩
      exact ⟨h3, fun x' y' a1 a2 a3 => h4 x' y' a1 a2 (by omega)⟩)
  exact ⟨this.1, fun x h1 y h2 => this.2 x y h1 h2 (Or.inl h1)⟩

private theorem imgMin_spec (nx ny : Nat) (a : Nat → Nat → K) (hx : 0 < nx) (hy : 0 < ny) :
    (∃ p q, p < nx ∧ q < ny ∧ imgMin nx ny a = a p q) ∧ ∀ x < nx, ∀ y < ny, imgMin nx ny a ≤ a x y := by
  have := forRange2_inv (nx := nx) (ny := ny) (init := a 0 0)
    (f := fun x y s => if a x y < s then a x y else s)
    (P := fun x y s => (∃ p q, p < nx ∧ q < ny ∧ s = a p q) ∧
      ∀ x' y', x' < nx → y' < ny → (x' < x ∨ x' = x ∧ y' < y) → s ≤ a x' y')
    ⟨⟨0, 0, hx, hy, rfl⟩, fun x' y' _ _ h => by omega⟩
    (by
      rintro x y s h1 h2 ⟨h3, h4⟩
      split
      · rename_i hlt
        refine ⟨⟨x, y, h1, h2, rfl⟩, fun x' y' a1 a2 a3 => ?_⟩
        rcases a3 with a3 | ⟨a3, a4⟩
        · exact le_of_lt (lt_of_lt_of_le hlt (h4 x' y' a1 a2 (Or.inl a3)))
        · rcases Nat.lt_succ_iff_lt_or_eq.mp a4 with a5 | a5
          · exact le_of_lt (lt_of_lt_of_le hlt (h4 x' y' a1 a2 (Or.inr ⟨a3, a5⟩)))
          · rw [a3, a5]
      · rename_i hlt
        refine ⟨h3, fun x' y' a1 a2 a3 => ?_⟩
        rcases a3 with a3 | ⟨a3, a4⟩
        · exact h4 x' y' a1 a2 (Or.inl a3)
        · rcases Nat.lt_succ_iff_lt_or_eq.mp a4 with a5 | a5
          · exact h4 x' y' a1 a2 (Or.inr ⟨a3, a5⟩)
          · rw [a3, a5]; exact not_lt.mp hlt)
    (by
      rintro x s h1 ⟨h3, h4⟩
      exact ⟨h3, fun x' y' a1 a2 a3 => h4 x' y' a1 a2 (by omega)⟩)
  exact ⟨this.1, fun x h1 y h2 => this.2 x y h1 h2 (Or.inl h1)⟩

/-- What the search knows about the last pixel equal to `v` among those before `(x, y)` in row-major order. -/
private def LastAt (nx ny : Nat) (a : Nat → Nat → K) (v : K) (x y : Nat) (o : Option (Nat × Nat)) : Prop :=
  (∀ p q, o = some (p, q) → p < nx ∧ q < ny ∧ a p q = v) ∧
  ∀ x' y', x' < nx → y' < ny → (x' < x ∨ x' = x ∧ y' < y) → a x' y' = v →
    ∃ p q, o = some (p, q) ∧ (x' < p ∨ x' = p ∧ y' ≤ q)

private theorem LastAt.hit {nx ny : Nat} {a : Nat → Nat → K} {v : K} {x y : Nat}
    (hx : x < nx) (hy : y < ny) (h : a x y = v) : LastAt nx ny a v x (y + 1) (some (x, y)) := by
  refine ⟨fun p q e => ?_, fun x' y' _ _ b3 _ => ⟨x, y, rfl, by omega⟩⟩
  cases e
  exact ⟨hx, hy, h⟩

private theorem LastAt.miss {nx ny : Nat} {a : Nat → Nat → K} {v : K} {x y : Nat} {o : Option (Nat × Nat)}
    (ho : LastAt nx ny a v x y o) (h : a x y ≠ v) : LastAt nx ny a v x (y + 1) o := by
  refine ⟨ho.1, fun x' y' b1 b2 b3 b4 => ho.2 x' y' b1 b2 ?_ b4⟩
  rcases b3 with b3 | ⟨b3, b5⟩
  · exact Or.inl b3
  · refine Or.inr ⟨b3, ?_⟩
    rcases Nat.lt_succ_iff_lt_or_eq.mp b5 with b6 | b6
    · exact b6
    · subst b3; subst b6; exact absurd b4 h

private theorem findPeak_loop (nx ny : Nat) (a : Nat → Nat → K) (vmin vmax : K) :
    let s := forRange nx (⟨none, none, -1⟩ : PeakState K)
      fun x s => forRange ny s fun y s => peakStep a vmin vmax x y s
    LastAt nx ny a vmin nx 0 s.minAt ∧ LastAt nx ny a vmax nx 0 s.maxAt ∧ (s.maxAt ≠ none → s.peak = vmax) := by
  refine forRange2_inv (f := fun x y s => peakStep a vmin vmax x y s)
    (P := fun x y s => LastAt nx ny a vmin x y s.minAt ∧ LastAt nx ny a vmax x y s.maxAt ∧
      (s.maxAt ≠ none → s.peak = vmax)) ?_ ?_ ?_
  · refine ⟨⟨fun _ _ h => (by cases h), fun _ _ _ _ h => by omega⟩,
      ⟨fun _ _ h => (by cases h), fun _ _ _ _ h => by omega⟩, fun h => absurd rfl h⟩
  · rintro x y s h1 h2 ⟨h3, h4, h5⟩
    unfold peakStep
    dsimp only
    by_cases hmin : a x y = vmin
    · rw [if_pos hmin]
      by_cases hmax : a x y = vmax
      · rw [if_pos hmax]
        exact ⟨LastAt.hit h1 h2 hmin, LastAt.hit h1 h2 hmax, fun _ => hmax⟩
      · rw [if_neg hmax]
        exact ⟨LastAt.hit h1 h2 hmin, h4.miss hmax, h5⟩
    · rw [if_neg hmin]
      by_cases hmax : a x y = vmax
      · rw [if_pos hmax]
        exact ⟨h3.miss hmin, LastAt.hit h1 h2 hmax, fun _ => hmax⟩
      · rw [if_neg hmax]
        exact ⟨h3.miss hmin, h4.miss hmax, h5⟩
  · rintro x s h1 ⟨h3, h4, h5⟩
    exact ⟨⟨h3.1, fun x' y' b1 b2 b3 => h3.2 x' y' b1 b2 (by omega)⟩,
      ⟨h4.1, fun x' y' b1 b2 b3 => h4.2 x' y' b1 b2 (by omega)⟩, h5⟩

theorem findPeak_spec (nx ny : Nat) (a : Nat → Nat → K) (hx : 0 < nx) (hy : 0 < ny) :
    ∃ pk, findPeak nx ny a = .ok pk ∧ IsLargestAt nx ny a pk.maxx pk.maxy ∧ IsSmallestAt nx ny a pk.minx pk.miny ∧
      pk.intensity = a pk.maxx pk.maxy ∧
      ∀ x < nx, ∀ y < ny, a x y = a pk.maxx pk.maxy → x < pk.maxx ∨ x = pk.maxx ∧ y ≤ pk.maxy := by
  obtain ⟨⟨p, q, hp, hq, e⟩, hall⟩ := imgMax_spec nx ny a hx hy
  obtain ⟨⟨p', q', hp', hq', e'⟩, hall'⟩ := imgMin_spec nx ny a hx hy
  have hl := findPeak_loop nx ny a (imgMin nx ny a) (imgMax nx ny a)
  dsimp only at hl
  unfold findPeak
  rw [if_neg (by omega)]
  dsimp only
  generalize (forRange nx (⟨none, none, -1⟩ : PeakState K)
      fun x s => forRange ny s fun y s => peakStep a (imgMin nx ny a) (imgMax nx ny a) x y s) = s at hl ⊢
  obtain ⟨h1, h2, h3⟩ := hl
  obtain ⟨m1, m2, hm, _⟩ := h1.2 p' q' hp' hq' (Or.inl hp') e'.symm
  obtain ⟨M1, M2, hM, _⟩ := h2.2 p q hp hq (Or.inl hp) e.symm
  rw [hm, hM]
  have a1 := h1.1 m1 m2 hm
  have a2 := h2.1 M1 M2 hM
  refine ⟨_, rfl, ⟨a2.1, a2.2.1, fun x hx y hy => ?_⟩, ⟨a1.1, a1.2.1, fun x hx y hy => ?_⟩, ?_, ?_⟩
  · dsimp only; rw [a2.2.2]; exact hall x hx y hy
  · dsimp only; rw [a1.2.2]; exact hall' x hx y hy
  · dsimp only; rw [a2.2.2]; exact h3 (by rw [hM]; simp)
  · intro x hx y hy h
    dsimp only at h ⊢
    rw [a2.2.2] at h
    obtain ⟨P, Q, hPQ, hlast⟩ := h2.2 x y hx hy (Or.inl hx) h
    rw [hM] at hPQ
    cases hPQ
    exact hlast

/-- **C85** (partial: the documented search for the largest *absolute* value is refuted by `C85_violated`). For every
image with at least one pixel, `find_peak` returns a pixel where the value is largest, that value, a pixel where the
value is smallest; among equal largest pixels it returns the last in row-major order. -/
theorem C85_find_peak_partial (nx ny : Nat) (a : Nat → Nat → K) (hx : 0 < nx) (hy : 0 < ny) :
    ∃ pk, findPeak nx ny a = .ok pk ∧ IsLargestAt nx ny a pk.maxx pk.maxy ∧ IsSmallestAt nx ny a pk.minx pk.miny ∧
      pk.intensity = a pk.maxx pk.maxy ∧
      ∀ x < nx, ∀ y < ny, a x y = a pk.maxx pk.maxy → x < pk.maxx ∨ x = pk.maxx ∧ y ≤ pk.maxy :=
  findPeak_spec nx ny a hx hy

/-- **C85**: an image without pixels raises `ValueError`. -/
theorem C85_empty_partial (nx ny : Nat) (a : Nat → Nat → K) (h : nx = 0 ∨ ny = 0) :
    findPeak nx ny a = .error .valueError := by
  unfold findPeak
  rw [if_pos h]

/-- **C85** refuted: for every size with at least two pixels in a row there is an image in which `find_peak` returns a
pixel whose absolute value is not the largest (a negative source is never found next to a weaker positive one). -/
theorem C85_violated (nx ny : Nat) (hx : 0 < nx) (hy : 1 < ny) :
    ∃ (a : Nat → Nat → ℚ) (pk : Peak ℚ), findPeak nx ny a = .ok pk ∧
      ∃ x < nx, ∃ y < ny, |a pk.maxx pk.maxy| < |a x y| := by
  let a : Nat → Nat → ℚ := fun x y => if x = 0 ∧ y = 0 then -5 else 1
  obtain ⟨pk, h1, h2, _, _⟩ := findPeak_spec nx ny a hx (by omega)
  refine ⟨a, pk, h1, 0, hx, 0, by omega, ?_⟩
  have h3 := h2.2.2 0 hx 1 hy
  have e0 : a 0 0 = -5 := by simp [a]
  have e1 : a 0 1 = 1 := by simp [a]
  have e2 : a pk.maxx pk.maxy = 1 := by
    by_cases h : pk.maxx = 0 ∧ pk.maxy = 0
    · rw [h.1, h.2, e0, e1] at h3
      norm_num at h3
    · simp [a, h]
  rw [e2, e0]
  norm_num

/-! ### the loop -/

/-- Invariant of the `while` loop after `s.i` iterations. -/
private def Inv (n : Nat) (psf : Nat → Nat → K) (gamma threshold : K) (dirty : Nat → Nat → K) (s : CleanState K) : Prop :=
  CleanRun n psf gamma threshold dirty s.i s.clean s.residuals ∧ IsLargestAt n n s.residuals s.p s.q ∧
    s.intensity = s.residuals s.p s.q

private theorem step_inv {n : Nat} {psf : Nat → Nat → K} {gamma threshold : K} {dirty : Nat → Nat → K}
    {s : CleanState K} (h : Inv n psf gamma threshold dirty s) (ht : threshold < |s.intensity|) :
    ∃ s', cleanStep n psf gamma s = .ok s' ∧ s'.i = s.i + 1 ∧ Inv n psf gamma threshold dirty s' := by
  obtain ⟨⟨R, C, P, Q, h0, h1, h2, h3, h4⟩, h5, h6⟩ := h
  have hn : 0 < n := by have := h5.1; omega
  obtain ⟨pk, e1, e2, _, e3, _⟩ := findPeak_spec n n
    (updateResidual s.residuals s.intensity gamma s.p s.q n psf) hn hn
  obtain ⟨R', hR, hR'⟩ : ∃ R' : Nat → Nat → Nat → K, (∀ j ≤ s.i, R' j = R j) ∧
      R' (s.i + 1) = updateResidual s.residuals s.intensity gamma s.p s.q n psf :=
    ⟨fun j => if j ≤ s.i then R j else updateResidual s.residuals s.intensity gamma s.p s.q n psf,
      fun j hj => if_pos hj, if_neg (by omega)⟩
  obtain ⟨C', hC, hC'⟩ : ∃ C' : Nat → Nat → Nat → K, (∀ j ≤ s.i, C' j = C j) ∧
      C' (s.i + 1) = buildCleanmap s.clean s.intensity gamma s.p s.q :=
    ⟨fun j => if j ≤ s.i then C j else buildCleanmap s.clean s.intensity gamma s.p s.q,
      fun j hj => if_pos hj, if_neg (by omega)⟩
  obtain ⟨P', hP, hP'⟩ : ∃ P' : Nat → Nat, (∀ j < s.i, P' j = P j) ∧ P' s.i = s.p :=
    ⟨fun j => if j < s.i then P j else s.p, fun j hj => if_pos hj, if_neg (by omega)⟩
  obtain ⟨Q', hQ, hQ'⟩ : ∃ Q' : Nat → Nat, (∀ j < s.i, Q' j = Q j) ∧ Q' s.i = s.q :=
    ⟨fun j => if j < s.i then Q j else s.q, fun j hj => if_pos hj, if_neg (by omega)⟩
  unfold cleanStep
  dsimp only
  rw [e1]
  refine ⟨_, rfl, rfl, ⟨R', C', P', Q', ?_, ?_, hR', hC', ?_⟩, e2, e3⟩
  · rw [hR 0 (by omega), h0]
  · intro x y; rw [hC 0 (by omega), h1]
  · intro j hj
    dsimp only at hj
    by_cases hji : j < s.i
    · rw [hR j (by omega), hR (j + 1) (by omega), hC j (by omega), hC (j + 1) (by omega), hP j hji, hQ j hji]
      exact h4 j hji
    · have hji' : j = s.i := by omega
      subst hji'
      rw [hR' , hC', hP', hQ', hR _ le_rfl, hC _ le_rfl, h2, h3]
      refine ⟨h5, by rw [← h6]; exact ht, ?_, ?_⟩
      · intro x y
        unfold buildCleanmap
        split
        · rw [h6]; ring
        · ring
      · intro x hx y hy
        unfold updateResidual
        have a1 := h5.1
        have a2 := h5.2.1
        rw [← h6, show n - 1 - s.p + x = x + (n - 1) - s.p by omega, show n - 1 - s.q + y = y + (n - 1) - s.q by omega]

private theorem loop_spec {n : Nat} {psf : Nat → Nat → K} {gamma threshold : K} {dirty : Nat → Nat → K} {niter : Int}
    (fuel : Nat) : ∀ (s : CleanState K), Inv n psf gamma threshold dirty s → (fuel : Int) = max (niter + 1 - s.i) 0 →
    ∃ s', cleanLoop n psf gamma threshold niter fuel s = .ok s' ∧ Inv n psf gamma threshold dirty s' ∧
      (s'.i : Int) ≤ max (niter + 1) s.i ∧ (|s'.intensity| ≤ threshold ∨ niter + 1 ≤ (s'.i : Int)) := by
  induction fuel with
  | zero =>
    intro s h hf
    refine ⟨s, rfl, h, by omega, Or.inr (by omega)⟩
  | succ fuel ih =>
    intro s h hf
    rw [cleanLoop]
    by_cases hc : |s.intensity| > threshold ∧ (s.i : Int) ≤ niter
    · rw [if_pos hc]
      obtain ⟨s', e1, e2, e3⟩ := step_inv h hc.1
      rw [e1]
      obtain ⟨s'', f1, f2, f3, f4⟩ := ih s' e3 (by rw [e2]; push_cast; push_cast at hf; omega)
      refine ⟨s'', f1, f2, ?_, f4⟩
      rw [e2] at f3
      push_cast at f3
      omega
    · rw [if_neg hc]
      refine ⟨s, rfl, h, by omega, ?_⟩
      by_cases h1 : |s.intensity| > threshold
      · exact Or.inr (by by_contra h2; exact hc ⟨h1, by omega⟩)
      · exact Or.inl (not_lt.mp h1)

/-- The absolute threshold: a fraction, by default one fifth, of the first peak. -/
def absThreshold (t : Option K) (peak : K) : K := t.getD (1 / 5) * |peak|

theorem hogbom_spec (n : Nat) (hn : 0 < n) (dirty psf : Nat → Nat → K) (gamma : K) (t : Option K) (niter : Option Int) :
    ∃ clean residual k p q, hogbomClean n n (2 * n) (2 * n) dirty psf gamma t niter = .ok (clean, residual) ∧
      IsLargestAt n n dirty p q ∧ CleanRun n psf gamma (absThreshold t (dirty p q)) dirty k clean residual ∧
      (k : Int) ≤ max (niter.getD (3 * n) + 1) 0 ∧
      ((∃ p' q', IsLargestAt n n residual p' q' ∧ |residual p' q'| ≤ absThreshold t (dirty p q)) ∨
        niter.getD (3 * n) + 1 ≤ (k : Int)) := by
  obtain ⟨pk, e1, e2, _, e3, _⟩ := findPeak_spec n n dirty hn hn
  have hi : Inv n psf gamma (absThreshold t (dirty pk.maxx pk.maxy)) dirty
      ⟨fun _ _ => 0, dirty, pk.maxx, pk.maxy, pk.intensity, 0⟩ :=
    ⟨⟨fun _ => dirty, fun _ _ _ => 0, fun _ => 0, fun _ => 0, rfl, fun _ _ => rfl, rfl, rfl,
      fun j hj => absurd hj (Nat.not_lt_zero j)⟩, e2, e3⟩
  obtain ⟨s, f1, f2, f3, f4⟩ := loop_spec (niter := niter.getD (3 * n)) (niter.getD (3 * n) + 1).toNat _ hi (by
    simp only; omega)
  refine ⟨s.clean, s.residuals, s.i, pk.maxx, pk.maxy, ?_, e2, f2.1, f3, ?_⟩
  · unfold hogbomClean
    dsimp only
    rw [if_neg (by omega), if_neg (by omega), e1]
    dsimp only
    rw [← e3] at f1
    cases t <;> (erw [f1])
  · rcases f4 with f4 | f4
    · refine Or.inl ⟨s.p, s.q, f2.2.1, ?_⟩
      rw [← f2.2.2]; exact f4
    · exact Or.inr f4

/-- The model accounts for the difference between dirty image and residual after any number of rounds. -/
private theorem CleanRun.account {n : Nat} {psf : Nat → Nat → K} {gamma threshold : K} {dirty : Nat → Nat → K} {k : Nat}
    {clean residual : Nat → Nat → K} (h : CleanRun n psf gamma threshold dirty k clean residual) (x y : Nat)
    (hx : x < n) (hy : y < n) :
    residual x y + ∑ p ∈ Finset.range n, ∑ q ∈ Finset.range n,
      clean p q * psf (x + (n - 1) - p) (y + (n - 1) - q) = dirty x y := by
  obtain ⟨R, C, P, Q, h0, h1, h2, h3, h4⟩ := h
  rw [← h2, ← h3, ← h0]
  have : ∀ j ≤ k, R j x y + ∑ p ∈ Finset.range n, ∑ q ∈ Finset.range n,
      C j p q * psf (x + (n - 1) - p) (y + (n - 1) - q) = R 0 x y := by
    intro j
    induction j with
    | zero => intro _; simp [h1]
    | succ j ih =>
      intro hj
      obtain ⟨a1, _, a3, a4⟩ := h4 j (by omega)
      rw [← ih (by omega), a4 x hx y hy]
      simp only [a3, add_mul, Finset.sum_add_distrib]
      have : ∑ p ∈ Finset.range n, ∑ q ∈ Finset.range n,
          (if p = P j ∧ q = Q j then gamma * R j (P j) (Q j) else 0) * psf (x + (n - 1) - p) (y + (n - 1) - q) =
          gamma * R j (P j) (Q j) * psf (x + (n - 1) - P j) (y + (n - 1) - Q j) := by
        rw [Finset.sum_eq_single (P j)]
        · rw [Finset.sum_eq_single (Q j)]
          · simp
          · intro q _ hq; simp [hq]
          · intro hq; exact absurd (Finset.mem_range.mpr a1.2.1) hq
        · intro p _ hp; simp [hp]
        · intro hp; exact absurd (Finset.mem_range.mpr a1.1) hp
      rw [this]
      ring
  exact this k le_rfl

/-- **C83**: for every square dirty image with at least one pixel, every psf of twice the size, gain, threshold and
iteration limit, `hogbom_clean` returns, and at every pixel the residual plus the model convolved with the psf (centred at
`(n - 1, n - 1)`) is the dirty image. -/
theorem C83_accounts_for_dirty (n : Nat) (hn : 0 < n) (dirty psf : Nat → Nat → K) (gamma : K) (t : Option K)
    (niter : Option Int) :
    ∃ clean residual, hogbomClean n n (2 * n) (2 * n) dirty psf gamma t niter = .ok (clean, residual) ∧
      ∀ x < n, ∀ y < n, residual x y + ∑ p ∈ Finset.range n, ∑ q ∈ Finset.range n,
        clean p q * psf (x + (n - 1) - p) (y + (n - 1) - q) = dirty x y := by
  obtain ⟨clean, residual, k, p, q, e1, _, e2, _, _⟩ := hogbom_spec n hn dirty psf gamma t niter
  exact ⟨clean, residual, e1, fun x hx y hy => e2.account x y hx hy⟩

/-- **C83**: images of other shapes are rejected: `ValueError` if the psf is not twice as large, `AssertionError` if the
image is not square, `ValueError` if it is empty. -/
theorem C83_rejects (nx ny px py : Nat) (dirty psf : Nat → Nat → K) (gamma : K) (t : Option K) (niter : Option Int) :
    (px ≠ 2 * nx ∨ py ≠ 2 * ny → hogbomClean nx ny px py dirty psf gamma t niter = .error .valueError) ∧
    (nx ≠ ny → hogbomClean nx ny (2 * nx) (2 * ny) dirty psf gamma t niter = .error .assertionError) ∧
    hogbomClean 0 0 0 0 dirty psf gamma t niter = .error .valueError := by
  refine ⟨fun h => ?_, fun h => ?_, ?_⟩
  · unfold hogbomClean; dsimp only; rw [if_pos h]
  · unfold hogbomClean; dsimp only; rw [if_neg (by omega), if_pos h]
  · unfold hogbomClean; dsimp only; rw [if_neg (by omega), if_neg (by omega)]; rfl

/-- **C84** (partial: the limit is `niter + 1`, see `C84_violated`). The result of `hogbom_clean` is that of `k` rounds of
CLEAN, `k` at most `niter + 1` (by default `3 n + 1`), each removing a component at the pixel where the residual is
largest, while that value exceeds the threshold (a fraction, by default one fifth, of the first peak) in absolute value;
unless `k` is `niter + 1` or more the largest value of the residual is at most the threshold in absolute value. -/
theorem C84_rounds_partial (n : Nat) (hn : 0 < n) (dirty psf : Nat → Nat → K) (gamma : K) (t : Option K)
    (niter : Option Int) :
    ∃ clean residual k p q, hogbomClean n n (2 * n) (2 * n) dirty psf gamma t niter = .ok (clean, residual) ∧
      IsLargestAt n n dirty p q ∧ CleanRun n psf gamma (t.getD (1 / 5) * |dirty p q|) dirty k clean residual ∧
      (k : Int) ≤ max (niter.getD (3 * n) + 1) 0 ∧
      ((∃ p' q', IsLargestAt n n residual p' q' ∧ |residual p' q'| ≤ t.getD (1 / 5) * |dirty p q|) ∨
        niter.getD (3 * n) + 1 ≤ (k : Int)) :=
  hogbom_spec n hn dirty psf gamma t niter

/-- Loop on the one-pixel image whose psf is zero: `fuel` rounds, each adding `1/2`. -/
private theorem stuck_loop (niter : Int) (fuel : Nat) : ∀ (s : CleanState ℚ), s.residuals 0 0 = 1 → s.p = 0 → s.q = 0 →
    s.intensity = 1 → (fuel : Int) = niter + 1 - s.i →
    ∃ s', cleanLoop 1 (fun _ _ => 0) (1 / 2) (1 / 5) niter fuel s = .ok s' ∧
      s'.clean 0 0 = s.clean 0 0 + fuel * (1 / 2) := by
  induction fuel with
  | zero => intro s _ _ _ _ _; exact ⟨s, rfl, by simp⟩
  | succ fuel ih =>
    intro s h1 h2 h3 h4 h5
    rw [cleanLoop, if_pos ⟨by rw [h4]; norm_num, by push_cast at h5; omega⟩]
    obtain ⟨pk, e1, e2, _, e3, _⟩ := findPeak_spec 1 1
      (updateResidual s.residuals s.intensity (1 / 2) s.p s.q 1 (fun _ _ => (0 : ℚ))) (by omega) (by omega)
    have hp : pk.maxx = 0 := by have := e2.1; omega
    have hq : pk.maxy = 0 := by have := e2.2.1; omega
    have hr : updateResidual s.residuals s.intensity (1 / 2) s.p s.q 1 (fun _ _ => (0 : ℚ)) 0 0 = 1 := by
      simp [updateResidual, h1]
    have hs : cleanStep 1 (fun _ _ => (0 : ℚ)) (1 / 2) s = .ok ⟨buildCleanmap s.clean s.intensity (1 / 2) s.p s.q,
        updateResidual s.residuals s.intensity (1 / 2) s.p s.q 1 (fun _ _ => (0 : ℚ)), pk.maxx, pk.maxy, pk.intensity,
        s.i + 1⟩ := by
      unfold cleanStep
      dsimp only
      rw [e1]
    rw [hs]
    obtain ⟨s', f1, f2⟩ := ih ⟨buildCleanmap s.clean s.intensity (1 / 2) s.p s.q,
        updateResidual s.residuals s.intensity (1 / 2) s.p s.q 1 (fun _ _ => (0 : ℚ)), pk.maxx, pk.maxy, pk.intensity,
        s.i + 1⟩ hr hp hq (by simp only; rw [e3, hp, hq, hr]) (by push_cast; push_cast at h5; omega)
    refine ⟨s', f1, ?_⟩
    rw [f2]
    simp only [buildCleanmap, h2, h3, h4]
    push_cast
    simp
    ring

/-- **C84** refuted: for every limit `niter` there is an image from which `hogbom_clean` subtracts `niter + 1` components
(here a one-pixel image whose psf vanishes, so that the peak never drops: the model is `(niter + 1) * gamma`). -/
theorem C84_violated (niter : Nat) :
    ∃ (dirty psf : Nat → Nat → ℚ) (clean residual : Nat → Nat → ℚ),
      hogbomClean 1 1 2 2 dirty psf (1 / 2) none (some (niter : Int)) = .ok (clean, residual) ∧
      (∀ x < 1, ∀ y < 1, dirty x y = 1) ∧ clean 0 0 = (niter + 1 : Nat) * (1 / 2) := by
  obtain ⟨pk, e1, e2, _, e3, _⟩ := findPeak_spec 1 1 (fun _ _ => (1 : ℚ)) (by omega) (by omega)
  have hp : pk.maxx = 0 := by have := e2.1; omega
  have hq : pk.maxy = 0 := by have := e2.2.1; omega
  obtain ⟨s, f1, f2⟩ := stuck_loop niter (niter + 1) ⟨fun _ _ => 0, fun _ _ => 1, pk.maxx, pk.maxy, pk.intensity, 0⟩
    rfl hp hq e3 (by simp)
  refine ⟨fun _ _ => 1, fun _ _ => 0, s.clean, s.residuals, ?_, fun _ _ _ _ => rfl, ?_⟩
  · unfold hogbomClean
    dsimp only
    rw [if_neg (by omega), if_neg (by omega), e1]
    dsimp only
    have ht : (1 / 5 : ℚ) * |pk.intensity| = 1 / 5 := by rw [e3]; norm_num
    rw [ht, Option.getD_some, show ((niter : Int) + 1).toNat = niter + 1 by omega, f1]
  · rw [f2]; simp

/-- Non-vacuity of C83 and C84: two rounds on a 2 x 2 image leave a non-zero model. -/
example : (hogbomClean 2 2 4 4 (fun x y => if x = 0 ∧ y = 1 then (4 : ℚ) else 1) (fun x y => if x = 1 ∧ y = 1 then 1 else 0)
    (1 / 2) none (some 1)).map (fun r => (r.1 0 1, r.2 0 1)) = .ok (3, 1) := by decide +kernel

end Verif.Deconv
