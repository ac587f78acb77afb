/-
C191: the visibilities of all pairs of antennas of an array that looks at a sky without negative brightness.
-/
import Verif.Dft.Props
import Verif.Rime.PropsTerms
import Verif.Rime.Props
import Verif.Gps.Props
import Mathlib.Analysis.Matrix.Order
import Mathlib.Analysis.Matrix.PosDef

set_option autoImplicit false

namespace Verif.Dft

open Verif.Rime (delay gaussianFactor sourceVis wsPredictCell WsSource)
open Finset (range)
open scoped ComplexConjugate ComplexOrder

/-! ### Specification -/

/-- Specification: the rows `row a b` are the baselines between antennas at `x`: from `b` to `a`. -/
def Baselines {n : Nat} (nrow : Nat) (uvw : Nat → ℝ × ℝ × ℝ) (x : Fin n → ℝ × ℝ × ℝ) (row : Fin n → Fin n → Nat) : Prop :=
  ∀ a b, row a b < nrow ∧ uvw (row a b) = x a - x b

/-- Specification: the `2 n` by `2 n` matrix of the correlations between the two feeds of all antennas, from the 2x2 matrices of
all pairs of antennas. -/
def blocks {n : Nat} (X : Fin n → Fin n → Rime.M2 ℂ) : Matrix (Fin n × Fin 2) (Fin n × Fin 2) ℂ :=
  Matrix.of fun p q => X p.1 q.1 p.2 q.2

/-! ### Lemmas -/

private theorem delay_sub (sg l m nu : ℝ) (p q : ℝ × ℝ × ℝ) :
    delay sg l m (p - q).1 (p - q).2.1 (p - q).2.2 nu =
      delay sg l m p.1 p.2.1 p.2.2 nu * conj (delay sg l m q.1 q.2.1 q.2.2 nu) := by
  unfold delay
  rw [← Complex.exp_conj, map_mul, Complex.conj_I, Complex.conj_ofReal, ← Complex.exp_add]
  congr 1
  simp only [Prod.fst_sub, Prod.snd_sub]
  push_cast
  ring

open scoped MatrixOrder in
private theorem real_psd {n : Nat} (K : Fin n → Fin n → ℝ) (hsym : ∀ a b, K a b = K b a)
    (hpos : ∀ d : Fin n → ℝ, 0 ≤ ∑ a, ∑ b, d a * d b * K a b) :
    (Matrix.of fun a b => (K a b : ℂ)).PosSemidef := by
  have hps : (Matrix.of K).PosSemidef := by
    rw [Matrix.posSemidef_iff_dotProduct_mulVec]
    refine ⟨?_, fun x => ?_⟩
    · ext a b
      exact hsym b a
    · refine (hpos x).trans (le_of_eq ?_)
      refine Finset.sum_congr rfl fun a _ => ?_
      rw [Matrix.mulVec, dotProduct, Finset.mul_sum]
      refine Finset.sum_congr rfl fun b _ => ?_
      simp
      ring
  obtain ⟨B, hB⟩ := CStarAlgebra.nonneg_iff_eq_star_mul_self.mp hps.nonneg
  have e : (Matrix.of fun a b => (K a b : ℂ)) = (B.map Complex.ofReal).conjTranspose * B.map Complex.ofReal := by
    ext a b
    have := congrFun (congrFun hB a) b
    rw [Matrix.mul_apply] at this
    rw [Matrix.mul_apply, Matrix.of_apply, show K a b = _ from this]
    push_cast
    refine Finset.sum_congr rfl fun k _ => ?_
    simp [Matrix.star_apply]
  rw [e]
  exact Matrix.posSemidef_conjTranspose_mul_self _

private theorem phased_psd {n : Nat} (K : Fin n → Fin n → ℝ) (hsym : ∀ a b, K a b = K b a)
    (hpos : ∀ d : Fin n → ℝ, 0 ≤ ∑ a, ∑ b, d a * d b * K a b) (z : Fin n → ℂ) :
    (Matrix.of fun a b => z a * conj (z b) * (K a b : ℂ)).PosSemidef := by
  have h := (real_psd K hsym hpos).mul_mul_conjTranspose_same (Matrix.diagonal z)
  convert h using 1
  ext a b
  rw [Matrix.diagonal_conjTranspose, Matrix.mul_diagonal, Matrix.diagonal_mul]
  simp
  ring

private theorem sum_psd {n : Nat} (N : Nat) (T : Nat → Fin n → Fin n → ℂ) (h : ∀ s < N, (Matrix.of (T s)).PosSemidef) :
    (Matrix.of fun a b => ∑ s ∈ range N, T s a b).PosSemidef := by
  induction N with
  | zero =>
    have : (Matrix.of fun (a b : Fin n) => ∑ s ∈ range 0, T s a b) = 0 := by
      ext a b
      simp
    rw [this]
    exact Matrix.PosSemidef.zero
  | succ N ih =>
    have : (Matrix.of fun a b => ∑ s ∈ range (N + 1), T s a b) =
        (Matrix.of fun a b => ∑ s ∈ range N, T s a b) + Matrix.of (T N) := by
      ext a b
      simp [Finset.sum_range_succ]
    rw [this]
    exact (ih fun s hs => h s (by omega)).add (h N (by omega))

private theorem flux_psd {n : Nat} (F : ℝ) (hF : 0 ≤ F) (d : Fin n → ℝ) : 0 ≤ ∑ a, ∑ b, d a * d b * F := by
  have : ∑ a, ∑ b, d a * d b * F = (∑ a, d a) * (∑ a, d a) * F := by
    rw [Finset.sum_mul_sum, Finset.sum_mul]
    exact Finset.sum_congr rfl fun a _ => (Finset.sum_mul ..).symm
  rw [this]
  exact mul_nonneg (mul_self_nonneg _) hF

private theorem gaussian_psd {n : Nat} (emaj emin angle nu : ℝ) (x : Fin n → ℝ × ℝ × ℝ) (d : Fin n → ℝ) :
    0 ≤ ∑ a, ∑ b, d a * d b * gaussianFactor emaj emin angle (x a - x b).1 (x a - x b).2.1 nu := by
  set c : ℝ := 2 * Real.pi ^ 2 / (8 * Real.log 2) with hc
  have hc0 : 0 ≤ 2 * c := by
    have : 0 < Real.log 2 := Real.log_pos (by norm_num)
    positivity
  set k : ℝ := Real.sqrt (2 * c) with hk
  have hkk : k * k = 2 * c := Real.mul_self_sqrt hc0
  set p : Fin n → ℝ := fun a => emaj * (((x a).1 * Real.sin angle + (x a).2.1 * Real.cos angle) * nu / 299792458)
  set q : Fin n → ℝ := fun a => emin * (((x a).1 * Real.cos angle - (x a).2.1 * Real.sin angle) * nu / 299792458)
  have h := Verif.Gps.exp_psd (Finset.univ : Finset (Fin n)) (Finset.univ : Finset (Fin 2))
    (fun a => ![k * p a, k * q a]) (fun a => d a * Real.exp (-(c * (p a ^ 2 + q a ^ 2))))
  refine h.trans (le_of_eq ?_)
  refine Finset.sum_congr rfl fun a _ => Finset.sum_congr rfl fun b _ => ?_
  have e : gaussianFactor emaj emin angle (x a - x b).1 (x a - x b).2.1 nu =
      Real.exp (-(c * ((p a - p b) ^ 2 + (q a - q b) ^ 2))) := by
    unfold gaussianFactor
    dsimp only
    rw [← hc]
    congr 3
    simp only [p, q, Prod.fst_sub, Prod.snd_sub]
    ring
  rw [e, Fin.sum_univ_two]
  dsimp only [Matrix.cons_val_zero, Matrix.cons_val_one]
  rw [show d a * Real.exp (-(c * (p a ^ 2 + q a ^ 2))) * (d b * Real.exp (-(c * (p b ^ 2 + q b ^ 2)))) *
      Real.exp (k * p a * (k * p b) + k * q a * (k * q b)) = d a * d b *
        (Real.exp (-(c * (p a ^ 2 + q a ^ 2))) * Real.exp (-(c * (p b ^ 2 + q b ^ 2))) *
      Real.exp (k * p a * (k * p b) + k * q a * (k * q b))) by ring, ← Real.exp_add, ← Real.exp_add]
  congr 2
  linear_combination (p a * p b + q a * q b) * hkk

private theorem blocks_jones {n : Nat} {X : Fin n → Fin n → Rime.M2 ℂ} (h : (blocks X).PosSemidef) (E : Fin n → Rime.M2 ℂ) :
    (blocks fun a b => E a * X a b * star (E b)).PosSemidef := by
  have := h.mul_mul_conjTranspose_same (Matrix.of fun p q : Fin n × Fin 2 => if p.1 = q.1 then E p.1 p.2 q.2 else 0)
  convert this using 1
  ext ⟨a, i⟩ ⟨b, j⟩
  simp [blocks, Matrix.mul_apply, Fintype.sum_prod_type, Fin.sum_univ_two, Matrix.star_apply, Matrix.conjTranspose_apply,
    apply_ite]

private theorem blocks_add {n : Nat} {X Y : Fin n → Fin n → Rime.M2 ℂ} (h : (blocks X).PosSemidef) (h' : (blocks Y).PosSemidef) :
    (blocks fun a b => X a b + Y a b).PosSemidef := by
  have := h.add h'
  convert this using 1
  ext p q
  rfl

private theorem blocks_zero {n : Nat} : (blocks fun _ _ : Fin n => (0 : Rime.M2 ℂ)).PosSemidef := by
  have : (blocks fun _ _ : Fin n => (0 : Rime.M2 ℂ)) = 0 := by
    ext p q
    simp [blocks]
  rw [this]
  exact Matrix.PosSemidef.zero

private theorem blocks_sum {n : Nat} (N : Nat) (T : Nat → Fin n → Fin n → Rime.M2 ℂ) (h : ∀ s < N, (blocks (T s)).PosSemidef) :
    (blocks fun a b => ∑ s ∈ range N, T s a b).PosSemidef := by
  induction N with
  | zero => simpa using blocks_zero
  | succ N ih =>
    simp only [Finset.sum_range_succ]
    exact blocks_add (ih fun s hs => h s (by omega)) (h N (by omega))

/-! ### Theorems -/

/-- **C191**: `im_to_vis` of an image without negative pixels, at the baselines between any antennas, is a Hermitian positive
semi-definite matrix of visibilities: whatever weights the antennas are added with, the power is not negative. -/
theorem C191_im_to_vis {n : Nat} (nrow nsrc nchan ncorr : Nat) (image : Nat → Nat → Nat → ℝ) (uvw : Nat → ℝ × ℝ × ℝ)
    (lm : Nat → ℝ × ℝ) (freq : Nat → ℝ) (convention : String) (hc : convention = "fourier" ∨ convention = "casa")
    (hlm : ∀ s < nsrc, (lm s).1 ^ 2 + (lm s).2 ^ 2 ≤ 1) (x : Fin n → ℝ × ℝ × ℝ) (row : Fin n → Fin n → Nat)
    (hb : Baselines nrow uvw x row) (f c : Nat) (hf : f < nchan) (hcc : c < ncorr) (hpos : ∀ s < nsrc, 0 ≤ image s f c) :
    ∃ V, imToVis nrow nsrc nchan ncorr (fun s f c => (image s f c : ℂ)) uvw lm freq convention = .ok V ∧
      (Matrix.of fun a b => V (row a b) f c).PosSemidef := by
  obtain ⟨sg, hsg⟩ : ∃ sg, Sign convention sg := by
    rcases hc with h | h
    · exact ⟨-1, Or.inl ⟨h, rfl⟩⟩
    · exact ⟨1, Or.inr ⟨h, rfl⟩⟩
  obtain ⟨V, hV, eV⟩ := C86_im_to_vis nrow nsrc nchan ncorr (fun s f c => (image s f c : ℂ)) uvw lm freq convention sg hsg hlm
  refine ⟨V, hV, ?_⟩
  have := sum_psd nsrc (fun s (a b : Fin n) => delay sg (lm s).1 (lm s).2 (x a).1 (x a).2.1 (x a).2.2 (freq f) *
    conj (delay sg (lm s).1 (lm s).2 (x b).1 (x b).2.1 (x b).2.2 (freq f)) * ((image s f c : ℝ) : ℂ))
    fun s hs => phased_psd (fun _ _ => image s f c) (fun _ _ => rfl) (flux_psd _ (hpos s hs)) _
  convert this using 1
  ext a b
  rw [Matrix.of_apply, Matrix.of_apply, eV _ (hb a b).1 f hf c hcc, (hb a b).2]
  exact Finset.sum_congr rfl fun s _ => by rw [delay_sub]

/-- **C191**: the same for the prediction of a list of WSClean sources, point or Gaussian, of non-negative flux. -/
theorem C191_wsclean {n : Nat} (src : Nat → WsSource) (nsrc : Nat)
    (ht : ∀ s < nsrc, (src s).sourceType = "POINT" ∨ (src s).sourceType = "GAUSSIAN")
    (hg : ∀ s < nsrc, (src s).emaj = 0 → (src s).emin = 0) (freq : ℝ) (f : Nat) (hpos : ∀ s < nsrc, 0 ≤ (src s).spectrum f)
    (x : Fin n → ℝ × ℝ × ℝ) :
    ∃ V : Fin n → Fin n → ℂ, (∀ a b, wsPredictCell (x a - x b) freq f src nsrc = .ok (V a b)) ∧
      (Matrix.of V).PosSemidef := by
  refine ⟨_, fun a b => Verif.Rime.C40_sum _ _ _ _ _ ht hg, ?_⟩
  refine sum_psd nsrc (fun s a b => sourceVis (x a - x b) freq f (src s)) fun s hs => ?_
  set K : Fin n → Fin n → ℝ := fun a b => (src s).spectrum f * (if (src s).sourceType = "GAUSSIAN" then
    gaussianFactor (src s).emaj (src s).emin (src s).angle (x a - x b).1 (x a - x b).2.1 freq else 1) with hK
  have hsym : ∀ a b, K a b = K b a := by
    intro a b
    rw [hK]
    dsimp only
    congr 2
    unfold gaussianFactor
    dsimp only
    congr 3
    simp only [Prod.fst_sub, Prod.snd_sub]
    ring
  have hp : ∀ d : Fin n → ℝ, 0 ≤ ∑ a, ∑ b, d a * d b * K a b := by
    intro d
    by_cases h : (src s).sourceType = "GAUSSIAN"
    · have : ∑ a, ∑ b, d a * d b * K a b = (src s).spectrum f * ∑ a, ∑ b, d a * d b *
          gaussianFactor (src s).emaj (src s).emin (src s).angle (x a - x b).1 (x a - x b).2.1 freq := by
        rw [Finset.mul_sum]
        refine Finset.sum_congr rfl fun a _ => ?_
        rw [Finset.mul_sum]
        refine Finset.sum_congr rfl fun b _ => ?_
        rw [hK]
        dsimp only
        rw [if_pos h]
        ring
      rw [this]
      exact mul_nonneg (hpos s hs) (gaussian_psd ..)
    · refine (flux_psd _ (hpos s hs) d).trans (le_of_eq ?_)
      refine Finset.sum_congr rfl fun a _ => Finset.sum_congr rfl fun b _ => ?_
      rw [hK]
      dsimp only
      rw [if_neg h, mul_one]
  have := phased_psd K hsym hp fun a => delay 1 (src s).l (src s).m (x a).1 (x a).2.1 (x a).2.2 freq
  convert this using 1
  ext a b
  rw [Matrix.of_apply, Matrix.of_apply, sourceVis, delay_sub, hK]
  dsimp only
  push_cast
  split_ifs <;> push_cast <;> ring

/-- **C191**: a source of brightness `B` (a positive semi-definite 2x2 matrix) seen with the phase delays of the baselines has
positive semi-definite coherencies. -/
theorem C191_source {n : Nat} (B : Rime.M2 ℂ) (hB : B.PosSemidef) (sg l m nu : ℝ) (x : Fin n → ℝ × ℝ × ℝ) :
    (blocks fun a b => delay sg l m (x a - x b).1 (x a - x b).2.1 (x a - x b).2.2 nu • B).PosSemidef := by
  have := (hB.mul_mul_conjTranspose_same (Matrix.of fun (p : Fin n × Fin 2) (k : Fin 2) =>
    if p.2 = k then delay sg l m (x p.1).1 (x p.1).2.1 (x p.1).2.2 nu else 0))
  convert this using 1
  ext ⟨a, i⟩ ⟨b, j⟩
  simp only [blocks, Matrix.of_apply, Matrix.smul_apply, delay_sub, Matrix.mul_apply, Fin.sum_univ_two, Matrix.conjTranspose_apply]
  fin_cases i <;> fin_cases j <;> simp <;> ring

/-- **C191**: `predict_vis` keeps it: if the coherencies of every source and the base visibilities of all pairs of antennas at one
time make positive semi-definite matrices, so do the visibilities, whatever the direction dependent and independent Jones
terms of the antennas. -/
theorem C191_predict {n : Nat} (nsrc nrow nchan : Nat) (time ant1 ant2 : Nat → Nat) (tmin : Nat)
    (hm : Rime.IsMin nrow time tmin) (dde : Option (Nat → Nat → Nat → Nat → Rime.M2 ℂ))
    (coh : Nat → Nat → Nat → Rime.M2 ℂ) (die : Option (Nat → Nat → Nat → Rime.M2 ℂ)) (bvis : Option (Nat → Nat → Rime.M2 ℂ))
    (t : Nat) (ant : Fin n → Nat) (row : Fin n → Fin n → Nat)
    (hrow : ∀ a b, row a b < nrow ∧ time (row a b) = t ∧ ant1 (row a b) = ant a ∧ ant2 (row a b) = ant b)
    (f : Nat) (hf : f < nchan) (hcoh : ∀ s < nsrc, (blocks fun a b => coh s (row a b) f).PosSemidef)
    (hbvis : ∀ B, bvis = some B → (blocks fun a b => B (row a b) f).PosSemidef) :
    ∃ vis, Rime.predictVis Rime.fullKernel nsrc nrow nchan time ant1 ant2
        ⟨dde.map fun e => (e, e), some coh, die.map fun g => (g, g), bvis⟩ = .ok vis ∧
      (blocks fun a b => vis (row a b) f).PosSemidef := by
  obtain ⟨vis, h1, h2⟩ := Rime.C34_predict_full nsrc nrow nchan time ant1 ant2 tmin hm
    ⟨dde.map fun e => (e, e), some coh, die.map fun g => (g, g), bvis⟩ (by simp)
  refine ⟨vis, h1, ?_⟩
  set E : Nat → Fin n → Rime.M2 ℂ := fun s a => dde.elim 1 fun e => e s (t - tmin) (ant a) f with hE
  set G : Fin n → Rime.M2 ℂ := fun a => die.elim 1 fun g => g (t - tmin) (ant a) f with hG
  have key := blocks_jones (blocks_add (X := fun a b => (bvis.map fun B => B (row a b) f).getD 0) (by
      cases bvis with
      | none => simpa using blocks_zero
      | some B => exact hbvis B rfl)
    (blocks_sum nsrc (fun s a b => E s a * coh s (row a b) f * star (E s b)) fun s hs => blocks_jones (hcoh s hs) (E s))) G
  convert key using 2
  ext a b : 2
  obtain ⟨r1, r2, r3, r4⟩ := hrow a b
  rw [h2 _ r1 f hf]
  simp only [Rime.rime, r2, r3, r4, hE, hG]
  cases dde <;> cases die <;> cases bvis <;> simp

/-- **C191**: what a negative pixel would do: a sky of one negative pixel has an array with negative power, so that the
hypothesis on the brightness is needed. -/
theorem C191_negative (uvw : Nat → ℝ × ℝ × ℝ) (lm : Nat → ℝ × ℝ) (freq : Nat → ℝ) (convention : String)
    (hc : convention = "fourier" ∨ convention = "casa") (hlm : ∀ s < 1, (lm s).1 ^ 2 + (lm s).2 ^ 2 ≤ 1)
    (h0 : uvw 0 = 0) (F : ℝ) (hF : F < 0) :
    ∃ V, imToVis 1 1 1 1 (fun _ _ _ => (F : ℂ)) uvw lm freq convention = .ok V ∧
      ¬ (Matrix.of fun _ _ : Fin 1 => V 0 0 0).PosSemidef := by
  obtain ⟨sg, hsg⟩ : ∃ sg, Sign convention sg := by
    rcases hc with h | h
    · exact ⟨-1, Or.inl ⟨h, rfl⟩⟩
    · exact ⟨1, Or.inr ⟨h, rfl⟩⟩
  obtain ⟨V, hV, eV⟩ := C86_im_to_vis 1 1 1 1 (fun _ _ _ => (F : ℂ)) uvw lm freq convention sg hsg hlm
  refine ⟨V, hV, fun h => ?_⟩
  have hv : V 0 0 0 = F := by
    rw [eV 0 (by decide) 0 (by decide) 0 (by decide), Finset.sum_range_one, h0]
    simp [delay]
  have := h.diag_nonneg (i := 0)
  rw [Matrix.of_apply, hv] at this
  have := (Complex.le_def.1 this).1
  simp at this
  linarith

/-- Three antennas, their nine baselines and a sky of two pixels meet the hypotheses. -/
example : ∃ (uvw : Nat → ℝ × ℝ × ℝ) (x : Fin 3 → ℝ × ℝ × ℝ) (row : Fin 3 → Fin 3 → Nat) (lm : Nat → ℝ × ℝ)
    (image : Nat → Nat → Nat → ℝ), Baselines 9 uvw x row ∧ (∀ s < 2, (lm s).1 ^ 2 + (lm s).2 ^ 2 ≤ 1) ∧
      (∀ s < 2, 0 < image s 0 0) ∧ ∀ a b, a ≠ b → uvw (row a b) ≠ 0 := by
  refine ⟨fun r => (((r / 3 : Nat) : ℝ) - ((r % 3 : Nat) : ℝ), 0, 0), fun a => ((a.1 : ℝ), 0, 0), fun a b => 3 * a.1 + b.1,
    fun s => (s / 2, 0), fun s _ _ => s + 1, ?_, ?_, ?_, ?_⟩
  · intro a b
    have e1 : (3 * a.1 + b.1) / 3 = a.1 := by omega
    have e2 : (3 * a.1 + b.1) % 3 = b.1 := by omega
    refine ⟨show 3 * a.1 + b.1 < 9 by omega, ?_⟩
    dsimp only
    rw [e1, e2]
    simp
  · intro s hs
    have : s = 0 ∨ s = 1 := by omega
    rcases this with rfl | rfl <;> norm_num
  · intro s _
    positivity
  · intro a b hab h
    have e1 : (3 * a.1 + b.1) / 3 = a.1 := by omega
    have e2 : (3 * a.1 + b.1) % 3 = b.1 := by omega
    dsimp only at h
    rw [e1, e2] at h
    have := congrArg Prod.fst h
    simp only [Prod.fst_zero, sub_eq_zero, Nat.cast_inj] at this
    exact hab (Fin.ext this)

end Verif.Dft
