/-
C171: the coherency matrices of Stokes parameters, and what predictions do to them.
-/
import Verif.ModelData.CoherencyProps
import Verif.Rime.Props
import Mathlib.Analysis.Matrix.PosDef
import Mathlib.Analysis.Real.Sqrt
import Mathlib.LinearAlgebra.UnitaryGroup
import Mathlib.LinearAlgebra.Matrix.Determinant.Basic
import Mathlib.Tactic.LinearCombination
import Mathlib.Tactic.Positivity

set_option autoImplicit false

namespace Verif.ModelData

open Matrix ComplexOrder

/-- The matrix `[[a, b], [c, d]]` of four values of an array (a specification for model/coherency/conversion.py:164-172). -/
noncomputable def matrixOf (x : List Nat → Option ℂ) (p11 p12 p21 p22 : List Nat) : Matrix (Fin 2) (Fin 2) ℂ :=
  !![(x p11).getD 0, (x p12).getD 0; (x p21).getD 0, (x p22).getD 0]

/-- Specification: Stokes parameters of light, no more of which is polarised than there is
(a specification for model/coherency/conversion.py:164-172). -/
def Physical (I Q U V : ℝ) : Prop := 0 ≤ I ∧ Q ^ 2 + U ^ 2 + V ^ 2 ≤ I ^ 2

/-- The change from linear to circular feeds (a specification for model/coherency/conversion.py:164-172). -/
noncomputable def toCircular : Matrix (Fin 2) (Fin 2) ℂ :=
  ((Real.sqrt 2)⁻¹ : ℂ) • !![1, Complex.I; 1, -Complex.I]

private theorem sqrt_two : ((Real.sqrt 2 : ℝ) : ℂ) * ((Real.sqrt 2 : ℝ) : ℂ) = 2 := by
  rw [← Complex.ofReal_mul, Real.mul_self_sqrt (by norm_num)]; norm_num

private theorem inv_sqrt_two : ((Real.sqrt 2 : ℝ) : ℂ)⁻¹ * ((Real.sqrt 2 : ℝ) : ℂ)⁻¹ = 1 / 2 := by
  rw [← mul_inv, sqrt_two]; norm_num

/-- A Hermitian matrix with diagonal `i ± q` and corner `u + v i` is positive semi-definite exactly for physical values. -/
private theorem psd_iff (i q u v : ℝ) :
    (!![(i + q : ℂ), u + v * Complex.I; u - v * Complex.I, i - q]).PosSemidef ↔ Physical i q u v := by
  constructor
  · intro h
    have ht := h.trace_nonneg
    have hd := h.det_nonneg
    rw [trace_fin_two] at ht
    rw [det_fin_two] at hd
    simp only [of_apply, cons_val', cons_val_zero, cons_val_one, cons_val_fin_one] at ht hd
    have e1 : ((i : ℂ) + q + (i - q)) = ((2 * i : ℝ) : ℂ) := by push_cast; ring
    have e2 : ((i : ℂ) + q) * (i - q) - (u + v * Complex.I) * (u - v * Complex.I) =
        ((i ^ 2 - (q ^ 2 + u ^ 2 + v ^ 2) : ℝ) : ℂ) := by
      push_cast
      linear_combination (v : ℂ) ^ 2 * Complex.I_sq
    rw [e1, Complex.zero_le_real] at ht
    rw [e2, Complex.zero_le_real] at hd
    exact ⟨by linarith, by linarith⟩
  · rintro ⟨h1, h2⟩
    refine PosSemidef.of_dotProduct_mulVec_nonneg ?_ fun x => ?_
    · ext a b
      fin_cases a <;> fin_cases b <;> simp [conjTranspose_apply, sub_eq_add_neg]
    · have key : star x ⬝ᵥ ((!![(i + q : ℂ), u + v * Complex.I; u - v * Complex.I, i - q]) *ᵥ x) =
          (((i + q) * ((x 0).re ^ 2 + (x 0).im ^ 2) + (i - q) * ((x 1).re ^ 2 + (x 1).im ^ 2) +
            2 * (u * ((x 0).re * (x 1).re + (x 0).im * (x 1).im) -
              v * ((x 0).re * (x 1).im - (x 0).im * (x 1).re)) : ℝ) : ℂ) := by
        simp only [dotProduct, mulVec, Fin.sum_univ_two, of_apply, cons_val', cons_val_zero, cons_val_one, cons_val_fin_one,
          Pi.star_apply, RCLike.star_def]
        refine Complex.ext ?_ ?_
        · rw [Complex.ofReal_re]; simp; ring
        · rw [Complex.ofReal_im]; simp; ring
      rw [key, Complex.zero_le_real]
      generalize (x 0).re = a
      generalize (x 0).im = b
      generalize (x 1).re = c
      generalize (x 1).im = d
      have hq : -i ≤ q ∧ q ≤ i := by
        constructor <;> nlinarith [sq_nonneg u, sq_nonneg v]
      rcases eq_or_lt_of_le (by linarith [hq.1] : 0 ≤ i + q) with h0 | h0
      · have hqi : q = -i := by linarith
        subst hqi
        have hu : u = 0 := by nlinarith [sq_nonneg u, sq_nonneg v]
        have hv : v = 0 := by nlinarith [sq_nonneg u, sq_nonneg v]
        subst hu hv
        have : 0 ≤ c ^ 2 + d ^ 2 := by positivity
        nlinarith
      · refine nonneg_of_mul_nonneg_right (a := i + q) ?_ h0
        have : (i + q) * ((i + q) * (a ^ 2 + b ^ 2) + (i - q) * (c ^ 2 + d ^ 2) +
            2 * (u * (a * c + b * d) - v * (a * d - b * c))) =
            ((i + q) * a + u * c - v * d) ^ 2 + ((i + q) * b + u * d + v * c) ^ 2 +
              (i ^ 2 - (q ^ 2 + u ^ 2 + v ^ 2)) * (c ^ 2 + d ^ 2) := by ring
        rw [this]
        have : 0 ≤ i ^ 2 - (q ^ 2 + u ^ 2 + v ^ 2) := by linarith
        positivity

private theorem star_half : star ((Real.sqrt 2 : ℝ) : ℂ)⁻¹ = ((Real.sqrt 2 : ℝ) : ℂ)⁻¹ := by
  rw [star_inv₀, RCLike.star_def, Complex.conj_ofReal]

private theorem conj_core : (!![1, Complex.I; 1, -Complex.I])ᴴ = !![1, 1; -Complex.I, Complex.I] := by
  ext a b
  fin_cases a <;> fin_cases b <;> simp [conjTranspose_apply]

theorem circular_unitary : toCircular * toCircularᴴ = 1 := by
  unfold toCircular
  rw [conjTranspose_smul, smul_mul_smul_comm, star_half, inv_sqrt_two, conj_core]
  ext a b
  fin_cases a <;> fin_cases b <;> simp <;> norm_num

private theorem basis_change (i q u v : ℝ) :
    !![(i + v : ℂ), q + u * Complex.I; q - u * Complex.I, i - v] =
      toCircular * !![(i + q : ℂ), u + v * Complex.I; u - v * Complex.I, i - q] * toCircularᴴ := by
  unfold toCircular
  rw [conjTranspose_smul, smul_mul_assoc, smul_mul_smul_comm, star_half, inv_sqrt_two, conj_core]
  ext a b
  fin_cases a <;> fin_cases b <;> simp <;>
    refine Complex.ext ?_ ?_ <;> simp <;> ring

/-- **C171** Real Stokes parameters converted to linear and to circular correlations make two Hermitian matrices, each with
twice the intensity as its trace and `I² - Q² - U² - V²` as its determinant, which are positive semi-definite exactly for
physical parameters. They are one and the same matrix for the two kinds of feed: a unitary change of basis takes one to the
other. -/
theorem C171_coherency (lead : List Nat) (x : List Nat → ℂ) (il ml : List Schema)
    (ires mres : List (String × List Nat)) (ishape mshape : List Nat)
    (hi : elementIndices (.list il) = .ok (ires, ishape)) (hm : elementIndices (.list ml) = .ok (mres, mshape))
    (pI pQ pU pV : List Nat) (hI : Has il "I" pI) (hQ : Has il "Q" pQ) (hU : Has il "U" pU) (hV : Has il "V" pV)
    (I Q U V : ℝ) (eI : x pI = I) (eQ : x pQ = Q) (eU : x pU = U) (eV : x pV = V)
    (only : ∀ s p, Has ml s p → s ∈ ["XX", "XY", "YX", "YY", "RR", "RL", "LR", "LL"])
    (pXX pXY pYX pYY : List Nat) (hXX : Has ml "XX" pXX) (hXY : Has ml "XY" pXY) (hYX : Has ml "YX" pYX) (hYY : Has ml "YY" pYY)
    (pRR pRL pLR pLL : List Nat) (hRR : Has ml "RR" pRR) (hRL : Has ml "RL" pRL) (hLR : Has ml "LR" pLR)
    (hLL : Has ml "LL" pLL) :
    ∃ mid, convert (lead ++ ishape) x (.list il) (.list ml) = .ok mid ∧
      (∀ A ∈ [matrixOf mid pXX pXY pYX pYY, matrixOf mid pRR pRL pLR pLL],
        A.IsHermitian ∧ A.trace = 2 * I ∧ A.det = ((I ^ 2 - Q ^ 2 - U ^ 2 - V ^ 2 : ℝ) : ℂ) ∧
          (A.PosSemidef ↔ Physical I Q U V)) ∧
      toCircular * toCircularᴴ = 1 ∧
        matrixOf mid pRR pRL pLR pLL = toCircular * matrixOf mid pXX pXY pYX pYY * toCircularᴴ := by
  obtain ⟨mid, m0, m1, m2, m3, m4, m5, m6, m7, m8⟩ := corr_values (lead := lead) (x := x) hi hm hI hQ hU hV only ⟨_, _, hXX⟩
  have lin : matrixOf mid pXX pXY pYX pYY = !![(I + Q : ℂ), U + V * Complex.I; U - V * Complex.I, I - Q] := by
    unfold matrixOf
    rw [m1 _ hXX, m2 _ hXY, m3 _ hYX, m4 _ hYY, eI, eQ, eU, eV]
    rfl
  have cir : matrixOf mid pRR pRL pLR pLL = !![(I + V : ℂ), Q + U * Complex.I; Q - U * Complex.I, I - V] := by
    unfold matrixOf
    rw [m5 _ hRR, m6 _ hRL, m7 _ hLR, m8 _ hLL, eI, eQ, eU, eV]
    rfl
  have basis : matrixOf mid pRR pRL pLR pLL = toCircular * matrixOf mid pXX pXY pYX pYY * toCircularᴴ := by
    rw [lin, cir, basis_change]
  refine ⟨mid, m0, fun A hA => ?_, circular_unitary, basis⟩
  have main : ∀ i q u v : ℝ, i ^ 2 - q ^ 2 - u ^ 2 - v ^ 2 = I ^ 2 - Q ^ 2 - U ^ 2 - V ^ 2 → i = I →
      (Physical i q u v ↔ Physical I Q U V) → A = !![(i + q : ℂ), u + v * Complex.I; u - v * Complex.I, i - q] →
      A.IsHermitian ∧ A.trace = 2 * I ∧ A.det = ((I ^ 2 - Q ^ 2 - U ^ 2 - V ^ 2 : ℝ) : ℂ) ∧
          (A.PosSemidef ↔ Physical I Q U V) := by
    rintro i q u v h1 rfl h3 rfl
    refine ⟨?_, ?_, ?_, (psd_iff i q u v).trans h3⟩
    · ext a b
      fin_cases a <;> fin_cases b <;> simp [conjTranspose_apply, sub_eq_add_neg]
    · rw [trace_fin_two]; simp; ring
    · rw [det_fin_two, ← h1]
      simp only [of_apply, cons_val', cons_val_zero, cons_val_one, cons_val_fin_one]
      push_cast
      linear_combination (v : ℂ) ^ 2 * Complex.I_sq
  simp only [List.mem_cons, List.not_mem_nil, or_false] at hA
  rcases hA with rfl | rfl
  · exact main I Q U V rfl rfl Iff.rfl lin
  · exact main I V Q U (by ring) rfl
      ⟨fun h => ⟨h.1, by linarith [h.2]⟩, fun h => ⟨h.1, by linarith [h.2]⟩⟩ cir

/-- **C171** Predicted correlations of an antenna with itself are those of light again: positive semi-definite, if the
coherencies and base visibilities are and both sides have the same Jones terms. -/
theorem C171_autocorrelation (nsrc nrow nchan : Nat) (time ant1 ant2 : Nat → Nat) (tmin : Nat)
    (hm : Rime.IsMin nrow time tmin) (dde : Option (Nat → Nat → Nat → Nat → Rime.M2 ℂ))
    (coh : Option (Nat → Nat → Nat → Rime.M2 ℂ)) (die : Option (Nat → Nat → Nat → Rime.M2 ℂ))
    (bvis : Option (Nat → Nat → Rime.M2 ℂ))
    (hx : dde.isSome ∨ coh.isSome ∨ die.isSome ∨ bvis.isSome)
    (hcoh : ∀ b, coh = some b → ∀ s < nsrc, ∀ r < nrow, ∀ f < nchan, (b s r f).PosSemidef)
    (hbvis : ∀ b, bvis = some b → ∀ r < nrow, ∀ f < nchan, (b r f).PosSemidef) :
    ∃ vis, Rime.predictVis Rime.fullKernel nsrc nrow nchan time ant1 ant2
        ⟨dde.map fun e => (e, e), coh, die.map fun g => (g, g), bvis⟩ = .ok vis ∧
      ∀ r < nrow, ∀ f < nchan, ant1 r = ant2 r → (vis r f).PosSemidef := by
  obtain ⟨vis, h1, h2⟩ := Rime.C34_predict_full nsrc nrow nchan time ant1 ant2 tmin hm
    ⟨dde.map fun e => (e, e), coh, die.map fun g => (g, g), bvis⟩ (by simpa using hx)
  refine ⟨vis, h1, fun r hr f hf ha => ?_⟩
  rw [h2 r hr f hf]
  unfold Rime.rime
  simp only
  have hsum : ((bvis.map (fun b : Nat → Nat → Rime.M2 ℂ => b r f)).getD 0).PosSemidef := by
    cases bvis with
    | none => exact PosSemidef.zero
    | some b => exact hbvis b rfl r hr f hf
  have one : ∀ (M N : Rime.M2 ℂ), N.PosSemidef → (M * N * star M).PosSemidef := by
    intro M N hN
    rw [star_eq_conjTranspose]
    exact hN.mul_mul_conjTranspose_same M
  have hc : ∀ s < nsrc, ((coh.map (fun (b : Nat → Nat → Nat → Rime.M2 ℂ) s => b s r f)).elim 1 fun x : Nat → Rime.M2 ℂ => x s).PosSemidef := by
    intro s hs
    cases coh with
    | none => exact PosSemidef.one
    | some b => exact hcoh b rfl s hs r hr f hf
  have sky : ∀ e : Option ((Nat → Rime.M2 ℂ) × (Nat → Rime.M2 ℂ)), (∀ x, e = some x → x.1 = x.2) →
      (∑ s ∈ Finset.range nsrc, (e.elim 1 fun e => e.1 s) * ((coh.map (fun (b : Nat → Nat → Nat → Rime.M2 ℂ) s => b s r f)).elim 1 fun x : Nat → Rime.M2 ℂ => x s) *
        star (e.elim 1 fun e => e.2 s)).PosSemidef := by
    intro e he
    refine posSemidef_sum _ fun s hs => ?_
    cases e with
    | none => exact one 1 _ (hc s (Finset.mem_range.1 hs))
    | some x =>
      simp only [Option.elim_some]
      rw [← he x rfl]
      exact one _ _ (hc s (Finset.mem_range.1 hs))
  have tot := fun e he => hsum.add (sky e he)
  have done : ∀ (g : Option (Rime.M2 ℂ × Rime.M2 ℂ)) (N : Rime.M2 ℂ), (∀ x, g = some x → x.1 = x.2) → N.PosSemidef →
      ((g.elim 1 fun g => g.1) * N * star (g.elim 1 fun g => g.2)).PosSemidef := by
    intro g N hg hN
    cases g with
    | none => exact one 1 _ hN
    | some x =>
      simp only [Option.elim_some]
      rw [← hg x rfl]
      exact one _ _ hN
  refine done _ _ ?_ ?_
  · intro x hx
    cases die with
    | none => cases hx
    | some g => cases hx; simp only; rw [ha]
  · split_ifs
    · rw [add_zero]; exact hsum
    · refine tot _ ?_
      intro x hx
      cases dde with
      | none => cases hx
      | some g => cases hx; simp only; rw [ha]

/-- **C171** Unitary gains (feed rotations, for example) change neither the power of a visibility nor its determinant's
modulus. -/
theorem C171_unitary (nrow nchan : Nat) (time ant1 ant2 : Nat → Nat) (tmin : Nat)
    (hm : Rime.IsMin nrow time tmin) (g1 g2 : Nat → Nat → Nat → Rime.M2 ℂ) (b : Nat → Nat → Rime.M2 ℂ)
    (h1 : ∀ t a f, star (g1 t a f) * g1 t a f = 1) (h2 : ∀ t a f, star (g2 t a f) * g2 t a f = 1) :
    ∃ vis, Rime.predictVis Rime.fullKernel 0 nrow nchan time ant1 ant2 ⟨none, none, some (g1, g2), some b⟩ = .ok vis ∧
      ∀ r < nrow, ∀ f < nchan, trace (vis r f * (vis r f)ᴴ) = trace (b r f * (b r f)ᴴ) ∧
        ‖(vis r f).det‖ = ‖(b r f).det‖ := by
  obtain ⟨vis, e1, e2⟩ := Rime.C34_predict_full 0 nrow nchan time ant1 ant2 tmin hm ⟨none, none, some (g1, g2), some b⟩
    (by simp)
  refine ⟨vis, e1, fun r hr f hf => ?_⟩
  rw [e2 r hr f hf]
  simp only [Rime.rime, Option.map_some, Option.map_none, Option.elim_some, Option.getD_some, Option.isNone_none, and_self,
    if_true, add_zero]
  generalize hg : g1 (time r - tmin) (ant1 r) f = G
  generalize hh : g2 (time r - tmin) (ant2 r) f = H
  have hG : star G * G = 1 := hg ▸ h1 _ _ _
  have hH : star H * H = 1 := hh ▸ h2 _ _ _
  rw [star_eq_conjTranspose] at hG hH ⊢
  constructor
  · rw [conjTranspose_mul, conjTranspose_mul, conjTranspose_conjTranspose]
    have : G * b r f * Hᴴ * (H * ((b r f)ᴴ * Gᴴ)) = G * (b r f * (b r f)ᴴ * Gᴴ) := by
      have : Hᴴ * (H * ((b r f)ᴴ * Gᴴ)) = (b r f)ᴴ * Gᴴ := by rw [← Matrix.mul_assoc, hH, Matrix.one_mul]
      rw [Matrix.mul_assoc (G * b r f), this]
      simp only [Matrix.mul_assoc]
    rw [this, trace_mul_comm, Matrix.mul_assoc, hG, Matrix.mul_one]
  · have nd : ∀ M : Rime.M2 ℂ, Mᴴ * M = 1 → ‖M.det‖ = 1 := by
      intro M hM
      have := congrArg Matrix.det hM
      rw [det_mul, det_conjTranspose, det_one] at this
      have h := congrArg norm this
      rw [norm_mul, norm_star, norm_one] at h
      nlinarith [norm_nonneg M.det]
    rw [det_mul, det_mul, norm_mul, norm_mul, nd G hG, det_conjTranspose, norm_star, nd H hH]
    ring

/-- Flat Stokes parameters and both kinds of correlations meet the hypotheses, and there are physical and unphysical values. -/
example : elementIndices (.list [.str "I", .str "Q", .str "U", .str "V"]) =
      .ok ([("I", [0]), ("Q", [1]), ("U", [2]), ("V", [3])], [4]) ∧
    elementIndices (.list [.list [.str "XX", .str "XY", .str "YX", .str "YY"], .list [.str "RR", .str "RL", .str "LR", .str "LL"]]) =
      .ok ([("XX", [0, 0]), ("XY", [0, 1]), ("YX", [0, 2]), ("YY", [0, 3]), ("RR", [1, 0]), ("RL", [1, 1]), ("LR", [1, 2]),
        ("LL", [1, 3])], [2, 4]) ∧ Physical 3 2 1 2 ∧ ¬ Physical 1 1 1 0 := by
  refine ⟨rfl, rfl, by unfold Physical; norm_num, by unfold Physical; norm_num⟩

end Verif.ModelData
