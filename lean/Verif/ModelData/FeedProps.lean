/-
C190: what feed rotations do to the Stokes parameters of the light.
-/
import Verif.ModelData.CoherencyPhys
import Verif.Rime.PropsTerms

set_option autoImplicit false

namespace Verif.ModelData

open Matrix

/-! ### Specification -/

/-- The plane of polarisation turned by the angle `χ` against the sky: intensity and circular polarisation stay, the complex
linear polarisation `Q + i U` is multiplied by `exp (-2 i χ)`. -/
def Turned (χ I Q U V I' Q' U' V' : ℝ) : Prop :=
  I' = I ∧ V' = V ∧ ((Q' : ℂ) + U' * Complex.I) = Complex.exp (-(2 * χ) * Complex.I) * (Q + U * Complex.I)

/-- The array `x` holds the real Stokes parameters `I, Q, U, V` at the positions of `il`. -/
structure Holds (il : List Schema) (x : List Nat → ℂ) (I Q U V : ℝ) : Prop where
  hI : ∃ p, Has il "I" p ∧ x p = I
  hQ : ∃ p, Has il "Q" p ∧ x p = Q
  hU : ∃ p, Has il "U" p ∧ x p = U
  hV : ∃ p, Has il "V" p ∧ x p = V

/-! ### Lemmas -/

private theorem turned_iff {χ I Q U V I' Q' U' V' : ℝ} (h : Turned χ I Q U V I' Q' U' V') :
    I' = I ∧ V' = V ∧ Q' = Real.cos (2 * χ) * Q + Real.sin (2 * χ) * U ∧ U' = Real.cos (2 * χ) * U - Real.sin (2 * χ) * Q := by
  obtain ⟨h1, h2, h3⟩ := h
  have e : (-(2 * χ) * Complex.I : ℂ) = ((-(2 * χ) : ℝ) : ℂ) * Complex.I := by push_cast; ring
  rw [e, Complex.exp_mul_I, ← Complex.ofReal_cos, ← Complex.ofReal_sin, Real.cos_neg, Real.sin_neg] at h3
  generalize Real.cos (2 * χ) = C at *
  generalize Real.sin (2 * χ) = S at *
  have hr := congrArg Complex.re h3
  have hi := congrArg Complex.im h3
  simp at hr hi
  exact ⟨h1, h2, by linarith, by linarith⟩

private theorem stokes_mid {lead : List Nat} {x : List Nat → ℂ} {il ml : List Schema}
    {ires mres : List (String × List Nat)} {ishape mshape : List Nat}
    (hi : elementIndices (.list il) = .ok (ires, ishape)) (hm : elementIndices (.list ml) = .ok (mres, mshape))
    {I Q U V : ℝ} (hx : Holds il x I Q U V)
    (only : ∀ s p, Has ml s p → s ∈ ["XX", "XY", "YX", "YY", "RR", "RL", "LR", "LL"]) (ne : ∃ s p, Has ml s p) :
    ∃ mid, convert (lead ++ ishape) x (.list il) (.list ml) = .ok mid ∧
      (∀ pXX pXY pYX pYY, Has ml "XX" pXX → Has ml "XY" pXY → Has ml "YX" pYX → Has ml "YY" pYY →
        matrixOf mid pXX pXY pYX pYY = !![(I + Q : ℂ), U + V * Complex.I; U - V * Complex.I, I - Q]) ∧
      (∀ pRR pRL pLR pLL, Has ml "RR" pRR → Has ml "RL" pRL → Has ml "LR" pLR → Has ml "LL" pLL →
        matrixOf mid pRR pRL pLR pLL = !![(I + V : ℂ), Q + U * Complex.I; Q - U * Complex.I, I - V]) := by
  obtain ⟨pI, hI, eI⟩ := hx.hI
  obtain ⟨pQ, hQ, eQ⟩ := hx.hQ
  obtain ⟨pU, hU, eU⟩ := hx.hU
  obtain ⟨pV, hV, eV⟩ := hx.hV
  obtain ⟨mid, m0, m1, m2, m3, m4, m5, m6, m7, m8⟩ := corr_values (lead := lead) (x := x) hi hm hI hQ hU hV only ne
  refine ⟨mid, m0, fun a b c d h1 h2 h3 h4 => ?_, fun a b c d h1 h2 h3 h4 => ?_⟩
  · unfold matrixOf
    rw [m1 _ h1, m2 _ h2, m3 _ h3, m4 _ h4, eI, eQ, eU, eV]
    rfl
  · unfold matrixOf
    rw [m5 _ h1, m6 _ h2, m7 _ h3, m8 _ h4, eI, eQ, eU, eV]
    rfl

private theorem linear_turn {χ I Q U V I' Q' U' V' : ℝ} (h : Turned χ I Q U V I' Q' U' V')
    {M : Matrix (Fin 2) (Fin 2) ℂ} (hM : Rime.feedRotation χ "linear" = .ok M) :
    !![(I' + Q' : ℂ), U' + V' * Complex.I; U' - V' * Complex.I, I' - Q'] =
      M * !![(I + Q : ℂ), U + V * Complex.I; U - V * Complex.I, I - Q] * Mᴴ := by
  obtain ⟨rfl, rfl, hQ, hU⟩ := turned_iff h
  have hcs := Real.cos_sq_add_sin_sq χ
  rcases Rime.feed_ok hM with ⟨-, rfl⟩ | ⟨h, -⟩
  · have h2 := Real.cos_two_mul χ
    have h3 := Real.sin_two_mul χ
    generalize Real.cos (2 * χ) = C at *
    generalize Real.sin (2 * χ) = S at *
    generalize Real.cos χ = c at *
    generalize Real.sin χ = s at *
    rw [h2, h3] at hQ hU
    have hs : s ^ 2 = 1 - c ^ 2 := by linarith
    ext i j
    fin_cases i <;> fin_cases j <;>
      simp [Matrix.mul_apply, Fin.sum_univ_two, conjTranspose_apply, Complex.ext_iff] <;>
      (try constructor) <;> (try rw [hQ]) <;> (try rw [hU]) <;> ring_nf <;> (try rw [hs]) <;> (try ring)
  · exact absurd h (by decide)

private theorem circular_turn {χ I Q U V I' Q' U' V' : ℝ} (h : Turned χ I Q U V I' Q' U' V')
    {M : Matrix (Fin 2) (Fin 2) ℂ} (hM : Rime.feedRotation χ "circular" = .ok M) :
    !![(I' + V' : ℂ), Q' + U' * Complex.I; Q' - U' * Complex.I, I' - V'] =
      M * !![(I + V : ℂ), Q + U * Complex.I; Q - U * Complex.I, I - V] * Mᴴ := by
  obtain ⟨rfl, rfl, hQ, hU⟩ := turned_iff h
  have hcs := Real.cos_sq_add_sin_sq χ
  rcases Rime.feed_ok hM with ⟨h, -⟩ | ⟨-, rfl⟩
  · exact absurd h (by decide)
  · have h2 := Real.cos_two_mul χ
    have h3 := Real.sin_two_mul χ
    generalize Real.cos (2 * χ) = C at *
    generalize Real.sin (2 * χ) = S at *
    generalize Real.cos χ = c at *
    generalize Real.sin χ = s at *
    rw [h2, h3] at hQ hU
    have hs : s ^ 2 = 1 - c ^ 2 := by linarith
    ext i j
    fin_cases i <;> fin_cases j <;>
      simp [Matrix.mul_apply, Fin.sum_univ_two, conjTranspose_apply, Complex.ext_iff] <;>
      (try constructor) <;> (try rw [hQ]) <;> (try rw [hU]) <;> ring_nf <;> (try rw [hs]) <;> (try ring)

/-! ### C190 -/

/-- **C190** For feeds of either kind: the correlations of light whose plane of polarisation is turned are those of the light
between feed rotations by that angle. -/
theorem C190_stokes (lead : List Nat) (x x' : List Nat → ℂ) (il ml : List Schema)
    (ires mres : List (String × List Nat)) (ishape mshape : List Nat)
    (hi : elementIndices (.list il) = .ok (ires, ishape)) (hm : elementIndices (.list ml) = .ok (mres, mshape))
    (χ I Q U V I' Q' U' V' : ℝ) (hx : Holds il x I Q U V) (hx' : Holds il x' I' Q' U' V')
    (turned : Turned χ I Q U V I' Q' U' V')
    (only : ∀ s p, Has ml s p → s ∈ ["XX", "XY", "YX", "YY", "RR", "RL", "LR", "LL"]) (ne : ∃ s p, Has ml s p) :
    ∃ mid mid', convert (lead ++ ishape) x (.list il) (.list ml) = .ok mid ∧
      convert (lead ++ ishape) x' (.list il) (.list ml) = .ok mid' ∧
      (∀ pXX pXY pYX pYY M, Has ml "XX" pXX → Has ml "XY" pXY → Has ml "YX" pYX → Has ml "YY" pYY →
        Rime.feedRotation χ "linear" = .ok M →
        matrixOf mid' pXX pXY pYX pYY = M * matrixOf mid pXX pXY pYX pYY * Mᴴ) ∧
      (∀ pRR pRL pLR pLL M, Has ml "RR" pRR → Has ml "RL" pRL → Has ml "LR" pLR → Has ml "LL" pLL →
        Rime.feedRotation χ "circular" = .ok M →
        matrixOf mid' pRR pRL pLR pLL = M * matrixOf mid pRR pRL pLR pLL * Mᴴ) := by
  obtain ⟨mid, h1, h2, h3⟩ := stokes_mid (lead := lead) hi hm hx only ne
  obtain ⟨mid', h1', h2', h3'⟩ := stokes_mid (lead := lead) hi hm hx' only ne
  refine ⟨mid, mid', h1, h1', fun a b c d M ha hb hc hd hM => ?_, fun a b c d M ha hb hc hd hM => ?_⟩
  · rw [h2 a b c d ha hb hc hd, h2' a b c d ha hb hc hd]
    exact linear_turn turned hM
  · rw [h3 a b c d ha hb hc hd, h3' a b c d ha hb hc hd]
    exact circular_turn turned hM

/-- **C190** The rotations of linear and circular feeds are the same, seen in the two bases of C171. -/
theorem C190_bases (χ : ℝ) (M N : Matrix (Fin 2) (Fin 2) ℂ) (hM : Rime.feedRotation χ "linear" = .ok M)
    (hN : Rime.feedRotation χ "circular" = .ok N) : N * toCircular = toCircular * M ∧ N = toCircular * M * toCircularᴴ := by
  have key : N * toCircular = toCircular * M := by
    rcases Rime.feed_ok hM with ⟨-, rfl⟩ | ⟨h, -⟩
    · rcases Rime.feed_ok hN with ⟨h, -⟩ | ⟨-, rfl⟩
      · exact absurd h (by decide)
      · unfold toCircular
        rw [Matrix.mul_smul, Matrix.smul_mul]
        congr 1
        ext i j
        fin_cases i <;> fin_cases j <;> simp [Matrix.mul_apply, Fin.sum_univ_two, Complex.ext_iff]
    · exact absurd h (by decide)
  refine ⟨key, ?_⟩
  rw [← key, Matrix.mul_assoc, circular_unitary, Matrix.mul_one]

/-- **C190** `predict_vis` with feed rotations by an angle that at each time is common to all antennas gives the visibilities of a
sky whose polarisation is turned by that angle at each time, without feed rotations; here for linear feeds. -/
theorem C190_predict_linear (lead : List Nat) (il ml : List Schema)
    (ires mres : List (String × List Nat)) (ishape mshape : List Nat)
    (hi : elementIndices (.list il) = .ok (ires, ishape)) (hm : elementIndices (.list ml) = .ok (mres, mshape))
    (only : ∀ s p, Has ml s p → s ∈ ["XX", "XY", "YX", "YY", "RR", "RL", "LR", "LL"])
    (pXX pXY pYX pYY : List Nat) (hXX : Has ml "XX" pXX) (hXY : Has ml "XY" pXY) (hYX : Has ml "YX" pYX) (hYY : Has ml "YY" pYY)
    (nsrc nrow nchan : Nat) (time ant1 ant2 : Nat → Nat) (tmin : Nat) (ht : Rime.IsMin nrow time tmin)
    (χ : Nat → ℝ) (x x' : Nat → Nat → Nat → List Nat → ℂ) (I Q U V I' Q' U' V' : Nat → Nat → Nat → ℝ)
    (hx : ∀ s r f, Holds il (x s r f) (I s r f) (Q s r f) (U s r f) (V s r f))
    (hx' : ∀ s r f, Holds il (x' s r f) (I' s r f) (Q' s r f) (U' s r f) (V' s r f))
    (turned : ∀ s r f, Turned (χ (time r - tmin)) (I s r f) (Q s r f) (U s r f) (V s r f) (I' s r f) (Q' s r f) (U' s r f) (V' s r f))
    (mid mid' : Nat → Nat → Nat → List Nat → Option ℂ)
    (hmid : ∀ s r f, convert (lead ++ ishape) (x s r f) (.list il) (.list ml) = .ok (mid s r f))
    (hmid' : ∀ s r f, convert (lead ++ ishape) (x' s r f) (.list il) (.list ml) = .ok (mid' s r f))
    (feed : Nat → Nat → Nat → Rime.M2 ℂ) (hfeed : ∀ t a f, Rime.feedRotation (χ t) "linear" = .ok (feed t a f)) :
    ∃ vis vis', Rime.predictVis Rime.fullKernel nsrc nrow nchan time ant1 ant2
        ⟨none, some fun s r f => matrixOf (mid s r f) pXX pXY pYX pYY, some (feed, feed), none⟩ = .ok vis ∧
      Rime.predictVis Rime.fullKernel nsrc nrow nchan time ant1 ant2
        ⟨none, some fun s r f => matrixOf (mid' s r f) pXX pXY pYX pYY, none, none⟩ = .ok vis' ∧
      ∀ r < nrow, ∀ f < nchan, vis r f = vis' r f := by
  obtain ⟨vis, h1, h2⟩ := Rime.C34_predict_full nsrc nrow nchan time ant1 ant2 tmin ht
    ⟨none, some fun s r f => matrixOf (mid s r f) pXX pXY pYX pYY, some (feed, feed), none⟩ (by simp)
  obtain ⟨vis', h1', h2'⟩ := Rime.C34_predict_full nsrc nrow nchan time ant1 ant2 tmin ht
    ⟨none, some fun s r f => matrixOf (mid' s r f) pXX pXY pYX pYY, none, none⟩ (by simp)
  refine ⟨vis, vis', h1, h1', fun r hr f hf => ?_⟩
  rw [h2 r hr f hf, h2' r hr f hf]
  simp only [Rime.rime, Option.map_none, Option.map_some, Option.elim_none, Option.elim_some, Option.getD_none, Option.isNone_none,
    Option.isNone_some, Bool.false_eq_true, and_false, if_false, zero_add, one_mul, star_one, mul_one, star_eq_conjTranspose,
    Finset.mul_sum, Finset.sum_mul]
  refine Finset.sum_congr rfl fun s _ => ?_
  obtain ⟨y, y', e, e', h3, -⟩ := C190_stokes lead (x s r f) (x' s r f) il ml ires mres ishape mshape hi hm _ _ _ _ _ _ _ _ _
    (hx s r f) (hx' s r f) (turned s r f) only ⟨_, _, hXX⟩
  rw [hmid s r f] at e
  rw [hmid' s r f] at e'
  cases e
  cases e'
  have hb : feed (time r - tmin) (ant2 r) f = feed (time r - tmin) (ant1 r) f :=
    Except.ok.inj ((hfeed (time r - tmin) (ant2 r) f).symm.trans (hfeed (time r - tmin) (ant1 r) f))
  rw [hb]
  exact (h3 pXX pXY pYX pYY _ hXX hXY hYX hYY (hfeed (time r - tmin) (ant1 r) f)).symm

/-- **C190** `predict_vis` with feed rotations by an angle that at each time is common to all antennas gives the visibilities of a
sky whose polarisation is turned by that angle at each time, without feed rotations; for circular feeds. -/
theorem C190_predict_circular (lead : List Nat) (il ml : List Schema)
    (ires mres : List (String × List Nat)) (ishape mshape : List Nat)
    (hi : elementIndices (.list il) = .ok (ires, ishape)) (hm : elementIndices (.list ml) = .ok (mres, mshape))
    (only : ∀ s p, Has ml s p → s ∈ ["XX", "XY", "YX", "YY", "RR", "RL", "LR", "LL"])
    (pRR pRL pLR pLL : List Nat) (hRR : Has ml "RR" pRR) (hRL : Has ml "RL" pRL) (hLR : Has ml "LR" pLR) (hLL : Has ml "LL" pLL)
    (nsrc nrow nchan : Nat) (time ant1 ant2 : Nat → Nat) (tmin : Nat) (ht : Rime.IsMin nrow time tmin)
    (χ : Nat → ℝ) (x x' : Nat → Nat → Nat → List Nat → ℂ) (I Q U V I' Q' U' V' : Nat → Nat → Nat → ℝ)
    (hx : ∀ s r f, Holds il (x s r f) (I s r f) (Q s r f) (U s r f) (V s r f))
    (hx' : ∀ s r f, Holds il (x' s r f) (I' s r f) (Q' s r f) (U' s r f) (V' s r f))
    (turned : ∀ s r f, Turned (χ (time r - tmin)) (I s r f) (Q s r f) (U s r f) (V s r f) (I' s r f) (Q' s r f) (U' s r f) (V' s r f))
    (mid mid' : Nat → Nat → Nat → List Nat → Option ℂ)
    (hmid : ∀ s r f, convert (lead ++ ishape) (x s r f) (.list il) (.list ml) = .ok (mid s r f))
    (hmid' : ∀ s r f, convert (lead ++ ishape) (x' s r f) (.list il) (.list ml) = .ok (mid' s r f))
    (feed : Nat → Nat → Nat → Rime.M2 ℂ) (hfeed : ∀ t a f, Rime.feedRotation (χ t) "circular" = .ok (feed t a f)) :
    ∃ vis vis', Rime.predictVis Rime.fullKernel nsrc nrow nchan time ant1 ant2
        ⟨none, some fun s r f => matrixOf (mid s r f) pRR pRL pLR pLL, some (feed, feed), none⟩ = .ok vis ∧
      Rime.predictVis Rime.fullKernel nsrc nrow nchan time ant1 ant2
        ⟨none, some fun s r f => matrixOf (mid' s r f) pRR pRL pLR pLL, none, none⟩ = .ok vis' ∧
      ∀ r < nrow, ∀ f < nchan, vis r f = vis' r f := by
  obtain ⟨vis, h1, h2⟩ := Rime.C34_predict_full nsrc nrow nchan time ant1 ant2 tmin ht
    ⟨none, some fun s r f => matrixOf (mid s r f) pRR pRL pLR pLL, some (feed, feed), none⟩ (by simp)
  obtain ⟨vis', h1', h2'⟩ := Rime.C34_predict_full nsrc nrow nchan time ant1 ant2 tmin ht
    ⟨none, some fun s r f => matrixOf (mid' s r f) pRR pRL pLR pLL, none, none⟩ (by simp)
  refine ⟨vis, vis', h1, h1', fun r hr f hf => ?_⟩
  rw [h2 r hr f hf, h2' r hr f hf]
  simp only [Rime.rime, Option.map_none, Option.map_some, Option.elim_none, Option.elim_some, Option.getD_none, Option.isNone_none,
    Option.isNone_some, Bool.false_eq_true, and_false, if_false, zero_add, one_mul, star_one, mul_one, star_eq_conjTranspose,
    Finset.mul_sum, Finset.sum_mul]
  refine Finset.sum_congr rfl fun s _ => ?_
  obtain ⟨y, y', e, e', -, h3⟩ := C190_stokes lead (x s r f) (x' s r f) il ml ires mres ishape mshape hi hm _ _ _ _ _ _ _ _ _
    (hx s r f) (hx' s r f) (turned s r f) only ⟨_, _, hRR⟩
  rw [hmid s r f] at e
  rw [hmid' s r f] at e'
  cases e
  cases e'
  have hb : feed (time r - tmin) (ant2 r) f = feed (time r - tmin) (ant1 r) f :=
    Except.ok.inj ((hfeed (time r - tmin) (ant2 r) f).symm.trans (hfeed (time r - tmin) (ant1 r) f))
  rw [hb]
  exact (h3 pRR pRL pLR pLL _ hRR hRL hLR hLL (hfeed (time r - tmin) (ant1 r) f)).symm

/-- **C190** Circular feeds at different angles `χ p`, `χ q`: the parallel hands are turned by the difference and the crossed hands
by the sum of the angles. -/
theorem C190_circular_baseline (nrow nchan : Nat) (time ant1 ant2 : Nat → Nat) (tmin : Nat) (ht : Rime.IsMin nrow time tmin)
    (b : Nat → Nat → Rime.M2 ℂ) (χ : Nat → Nat → ℝ) (feed : Nat → Nat → Nat → Rime.M2 ℂ)
    (hfeed : ∀ t a f, Rime.feedRotation (χ t a) "circular" = .ok (feed t a f)) :
    ∃ vis, Rime.predictVis Rime.fullKernel 0 nrow nchan time ant1 ant2 ⟨none, none, some (feed, feed), some b⟩ = .ok vis ∧
      ∀ r < nrow, ∀ f < nchan, ∀ p q, χ (time r - tmin) (ant1 r) = p → χ (time r - tmin) (ant2 r) = q →
        vis r f 0 0 = Complex.exp (-(p - q) * Complex.I) * b r f 0 0 ∧
        vis r f 0 1 = Complex.exp (-(p + q) * Complex.I) * b r f 0 1 ∧
        vis r f 1 0 = Complex.exp ((p + q) * Complex.I) * b r f 1 0 ∧
        vis r f 1 1 = Complex.exp ((p - q) * Complex.I) * b r f 1 1 := by
  obtain ⟨vis, e1, e2⟩ := Rime.C34_predict_full 0 nrow nchan time ant1 ant2 tmin ht ⟨none, none, some (feed, feed), some b⟩
    (by simp)
  refine ⟨vis, e1, fun r hr f hf p q hp hq => ?_⟩
  rw [e2 r hr f hf]
  simp only [Rime.rime, Option.map_some, Option.map_none, Option.elim_some, Option.getD_some, Option.isNone_none, and_self,
    if_true, add_zero, star_eq_conjTranspose]
  have hF : ∀ t a f, feed t a f = !![Complex.exp (-(χ t a) * Complex.I), 0; 0, Complex.exp (χ t a * Complex.I)] := by
    intro t a f
    rcases Rime.feed_ok (hfeed t a f) with ⟨h, -⟩ | ⟨-, h⟩
    · exact absurd h (by decide)
    · rw [h]
      have e1 : Complex.exp (-(χ t a) * Complex.I) = ⟨Real.cos (χ t a), -Real.sin (χ t a)⟩ := by
        rw [← Complex.ofReal_neg, Complex.exp_mul_I, ← Complex.ofReal_cos, ← Complex.ofReal_sin, Real.cos_neg, Real.sin_neg]
        apply Complex.ext <;> simp [-Complex.ofReal_cos, -Complex.ofReal_sin]
      have e2 : Complex.exp (χ t a * Complex.I) = ⟨Real.cos (χ t a), Real.sin (χ t a)⟩ := by
        rw [Complex.exp_mul_I, ← Complex.ofReal_cos, ← Complex.ofReal_sin]
        apply Complex.ext <;> simp [-Complex.ofReal_cos, -Complex.ofReal_sin]
      rw [e1, e2]
  have hconj : ∀ a : ℝ, star (Complex.exp (a * Complex.I)) = Complex.exp (-a * Complex.I) := by
    intro a
    rw [RCLike.star_def, ← Complex.exp_conj]
    simp
  have hconj' : ∀ a : ℝ, star (Complex.exp (-a * Complex.I)) = Complex.exp (a * Complex.I) := by
    intro a
    rw [← Complex.ofReal_neg, hconj]
    simp
  rw [hF, hF, hp, hq]
  refine ⟨?_, ?_, ?_, ?_⟩ <;>
    simp only [Matrix.mul_apply, Fin.sum_univ_two, conjTranspose_apply, of_apply, cons_val', cons_val_zero, cons_val_one,
      cons_val_fin_one, star_zero, mul_zero, zero_mul, add_zero, zero_add, hconj, hconj']
  · rw [mul_right_comm, ← Complex.exp_add]; congr 2; ring
  · rw [mul_right_comm, ← Complex.exp_add]; congr 2; ring
  · rw [mul_right_comm, ← Complex.exp_add]; congr 2; ring
  · rw [mul_right_comm, ← Complex.exp_add]; congr 2; ring

/-- A quarter of a turn takes `Q` to `-Q`; light polarised along one axis meets the hypotheses of `C190_stokes`. -/
example : Turned (Real.pi / 2) 2 1 0 0 2 (-1) 0 0 ∧
    Holds [.str "I", .str "Q", .str "U", .str "V"] (fun p => if p = [0] then 2 else if p = [1] then 1 else 0) 2 1 0 0 := by
  have i1 := (C46_indices [.str "I", .str "Q", .str "U", .str "V"] [("I", [0]), ("Q", [1]), ("U", [2]), ("V", [3])] [4] rfl).1
  refine ⟨⟨rfl, rfl, ?_⟩, ⟨⟨[0], (i1 _ _).1 (by simp), by simp⟩, ⟨[1], (i1 _ _).1 (by simp), by simp⟩,
    ⟨[2], (i1 _ _).1 (by simp), by simp⟩, ⟨[3], (i1 _ _).1 (by simp), by simp⟩⟩⟩
  have : (-(2 * ((Real.pi / 2 : ℝ) : ℂ)) * Complex.I) = -(Real.pi * Complex.I) := by push_cast; ring
  rw [this, Complex.exp_neg, Complex.exp_pi_mul_I]
  norm_num

end Verif.ModelData
