/-
C151: Kronecker functions and element types.
-/
import Verif.Linalg.KronTypes
import Verif.Linalg.KronProps
import Mathlib.Data.Complex.Basic
import Mathlib.Data.Complex.BigOperators
import Mathlib.Analysis.Real.Sqrt
import Mathlib.Data.Real.Star
import Mathlib.Tactic.NormNum

set_option autoImplicit false

set_option linter.unusedSectionVars false

namespace Verif.Linalg.Kron

open Finset

variable {K : Type} [CommRing K]

/-! ### Specification -/

/-- What is left of a complex number in a real array. -/
noncomputable def toReal (z : ℂ) : ℂ := (z.re : ℂ)

/-- What is left of a real number in an integer array: it is rounded towards zero. -/
noncomputable def toInteger (x : ℝ) : ℝ := if 0 ≤ x then (⌊x⌋ : ℝ) else (⌈x⌉ : ℝ)

/-- The entries of a matrix are real. -/
def Mat.IsReal (M : Mat ℂ) : Prop := ∀ i j, (M.at' i j).im = 0

/-! ### Lemmas -/

theorem columnsInto_spec (store : K → K) (f : Vec K → Except PyErr (Vec K)) (A : List (Mat K)) (B : Mat K)
    (hf : ∀ v : Vec K, v.size = B.rows → ∃ x, f v = .ok x ∧ x.size = nrows A ∧
      ∀ i < nrows A, x.at' i = ∑ j ∈ range (ncols A), kron A i j * v.at' j) :
    ∃ C, columnsInto store f (kronN A) B = .ok C ∧ C.rows = nrows A ∧ C.cols = B.cols ∧
      ∀ i k, i < nrows A → k < B.cols → C.at' i k = store (∑ j ∈ range (ncols A), kron A i j * B.at' j k) := by
  have : ∀ n ≤ B.cols, ∃ C, forRangeM n (fun _ _ => (0 : K)) (columnInto store f (kronN A) B) = .ok C ∧
      ∀ i k, i < nrows A → k < n → C i k = store (∑ j ∈ range (ncols A), kron A i j * B.at' j k) := by
    intro n
    induction n with
    | zero => intro _; exact ⟨_, rfl, fun _ _ _ h => absurd h (by omega)⟩
    | succ n ih =>
      intro hn
      obtain ⟨C, h1, h2⟩ := ih (by omega)
      obtain ⟨x, hx, hs, hv⟩ := hf ⟨B.rows, fun j => B.at' j n⟩ rfl
      refine ⟨fun r c => if c = n then store (x.at' r) else C r c, ?_, ?_⟩
      · rw [forRangeM_succ, h1]
        show columnInto store f (kronN A) B n C = _
        unfold columnInto
        rw [hx]
        dsimp only
        exact if_pos hs
      · intro i k hi hk
        dsimp only
        by_cases h : k = n
        · rw [if_pos h, hv i hi, h]
        · rw [if_neg h]; exact h2 i k hi (by omega)
  obtain ⟨C, h1, h2⟩ := this B.cols le_rfl
  refine ⟨⟨kronN A, B.cols, C⟩, ?_, rfl, rfl, h2⟩
  unfold columnsInto
  rw [h1]

theorem kron_real : ∀ (A : List (Mat ℂ)), (∀ M ∈ A, M.IsReal) → ∀ i j, (kron A i j).im = 0 := by
  intro A
  induction A with
  | nil => intro _ i j; simp [kron]
  | cons M A ih =>
    intro h i j
    rw [kron, Complex.mul_im, h M (by simp), ih (fun M hM => h M (List.mem_cons_of_mem _ hM))]
    simp

theorem toReal_of_im {z : ℂ} (h : z.im = 0) : toReal z = z := by
  apply Complex.ext
  · simp [toReal]
  · simp [toReal, h]

theorem sum_real (A : List (Mat ℂ)) (B : Mat ℂ) (hA : ∀ M ∈ A, M.IsReal) (hB : B.IsReal) (i k : Nat) :
    (∑ j ∈ range (ncols A), kron A i j * B.at' j k).im = 0 := by
  rw [Complex.im_sum]
  apply sum_eq_zero
  intro j _
  rw [Complex.mul_im, kron_real A hA, hB]
  simp

/-! ### C151 -/

/-- **C151.** For complex operands `kron_matmat` returns the real part of the product. -/
theorem C151_matmat_real_part (A : List (Mat ℂ)) (B : Mat ℂ) (hsq : ∀ M ∈ A, M.rows = M.cols ∧ 0 < M.rows)
    (hb : B.rows = ncols A) :
    ∃ C, kronMatmatInto toReal A B = .ok C ∧ C.rows = nrows A ∧ C.cols = B.cols ∧
      ∀ i k, i < nrows A → k < B.cols → C.at' i k = ((∑ j ∈ range (ncols A), kron A i j * B.at' j k).re : ℂ) :=
  columnsInto_spec toReal _ A B fun v hv => C65_matvec A v hsq (by rw [hv, hb])

/-- **C151.** `kron_matmat` is the product when every operand is real; missing: complex operands. -/
theorem C151_matmat_partial (A : List (Mat ℂ)) (B : Mat ℂ) (hsq : ∀ M ∈ A, M.rows = M.cols ∧ 0 < M.rows)
    (hb : B.rows = ncols A) (hA : ∀ M ∈ A, M.IsReal) (hB : B.IsReal) :
    ∃ C, kronMatmatInto toReal A B = .ok C ∧ C.rows = nrows A ∧ C.cols = B.cols ∧
      ∀ i k, i < nrows A → k < B.cols → C.at' i k = ∑ j ∈ range (ncols A), kron A i j * B.at' j k := by
  obtain ⟨C, h1, h2, h3, h4⟩ := C151_matmat_real_part A B hsq hb
  refine ⟨C, h1, h2, h3, fun i k hi hk => ?_⟩
  rw [h4 i k hi hk]
  exact toReal_of_im (sum_real A B hA hB i k)

/-- **C151.** So is `kron_tensormat`, for extents below 128; missing: complex operands and larger extents. -/
theorem C151_tensormat_partial (A : List (Mat ℂ)) (B : Mat ℂ) (hsm : ∀ M ∈ A, M.rows < 128 ∧ M.cols < 128)
    (hb : B.rows = ncols A) (hA : ∀ M ∈ A, M.IsReal) (hB : B.IsReal) :
    ∃ C, kronTensormatInto toReal A B = .ok C ∧ C.rows = nrows A ∧ C.cols = B.cols ∧
      ∀ i k, i < nrows A → k < B.cols → C.at' i k = ∑ j ∈ range (ncols A), kron A i j * B.at' j k := by
  obtain ⟨C, h1, h2, h3, h4⟩ := columnsInto_spec toReal _ A B fun v hv => C65_tensorvec_partial A v hsm (by rw [hv, hb])
  refine ⟨C, h1, h2, h3, fun i k hi hk => ?_⟩
  rw [h4 i k hi hk]
  exact toReal_of_im (sum_real A B hA hB i k)

/-- **C151, disagreement.** The identity, applied column by column to a matrix with the entry `i`, gives `0`, although applied to
the column itself it gives the column. -/
theorem C151_matmat_violated : ∃ (A : List (Mat ℂ)) (B : Mat ℂ) (C : Mat ℂ) (x : Vec ℂ),
    A = [⟨1, 1, fun _ _ => 1⟩] ∧ B = ⟨1, 1, fun _ _ => Complex.I⟩ ∧
    kronMatmatInto toReal A B = .ok C ∧ C.at' 0 0 = 0 ∧
    kronMatvec A ⟨1, fun j => B.at' j 0⟩ = .ok x ∧ x.at' 0 = Complex.I := by
  have hsq : ∀ M ∈ ([⟨1, 1, fun _ _ => 1⟩] : List (Mat ℂ)), M.rows = M.cols ∧ 0 < M.rows := by simp
  have hn : nrows ([⟨1, 1, fun _ _ => 1⟩] : List (Mat ℂ)) = 1 := by simp [nrows]
  have hc : ncols ([⟨1, 1, fun _ _ => 1⟩] : List (Mat ℂ)) = 1 := by simp [ncols]
  obtain ⟨C, h1, _, _, h4⟩ := C151_matmat_real_part [⟨1, 1, fun _ _ => 1⟩] ⟨1, 1, fun _ _ => Complex.I⟩ hsq hc.symm
  obtain ⟨x, hx, _, hv⟩ := C65_matvec [⟨1, 1, fun _ _ => 1⟩] ⟨1, fun _ => Complex.I⟩ hsq hc.symm
  refine ⟨_, _, C, x, rfl, rfl, h1, ?_, hx, ?_⟩
  · rw [h4 0 0 (by rw [hn]; omega) (by decide), hc]
    simp [kron]
  · rw [hv 0 (by rw [hn]; omega), hc]
    simp [kron]

/-- **C151.** `kron_cholesky` of an array of objects, or of an array of a type that holds its factors, returns the factors of
C66; missing: arrays of integers. -/
theorem C151_cholesky_partial [StarRing K] (store : K → K) (chol : Mat K → Except PyErr (Mat K))
    (hchol : ∀ M L, chol M = .ok L → IsFactor L M) (eps : K) (A L : List (Mat K))
    (hs : ∀ M l, chol M = .ok l → ∀ i j, store (l.at' i j) = l.at' i j) (h : kronCholeskyInto store chol eps A = .ok L) :
    nrows L = nrows A ∧ ncols L = nrows A ∧ ∀ i j, i < nrows A → j < nrows A →
      ∑ k ∈ range (ncols L), kron L i k * star (kron L j k) = kron (A.map (target chol eps)) i j := by
  unfold kronCholeskyInto at h
  cases hk : kronCholesky chol eps A with
  | error e => rw [hk] at h; cases h
  | ok L' =>
    rw [hk] at h
    dsimp only at h
    have : L'.map (storeFactor store) = L' := by
      have hf := kronCholesky_ok hk
      clear hk h
      induction hf with
      | nil => rfl
      | cons h0 _ ih =>
        rename_i l a Ls As _
        rw [List.map_cons, ih]
        congr 1
        have hl : ∃ M, chol M = .ok l := by
          unfold cholFactor at h0
          cases hc : chol a with
          | ok l' => rw [hc] at h0; cases h0; exact ⟨a, hc⟩
          | error e =>
            rw [hc] at h0
            dsimp only at h0
            cases hj : jittered eps a with
            | error e => rw [hj] at h0; cases h0
            | ok a' => rw [hj] at h0; exact ⟨a', h0⟩
        obtain ⟨M, hM⟩ := hl
        cases l with
        | mk r c v =>
          unfold storeFactor
          congr 1
          funext i j
          exact hs M _ hM i j
    rw [this] at h
    cases h
    exact C66_cholesky chol hchol eps A L hk

/-- The Cholesky factor of a matrix with one entry. -/
noncomputable def chol1 (M : Mat ℝ) : Except PyErr (Mat ℝ) :=
  if M.rows = 1 ∧ M.cols = 1 ∧ 0 < M.at' 0 0 then .ok ⟨1, 1, fun _ _ => Real.sqrt (M.at' 0 0)⟩ else .error .valueError

/-- **C151, disagreement.** For an array of integers the factors are rounded: those of `[[[2]]]` are `[[[1]]]`, whose square is
not `2`. -/
theorem C151_cholesky_violated : ∃ (A L : List (Mat ℝ)), A = [⟨1, 1, fun _ _ => 2⟩] ∧
    (∀ M L, chol1 M = .ok L → IsFactor L M) ∧ kronCholeskyInto toInteger chol1 0 A = .ok L ∧
    ∑ k ∈ range 1, kron L 0 k * star (kron L 0 k) = 1 ∧ kron A 0 0 = 2 := by
  have hc : chol1 ⟨1, 1, fun _ _ => 2⟩ = .ok ⟨1, 1, fun _ _ => Real.sqrt 2⟩ := by
    unfold chol1
    rw [if_pos ⟨rfl, rfl, by norm_num⟩]
  have hk : kronCholesky chol1 0 [⟨1, 1, fun _ _ => 2⟩] = .ok [⟨1, 1, fun _ _ => Real.sqrt 2⟩] := by
    rw [kronCholesky, kronCholesky, show cholFactor chol1 0 ⟨1, 1, fun _ _ => 2⟩ = .ok ⟨1, 1, fun _ _ => Real.sqrt 2⟩ by
      unfold cholFactor; rw [hc]]
  have hi : toInteger (Real.sqrt 2) = 1 := by
    unfold toInteger
    rw [if_pos (Real.sqrt_nonneg 2)]
    have : ⌊Real.sqrt 2⌋ = 1 := by
      rw [Int.floor_eq_iff]
      refine ⟨?_, ?_⟩
      · norm_num
      · rw [show ((1 : ℤ) : ℝ) + 1 = 2 by norm_num, Real.sqrt_lt' (by norm_num)]
        norm_num
    rw [this]; norm_num
  refine ⟨_, [⟨1, 1, fun _ _ => 1⟩], rfl, ?_, ?_, ?_, ?_⟩
  · intro M L h
    unfold chol1 at h
    split at h
    · rename_i hM
      cases h
      obtain ⟨h1, h2, h3⟩ := hM
      refine ⟨by rw [h1, h2], h1.symm, h1.symm, fun i j hi hj => ?_⟩
      have hi' : i = 0 := by omega
      have hj' : j = 0 := by omega
      subst hi' hj'
      simp [Real.mul_self_sqrt h3.le]
    · cases h
  · unfold kronCholeskyInto
    rw [hk]
    show Except.ok [storeFactor toInteger ⟨1, 1, fun _ _ => Real.sqrt 2⟩] = _
    unfold storeFactor
    dsimp only
    rw [hi]
  · simp [kron]
  · simp [kron]

/-- Real operands exist. -/
example : ∃ C, kronMatmatInto toReal [⟨2, 2, fun i j => (i : ℂ) + 2 * j⟩] ⟨2, 1, fun i _ => 3 * (i : ℂ)⟩ = .ok C ∧ C.at' 1 0 = 9 := by
  obtain ⟨C, h1, _, _, h4⟩ := C151_matmat_partial [⟨2, 2, fun i j => (i : ℂ) + 2 * j⟩] ⟨2, 1, fun i _ => 3 * (i : ℂ)⟩ (by simp)
    (by simp [ncols]) (by simp [Mat.IsReal]) (by simp [Mat.IsReal])
  refine ⟨C, h1, ?_⟩
  rw [h4 1 0 (by simp [nrows]) (by decide)]
  simp [ncols, nrows, kron, sum_range_succ]
  norm_num

end Verif.Linalg.Kron
