/-
C150: the algebra of Kronecker products. What is applied factor by factor can be combined factor by factor.
-/
import Verif.Linalg.KronProps

set_option autoImplicit false

set_option linter.unusedSectionVars false

namespace Verif.Linalg.Kron

open Finset

variable {K : Type} [CommRing K]

/-! ### Specification -/

/-- The product of two matrices. -/
def Mat.times (M M' : Mat K) : Mat K := ⟨M.rows, M'.cols, fun i j => ∑ k ∈ range M.cols, M.at' i k * M'.at' k j⟩

/-- The transpose of a matrix. -/
def Mat.transpose (M : Mat K) : Mat K := ⟨M.cols, M.rows, fun i j => M.at' j i⟩

/-- The conjugate transpose of a matrix. -/
def Mat.adjoint [StarRing K] (M : Mat K) : Mat K := ⟨M.cols, M.rows, fun i j => star (M.at' j i)⟩

/-- The matrix acts as the identity. -/
def Mat.IsOne (M : Mat K) : Prop := M.rows = M.cols ∧ ∀ i j, i < M.rows → j < M.rows → M.at' i j = if i = j then 1 else 0

/-- A square matrix with at least one row. -/
def Mat.Square (M : Mat K) : Prop := M.rows = M.cols ∧ 0 < M.rows

/-- Two vectors are the same: equally long and equal at every index. -/
def Vec.Same (x y : Vec K) : Prop := x.size = y.size ∧ ∀ i < x.size, x.at' i = y.at' i

/-- The pairing `∑ᵢ xᵢ yᵢ`. -/
def Vec.dot (x y : Vec K) : K := ∑ i ∈ range x.size, x.at' i * y.at' i

/-! ### Lemmas -/

theorem Mat.Square.all {A : List (Mat K)} (h : ∀ M ∈ A, M.Square) : nrows A = ncols A ∧ 0 < nrows A := by
  induction A with
  | nil => simp [nrows, ncols]
  | cons M A ih =>
    obtain ⟨h1, h2⟩ := ih fun M hM => h M (List.mem_cons_of_mem _ hM)
    obtain ⟨h3, h4⟩ := h M (by simp)
    rw [nrows_cons, ncols_cons, h1, h3]
    exact ⟨rfl, by rw [← h1, ← h3]; exact Nat.mul_pos h4 h2⟩

/-- The mixed-product rule: `(⊗ Aᵢ)(⊗ Bᵢ) = ⊗ (Aᵢ Bᵢ)`. -/
theorem kron_times : ∀ (A B : List (Mat K)), List.Forall₂ (fun a b => a.cols = b.rows) A B →
    ncols A = nrows B ∧ nrows (List.zipWith Mat.times A B) = nrows A ∧ ncols (List.zipWith Mat.times A B) = ncols B ∧
    ∀ i j, i < nrows A → j < ncols B →
      ∑ k ∈ range (ncols A), kron A i k * kron B k j = kron (List.zipWith Mat.times A B) i j := by
  intro A B h
  induction h with
  | nil => simp [kron, nrows, ncols]
  | cons h0 _ ih =>
    rename_i a b As Bs _
    obtain ⟨e0, e1, e2, ev⟩ := ih
    refine ⟨by rw [ncols_cons, nrows_cons, h0, e0], by rw [List.zipWith_cons_cons, nrows_cons, nrows_cons, e1]; rfl,
      by rw [List.zipWith_cons_cons, ncols_cons, ncols_cons, e2]; rfl, ?_⟩
    intro i j hi hj
    rw [nrows_cons] at hi
    rw [ncols_cons] at hj
    have hpos : 0 < nrows As := by rcases Nat.eq_zero_or_pos (nrows As) with h | h; · rw [h] at hi; omega
                                   · exact h
    have hpos' : 0 < ncols Bs := by rcases Nat.eq_zero_or_pos (ncols Bs) with h | h; · rw [h] at hj; omega
                                    · exact h
    rw [ncols_cons, sum_digits, List.zipWith_cons_cons]
    simp only [kron]
    rw [e1, e2, ← ev _ _ (Nat.mod_lt i hpos) (Nat.mod_lt j hpos')]
    show _ = (∑ k ∈ range a.cols, a.at' _ k * b.at' k _) * _
    rw [sum_mul_sum]
    apply sum_congr rfl
    intro k1 _
    apply sum_congr rfl
    intro k2 hk2
    rw [mem_range] at hk2
    rw [← e0, Nat.mul_comm k1, Nat.mul_add_div (by omega), Nat.div_eq_of_lt hk2, Nat.add_zero, Nat.mul_add_mod,
      Nat.mod_eq_of_lt hk2]
    ring

theorem kron_transpose : ∀ (A : List (Mat K)), nrows (A.map Mat.transpose) = ncols A ∧ ncols (A.map Mat.transpose) = nrows A ∧
    ∀ i j, kron (A.map Mat.transpose) i j = kron A j i := by
  intro A
  induction A with
  | nil => simp [kron, nrows, ncols]
  | cons M A ih =>
    obtain ⟨h1, h2, h3⟩ := ih
    refine ⟨by rw [List.map_cons, nrows_cons, ncols_cons, h1]; rfl, by rw [List.map_cons, nrows_cons, ncols_cons, h2]; rfl, ?_⟩
    intro i j
    rw [List.map_cons, kron, kron, h1, h2, h3]
    rfl

theorem kron_adjoint [StarRing K] : ∀ (A : List (Mat K)), nrows (A.map Mat.adjoint) = ncols A ∧
    ncols (A.map Mat.adjoint) = nrows A ∧ ∀ i j, kron (A.map Mat.adjoint) i j = star (kron A j i) := by
  intro A
  induction A with
  | nil => simp [kron, nrows, ncols]
  | cons M A ih =>
    obtain ⟨h1, h2, h3⟩ := ih
    refine ⟨by rw [List.map_cons, nrows_cons, ncols_cons, h1]; rfl, by rw [List.map_cons, nrows_cons, ncols_cons, h2]; rfl, ?_⟩
    intro i j
    rw [List.map_cons, kron, kron, h1, h2, h3, star_mul']
    rfl

theorem kron_one : ∀ (A : List (Mat K)), (∀ M ∈ A, M.IsOne) → nrows A = ncols A ∧
    ∀ i j, i < nrows A → j < nrows A → kron A i j = if i = j then 1 else 0 := by
  intro A
  induction A with
  | nil =>
    intro _
    refine ⟨by simp [nrows, ncols], fun i j hi hj => ?_⟩
    have hi' : i = 0 := by simp [nrows] at hi; omega
    have hj' : j = 0 := by simp [nrows] at hj; omega
    simp [kron, hi', hj']
  | cons M A ih =>
    intro h
    obtain ⟨h1, h2⟩ := ih fun M hM => h M (List.mem_cons_of_mem _ hM)
    obtain ⟨h3, h4⟩ := h M (by simp)
    refine ⟨by rw [nrows_cons, ncols_cons, h1, h3], fun i j hi hj => ?_⟩
    rw [nrows_cons] at hi hj
    have hpos : 0 < nrows A := by rcases Nat.eq_zero_or_pos (nrows A) with h | h; · rw [h] at hi; omega
                                  · exact h
    have hi1 : i / nrows A < M.rows := Nat.div_lt_of_lt_mul (by rw [Nat.mul_comm]; exact hi)
    have hj1 : j / nrows A < M.rows := Nat.div_lt_of_lt_mul (by rw [Nat.mul_comm]; exact hj)
    rw [kron, ← h1, h4 _ _ hi1 hj1, h2 _ _ (Nat.mod_lt i hpos) (Nat.mod_lt j hpos)]
    have ei := Nat.div_add_mod i (nrows A)
    have ej := Nat.div_add_mod j (nrows A)
    by_cases hij : i = j
    · subst hij; simp
    · rw [if_neg hij]
      by_cases hd : i / nrows A = j / nrows A
      · rw [if_neg (show ¬ i % nrows A = j % nrows A from fun hm => hij (by rw [← ei, ← ej, hd, hm])), mul_zero]
      · rw [if_neg hd, zero_mul]

/-- The value of `kron_matvec`. -/
theorem matvec_val {A : List (Mat K)} {b x : Vec K} (hA : ∀ M ∈ A, M.Square) (hb : b.size = ncols A)
    (h : kronMatvec A b = .ok x) : x.size = nrows A ∧ ∀ i < nrows A, x.at' i = ∑ j ∈ range (ncols A), kron A i j * b.at' j := by
  obtain ⟨x', h1, h2⟩ := C65_matvec A b hA hb
  rw [h1] at h
  cases h
  exact h2

theorem forall₂_square {A B : List (Mat K)} (h : List.Forall₂ (fun a b => a.cols = b.rows) A B) (hA : ∀ M ∈ A, M.Square)
    (hB : ∀ M ∈ B, M.Square) : ∀ M ∈ List.zipWith Mat.times A B, M.Square := by
  induction h with
  | nil => intro M hM; cases hM
  | cons h0 _ ih =>
    rename_i a b As Bs _
    intro M hM
    rw [List.zipWith_cons_cons, List.mem_cons] at hM
    rcases hM with hM | hM
    · subst hM
      have h1 := hA a (by simp)
      have h2 := hB b (by simp)
      exact ⟨by show a.rows = b.cols; rw [h1.1, h0, h2.1], h1.2⟩
    · exact ih (fun M hM => hA M (List.mem_cons_of_mem _ hM)) (fun M hM => hB M (List.mem_cons_of_mem _ hM)) M hM

/-! ### C150 -/

/-- **C150.** Applying `⊗ Bᵢ` and then `⊗ Aᵢ` is applying `⊗ (Aᵢ Bᵢ)`. -/
theorem C150_twice (A B : List (Mat K)) (x : Vec K) (hAB : List.Forall₂ (fun a b => a.cols = b.rows) A B)
    (hA : ∀ M ∈ A, M.Square) (hB : ∀ M ∈ B, M.Square) (hx : x.size = ncols B) :
    ∃ y z z', kronMatvec B x = .ok y ∧ kronMatvec A y = .ok z ∧ kronMatvec (List.zipWith Mat.times A B) x = .ok z' ∧
      Vec.Same z z' := by
  obtain ⟨e0, e1, e2, ev⟩ := kron_times A B hAB
  obtain ⟨y, hy, hys, hyv⟩ := C65_matvec B x hB hx
  obtain ⟨z, hz, hzs, hzv⟩ := C65_matvec A y hA (by rw [hys, e0])
  obtain ⟨z', hz', hzs', hzv'⟩ := C65_matvec (List.zipWith Mat.times A B) x (forall₂_square hAB hA hB) (by rw [hx, e2])
  refine ⟨y, z, z', hy, hz, hz', by rw [hzs, hzs', e1], fun i hi => ?_⟩
  rw [hzs] at hi
  rw [hzv i hi, hzv' i (by rw [e1]; exact hi), e2]
  have h1 : ∑ k ∈ range (ncols A), kron A i k * y.at' k =
      ∑ k ∈ range (ncols A), ∑ j ∈ range (ncols B), kron A i k * kron B k j * x.at' j := by
    apply sum_congr rfl
    intro k hk
    rw [mem_range, e0] at hk
    rw [hyv k hk, mul_sum]
    exact sum_congr rfl fun _ _ => (mul_assoc _ _ _).symm
  rw [h1, sum_comm]
  apply sum_congr rfl
  intro j hj
  rw [mem_range] at hj
  rw [← sum_mul, ev i j hi hj]

/-- **C150.** Identity factors leave the vector unchanged. -/
theorem C150_identity (A : List (Mat K)) (x : Vec K) (hA : ∀ M ∈ A, M.IsOne ∧ 0 < M.rows) (hx : x.size = ncols A) :
    ∃ y, kronMatvec A x = .ok y ∧ Vec.Same y x := by
  obtain ⟨e, ev⟩ := kron_one A fun M hM => (hA M hM).1
  obtain ⟨y, hy, hys, hyv⟩ := C65_matvec A x (fun M hM => ⟨(hA M hM).1.1, (hA M hM).2⟩) hx
  refine ⟨y, hy, by rw [hys, hx, e], fun i hi => ?_⟩
  rw [hys] at hi
  rw [hyv i hi, ← e]
  have : ∀ j ∈ range (nrows A), kron A i j * x.at' j = if i = j then x.at' j else 0 := by
    intro j hj
    rw [mem_range] at hj
    rw [ev i j hi hj]
    split <;> simp
  rw [sum_congr rfl this, sum_ite_eq, if_pos (mem_range.2 hi)]

/-- **C150.** Inverse factors undo: solving with a Kronecker product takes only the inverses of its factors. -/
theorem C150_inverse (A B : List (Mat K)) (x : Vec K) (hAB : List.Forall₂ (fun a b => a.cols = b.rows) A B)
    (hA : ∀ M ∈ A, M.Square) (hB : ∀ M ∈ B, M.Square) (hx : x.size = ncols B)
    (hinv : ∀ M ∈ List.zipWith Mat.times A B, M.IsOne) :
    ∃ y z, kronMatvec B x = .ok y ∧ kronMatvec A y = .ok z ∧ Vec.Same z x := by
  obtain ⟨y, z, z', hy, hz, hz', h1, h2⟩ := C150_twice A B x hAB hA hB hx
  obtain ⟨w, hw, h3, h4⟩ := C150_identity (List.zipWith Mat.times A B) x
    (fun M hM => ⟨hinv M hM, (forall₂_square hAB hA hB M hM).2⟩) (by rw [hx, (kron_times A B hAB).2.2.1])
  rw [hz'] at hw
  cases hw
  exact ⟨y, z, hy, hz, h1.trans h3, fun i hi => by rw [h2 i hi, h4 i (by rw [← h1]; exact hi)]⟩

/-- **C150.** Transposed factors give the transpose: `⟨A x, y⟩ = ⟨x, Aᵀ y⟩`. -/
theorem C150_transpose (A : List (Mat K)) (x y : Vec K) (hA : ∀ M ∈ A, M.Square) (hx : x.size = ncols A) (hy : y.size = nrows A) :
    ∃ Ax Aty, kronMatvec A x = .ok Ax ∧ kronMatvec (A.map Mat.transpose) y = .ok Aty ∧ Vec.dot Ax y = Vec.dot x Aty := by
  obtain ⟨e1, e2, ev⟩ := kron_transpose A
  obtain ⟨u, hu, hus, huv⟩ := C65_matvec A x hA hx
  have hT : ∀ M ∈ A.map Mat.transpose, M.Square := by
    intro M hM
    obtain ⟨N, hN, rfl⟩ := List.mem_map.1 hM
    have := hA N hN
    exact ⟨this.1.symm, by show 0 < N.cols; rw [← this.1]; exact this.2⟩
  obtain ⟨v, hv, hvs, hvv⟩ := C65_matvec (A.map Mat.transpose) y hT (by rw [hy, e2])
  refine ⟨u, v, hu, hv, ?_⟩
  unfold Vec.dot
  rw [hus, hx]
  have h1 : ∑ i ∈ range (nrows A), u.at' i * y.at' i =
      ∑ i ∈ range (nrows A), ∑ j ∈ range (ncols A), kron A i j * x.at' j * y.at' i := by
    apply sum_congr rfl
    intro i hi
    rw [huv i (mem_range.1 hi), sum_mul]
  have h2 : ∑ j ∈ range (ncols A), x.at' j * v.at' j =
      ∑ j ∈ range (ncols A), ∑ i ∈ range (nrows A), kron A i j * x.at' j * y.at' i := by
    apply sum_congr rfl
    intro j hj
    rw [hvv j (by rw [e1]; exact mem_range.1 hj), e2, mul_sum]
    apply sum_congr rfl
    intro i _
    rw [ev]; ring
  rw [h1, h2, sum_comm]

/-- **C150.** The product is linear in the vector. -/
theorem C150_linear (A : List (Mat K)) (x y : Vec K) (c d : K) (hA : ∀ M ∈ A, M.Square) (hx : x.size = ncols A)
    (hy : y.size = ncols A) :
    ∃ Ax Ay Az, kronMatvec A x = .ok Ax ∧ kronMatvec A y = .ok Ay ∧
      kronMatvec A ⟨x.size, fun i => c * x.at' i + d * y.at' i⟩ = .ok Az ∧
      Vec.Same Az ⟨Ax.size, fun i => c * Ax.at' i + d * Ay.at' i⟩ := by
  obtain ⟨u, hu, hus, huv⟩ := C65_matvec A x hA hx
  obtain ⟨v, hv, _, hvv⟩ := C65_matvec A y hA hy
  obtain ⟨w, hw, hws, hwv⟩ := C65_matvec A ⟨x.size, fun i => c * x.at' i + d * y.at' i⟩ hA hx
  refine ⟨u, v, w, hu, hv, hw, by rw [hws, hus], fun i hi => ?_⟩
  rw [hws] at hi
  dsimp only
  rw [hwv i hi, huv i hi, hvv i hi, mul_sum, mul_sum, ← sum_add_distrib]
  apply sum_congr rfl
  intro j _
  ring

/-- **C150.** Scaling one factor scales the result. -/
theorem C150_scaled_factor (P Q : List (Mat K)) (M : Mat K) (c : K) (x : Vec K) (hA : ∀ N ∈ P ++ M :: Q, N.Square)
    (hx : x.size = ncols (P ++ M :: Q)) :
    ∃ y y', kronMatvec (P ++ M :: Q) x = .ok y ∧
      kronMatvec (P ++ ⟨M.rows, M.cols, fun i j => c * M.at' i j⟩ :: Q) x = .ok y' ∧
      Vec.Same y' ⟨y.size, fun i => c * y.at' i⟩ := by
  have hk : nrows (P ++ (⟨M.rows, M.cols, fun i j => c * M.at' i j⟩ : Mat K) :: Q) = nrows (P ++ M :: Q) ∧
      ncols (P ++ (⟨M.rows, M.cols, fun i j => c * M.at' i j⟩ : Mat K) :: Q) = ncols (P ++ M :: Q) ∧
      ∀ i j, kron (P ++ (⟨M.rows, M.cols, fun i j => c * M.at' i j⟩ : Mat K) :: Q) i j = c * kron (P ++ M :: Q) i j := by
    clear hx hA
    induction P with
    | nil => exact ⟨rfl, rfl, fun i j => by simp only [List.nil_append, kron]; ring⟩
    | cons N P ih =>
      obtain ⟨h1, h2, h3⟩ := ih
      refine ⟨by rw [List.cons_append, List.cons_append, nrows_cons, nrows_cons, h1],
        by rw [List.cons_append, List.cons_append, ncols_cons, ncols_cons, h2], fun i j => ?_⟩
      rw [List.cons_append, List.cons_append, kron, kron, h1, h2, h3]
      ring
  obtain ⟨e1, e2, ev⟩ := hk
  obtain ⟨u, hu, hus, huv⟩ := C65_matvec _ x hA hx
  obtain ⟨v, hv, hvs, hvv⟩ := C65_matvec (P ++ ⟨M.rows, M.cols, fun i j => c * M.at' i j⟩ :: Q) x
    (by
      intro N hN
      rcases List.mem_append.1 hN with h | h
      · exact hA N (by simp [h])
      · rcases List.mem_cons.1 h with h | h
        · subst h; exact hA M (by simp)
        · exact hA N (by simp [h]))
    (by rw [hx, e2])
  refine ⟨u, v, hu, hv, by rw [hvs, hus, e1], fun i hi => ?_⟩
  rw [hvs, e1] at hi
  dsimp only
  rw [hvv i (by rw [e1]; exact hi), huv i hi, e2, mul_sum]
  apply sum_congr rfl
  intro j _
  rw [ev]; ring

/-- **C150.** The factors of `kron_cholesky`, applied to the result of their adjoints, apply the covariance: `L (Lᴴ x) = A x`, so
that `L z` with white `z` has that covariance. -/
theorem C150_cholesky [StarRing K] (chol : Mat K → Except PyErr (Mat K)) (hchol : ∀ M L, chol M = .ok L → IsFactor L M) (eps : K)
    (A L : List (Mat K)) (x : Vec K) (hA : ∀ M ∈ A, (∃ l, chol M = .ok l) ∧ M.Square) (h : kronCholesky chol eps A = .ok L)
    (hx : x.size = ncols A) :
    ∃ y z z', kronMatvec (L.map Mat.adjoint) x = .ok y ∧ kronMatvec L y = .ok z ∧ kronMatvec A x = .ok z' ∧ Vec.Same z z' := by
  have hf : List.Forall₂ IsFactor L A := by
    have := kronCholesky_ok h
    clear h hx
    induction this with
    | nil => exact .nil
    | cons h0 _ ih =>
      rename_i l a Ls As _
      refine .cons ?_ (ih fun M hM => hA M (List.mem_cons_of_mem _ hM))
      obtain ⟨⟨l', hl'⟩, _⟩ := hA a (by simp)
      unfold cholFactor at h0
      rw [hl'] at h0
      cases h0
      exact hchol _ _ hl'
  obtain ⟨e0, e1, e2, ev⟩ := kron_factor L A hf
  obtain ⟨a1, a2, av⟩ := kron_adjoint L
  have hL : ∀ M ∈ L, M.Square := by
    have hA' : ∀ M ∈ A, M.Square := fun M hM => (hA M hM).2
    clear h hx e0 e1 e2 ev a1 a2 av hA
    induction hf with
    | nil => intro M hM; cases hM
    | cons h0 _ ih =>
      rename_i l a Ls As _
      intro M hM
      rcases List.mem_cons.1 hM with hM | hM
      · subst hM
        have := hA' a (by simp)
        exact ⟨by rw [h0.2.1, h0.2.2.1], by rw [h0.2.1]; exact this.2⟩
      · exact ih (fun M hM => hA' M (List.mem_cons_of_mem _ hM)) M hM
  have hLa : ∀ M ∈ L.map Mat.adjoint, M.Square := by
    intro M hM
    obtain ⟨N, hN, rfl⟩ := List.mem_map.1 hM
    have := hL N hN
    exact ⟨this.1.symm, by show 0 < N.cols; rw [← this.1]; exact this.2⟩
  obtain ⟨y, hy, hys, hyv⟩ := C65_matvec (L.map Mat.adjoint) x hLa (by rw [hx, a2, e0, e1])
  obtain ⟨z, hz, hzs, hzv⟩ := C65_matvec L y hL (by rw [hys, a1])
  obtain ⟨z', hz', hzs', hzv'⟩ := C65_matvec A x (fun M hM => (hA M hM).2) hx
  refine ⟨y, z, z', hy, hz, hz', by rw [hzs, hzs', e1], fun i hi => ?_⟩
  rw [hzs] at hi
  rw [hzv i hi, hzv' i (by rw [← e1]; exact hi)]
  have h1 : ∑ k ∈ range (ncols L), kron L i k * y.at' k =
      ∑ k ∈ range (ncols L), ∑ j ∈ range (nrows L), kron L i k * star (kron L j k) * x.at' j := by
    apply sum_congr rfl
    intro k hk
    rw [mem_range] at hk
    rw [hyv k (by rw [a1]; exact hk), a2, mul_sum]
    apply sum_congr rfl
    intro j _
    rw [av, mul_assoc]
  rw [h1, sum_comm, e1, e0]
  apply sum_congr rfl
  intro j hj
  rw [mem_range] at hj
  rw [← sum_mul, ev i j (by rw [← e1]; exact hi) hj]

/-- Two factors and their inverses meet the hypotheses of every theorem above. -/
example : let A : List (Mat ℤ) := [⟨2, 2, fun i j => if i = j then 1 else if i < j then 1 else 0⟩, ⟨1, 1, fun _ _ => -1⟩]
    let B : List (Mat ℤ) := [⟨2, 2, fun i j => if i = j then 1 else if i < j then -1 else 0⟩, ⟨1, 1, fun _ _ => -1⟩]
    ∃ y z, kronMatvec B ⟨2, fun i => i + 5⟩ = .ok y ∧ kronMatvec A y = .ok z ∧ y.at' 0 = 1 ∧ z.at' 0 = 5 := by
  intro A B
  have hA : ∀ M ∈ A, M.Square := by simp [A, Mat.Square]
  have hB : ∀ M ∈ B, M.Square := by simp [B, Mat.Square]
  obtain ⟨y, z, hy, hz, h1, h2⟩ := C150_inverse A B ⟨2, fun i => i + 5⟩ (by simp [A, B]) hA hB (by simp [B, ncols]) (by
    intro M hM
    simp only [A, B, List.zipWith_cons_cons, List.zipWith_nil_left, List.mem_cons, List.not_mem_nil, or_false] at hM
    rcases hM with hM | hM
    · subst hM
      refine ⟨rfl, fun i j hi hj => ?_⟩
      have hi' : i < 2 := hi
      have hj' : j < 2 := hj
      interval_cases i <;> interval_cases j <;> decide
    · subst hM
      refine ⟨rfl, fun i j hi hj => ?_⟩
      have hi' : i < 1 := hi
      have hj' : j < 1 := hj
      interval_cases i; interval_cases j; decide)
  obtain ⟨hys, hyv⟩ := matvec_val hB (by simp [B, ncols]) hy
  refine ⟨y, z, hy, hz, ?_, h2 0 (by rw [h1]; decide)⟩
  rw [hyv 0 (by simp [B, nrows])]
  decide

end Verif.Linalg.Kron
