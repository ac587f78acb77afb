/-
Lemmas about the Fourier transforms of `Verif.Examples.Spi`.
-/
import Verif.Examples.Spi
import Mathlib.RingTheory.RootsOfUnity.Complex
import Mathlib.Algebra.BigOperators.Ring.Finset
import Mathlib.Algebra.BigOperators.Field
import Mathlib.Tactic.Ring
import Mathlib.Tactic.FieldSimp
import Mathlib.Tactic.Push

set_option autoImplicit false

namespace Verif.Examples

open Finset

theorem root_add (n : Nat) (a b : ℤ) : root n (a + b) = root n a * root n b := by
  unfold root
  rw [← Complex.exp_add]
  congr 1
  push_cast
  ring

theorem root_zero (n : Nat) : root n 0 = 1 := by simp [root]

theorem root_mul_self (n : Nat) (a : ℤ) (hn : 0 < n) : root n (n * a) = 1 := by
  unfold root
  rw [Complex.exp_eq_one_iff]
  refine ⟨a, ?_⟩
  have : (n : ℂ) ≠ 0 := by exact_mod_cast hn.ne'
  push_cast
  field_simp

theorem conj_root (n : Nat) (a : ℤ) : starRingEnd ℂ (root n a) = root n (-a) := by
  unfold root
  rw [← Complex.exp_conj]
  congr 1
  simp only [map_div₀, map_mul, Complex.conj_I, Complex.conj_ofReal, map_natCast, map_intCast, Complex.conj_ofNat]
  push_cast
  ring

theorem root_pow (n : Nat) (a : ℤ) (k : Nat) : root n a ^ k = root n (k * a) := by
  induction k with
  | zero => simp [root_zero]
  | succ k ih => rw [pow_succ, ih, ← root_add]; congr 1; push_cast; ring

theorem root_ne_one (n : Nat) (hn : 0 < n) (a : ℤ) (h : ¬ (n : ℤ) ∣ a) : root n a ≠ 1 := by
  intro e
  unfold root at e
  rw [Complex.exp_eq_one_iff] at e
  obtain ⟨m, hm⟩ := e
  apply h
  refine ⟨m, ?_⟩
  have hn' : (n : ℂ) ≠ 0 := by exact_mod_cast hn.ne'
  have hpi : (2 * Real.pi * Complex.I : ℂ) ≠ 0 := by
    simp [Complex.I_ne_zero, Real.pi_ne_zero]
  field_simp at hm
  have : (a : ℂ) = n * m := by
    exact hm
  exact_mod_cast this

/-- Orthogonality of the roots. -/
theorem root_sum (n : Nat) (hn : 0 < n) (a : ℤ) :
    ∑ k ∈ range n, root n (k * a) = if (n : ℤ) ∣ a then (n : ℂ) else 0 := by
  split_ifs with h
  · obtain ⟨b, rfl⟩ := h
    rw [sum_congr rfl (g := fun _ => (1 : ℂ))]
    · simp
    · intro k _
      rw [show (k : ℤ) * (n * b) = n * (k * b) by ring, root_mul_self n _ hn]
  · have h1 := root_ne_one n hn a h
    have hg := geom_sum_mul (root n a) n
    have : root n a ^ n = 1 := by rw [root_pow, root_mul_self n a hn]
    rw [this, sub_self] at hg
    rcases mul_eq_zero.1 hg with hz | hz
    · rw [← hz]
      exact sum_congr rfl fun k _ => (root_pow n a k).symm
    · exact absurd (sub_eq_zero.1 hz) h1

/-- A sum over a cyclic axis does not depend on where it begins. -/
theorem sum_cyclic {M : Type*} [AddCommMonoid M] (n s : Nat) (g : Nat → M) :
    ∑ i ∈ range n, g ((i + s) % n) = ∑ i ∈ range n, g i := by
  rcases Nat.eq_zero_or_pos n with rfl | hn
  · simp
  have hs : s % n < n := Nat.mod_lt _ hn
  have hds := Nat.div_add_mod s n
  refine sum_nbij' (fun i => (i + s) % n) (fun i => (i + (n - s % n)) % n) ?_ ?_ ?_ ?_ (fun _ _ => rfl)
  · intro i _; exact mem_range.2 (Nat.mod_lt _ hn)
  · intro i _; exact mem_range.2 (Nat.mod_lt _ hn)
  · intro i hi
    rw [mem_range] at hi
    show ((i + s) % n + (n - s % n)) % n = i
    rw [Nat.mod_add_mod]
    conv_lhs => rw [← hds]
    rw [show i + (n * (s / n) + s % n) + (n - (n * (s / n) + s % n) % n) = i + n * (s / n + 1) by
      rw [Nat.mul_add_mod, Nat.mod_mod, mul_add, mul_one]; omega, Nat.add_mul_mod_self_left, Nat.mod_eq_of_lt hi]
  · intro i hi
    rw [mem_range] at hi
    show ((i + (n - s % n)) % n + s) % n = i
    rw [Nat.mod_add_mod]
    conv_lhs => rw [← hds]
    rw [show i + (n - (n * (s / n) + s % n) % n) + (n * (s / n) + s % n) = i + n * (s / n + 1) by
      rw [Nat.mul_add_mod, Nat.mod_mod, mul_add, mul_one]; omega, Nat.add_mul_mod_self_left, Nat.mod_eq_of_lt hi]

/-- A root only depends on its argument modulo the length. -/
theorem root_mod (n : Nat) (hn : 0 < n) (k : ℤ) (a : Nat) : root n (k * (a % n : Nat)) = root n (k * a) := by
  conv_rhs => rw [← Nat.div_add_mod a n]
  rw [show k * ((n * (a / n) + a % n : Nat) : ℤ) = n * (k * (a / n : Nat)) + k * (a % n : Nat) by push_cast; ring,
    root_add, root_mul_self n _ hn, one_mul]

/-- Inversion along one axis. -/
theorem inverse (n : Nat) (x : Nat → ℂ) (i : Nat) (hi : i < n) :
    (∑ k ∈ range n, (∑ j ∈ range n, x j * root n (-(k * j))) * root n (k * i)) / n = x i := by
  have hn : 0 < n := by omega
  have hn' : (n : ℂ) ≠ 0 := by exact_mod_cast hn.ne'
  have : ∑ k ∈ range n, (∑ j ∈ range n, x j * root n (-(k * j))) * root n (k * i) = x i * n := by
    simp only [sum_mul]
    rw [sum_comm]
    have inner : ∀ j ∈ range n, ∑ k ∈ range n, x j * root n (-(k * j)) * root n (k * i) =
        if j = i then x i * n else 0 := by
      intro j hj
      rw [mem_range] at hj
      have e : ∀ k ∈ range n, x j * root n (-(k * j)) * root n (k * i) = x j * root n (k * ((i : ℤ) - j)) := by
        intro k _
        rw [mul_assoc, ← root_add]
        congr 2
        ring
      rw [sum_congr rfl e, ← mul_sum, root_sum n hn]
      by_cases hij : j = i
      · subst hij; simp
      · rw [if_neg hij, if_neg, mul_zero]
        intro hd
        have := Int.eq_zero_of_abs_lt_dvd hd (by rw [abs_lt]; constructor <;> omega)
        omega
    rw [sum_congr rfl inner, sum_ite_eq' (range n) i, if_pos (mem_range.2 hi)]
  rw [this, mul_div_assoc, div_self hn', mul_one]

/-- The transform along one axis of a shifted sequence. -/
theorem shift_transform (n : Nat) (hn : 0 < n) (f : Nat → ℂ) (k p : Nat) (hp : p ≤ n) :
    ∑ i ∈ range n, f ((i + (n - p)) % n) * root n (-(k * i)) =
      root n (-(k * p)) * ∑ i ∈ range n, f i * root n (-(k * i)) := by
  rw [← sum_cyclic n (n - p) fun i => f i * root n (-(k * i)), mul_sum]
  refine sum_congr rfl fun i _ => ?_
  have : root n (-((k : ℤ) * ((i + (n - p)) % n : Nat))) = root n (-(k : ℤ) * (i + (n - p) : Nat)) := by
    rw [← root_mod n hn (-(k : ℤ)) (i + (n - p))]
    congr 1; ring
  rw [this]
  have e : root n (-(k * i)) = root n (-(k * p)) * root n (-(k : ℤ) * (i + (n - p) : Nat)) := by
    rw [← root_add, show -((k : ℤ) * p) + -(k : ℤ) * (i + (n - p) : Nat) = n * (-k) + -(k * i) by
      push_cast [Nat.cast_sub hp]; ring, root_add, root_mul_self n _ hn, one_mul]
  rw [e]
  ring

/-- The cyclic convolution of two images. -/
noncomputable def cyclic (n1 n2 : Nat) (a b : Nat → Nat → ℝ) (i j : Nat) : ℝ :=
  ∑ p ∈ range n1, ∑ q ∈ range n2, a p q * b ((i + (n1 - p)) % n1) ((j + (n2 - q)) % n2)

/-- The transform of a cyclic convolution is the product of the transforms. -/
theorem rfft2_cyclic (n1 n2 : Nat) (h1 : 0 < n1) (h2 : 0 < n2) (a b : Nat → Nat → ℝ) (k l : Nat) :
    rfft2 n1 n2 (cyclic n1 n2 a b) k l = rfft2 n1 n2 a k l * rfft2 n1 n2 b k l := by
  have lhs : rfft2 n1 n2 (cyclic n1 n2 a b) k l = ∑ p ∈ range n1, ∑ q ∈ range n2, (a p q : ℂ) *
      ∑ i ∈ range n1, ∑ j ∈ range n2, (b ((i + (n1 - p)) % n1) ((j + (n2 - q)) % n2) : ℂ) * root n1 (-(k * i)) *
        root n2 (-(l * j)) := by
    unfold rfft2 cyclic
    push_cast
    simp only [sum_mul, mul_sum]
    rw [sum_congr rfl fun i _ => sum_comm]
    rw [sum_comm]
    refine sum_congr rfl fun p _ => ?_
    rw [sum_congr rfl fun i _ => sum_comm]
    rw [sum_comm]
    refine sum_congr rfl fun q _ => sum_congr rfl fun i _ => sum_congr rfl fun j _ => ?_
    ring
  have inner : ∀ p ∈ range n1, ∀ q ∈ range n2,
      ∑ i ∈ range n1, ∑ j ∈ range n2, (b ((i + (n1 - p)) % n1) ((j + (n2 - q)) % n2) : ℂ) * root n1 (-(k * i)) *
        root n2 (-(l * j)) = root n1 (-(k * p)) * root n2 (-(l * q)) * rfft2 n1 n2 b k l := by
    intro p hp q hq
    rw [mem_range] at hp hq
    have e1 : ∀ i ∈ range n1, ∑ j ∈ range n2, (b ((i + (n1 - p)) % n1) ((j + (n2 - q)) % n2) : ℂ) *
        root n1 (-(k * i)) * root n2 (-(l * j)) =
        (fun i' => root n2 (-(l * q)) * ∑ j ∈ range n2, (b i' j : ℂ) * root n2 (-(l * j))) ((i + (n1 - p)) % n1) *
          root n1 (-(k * i)) := by
      intro i _
      have := shift_transform n2 h2 (fun j => (b ((i + (n1 - p)) % n1) j : ℂ)) l q hq.le
      dsimp only
      rw [← this, sum_mul]
      exact sum_congr rfl fun j _ => by ring
    rw [sum_congr rfl e1, shift_transform n1 h1
      (fun i' => root n2 (-(l * q)) * ∑ j ∈ range n2, (b i' j : ℂ) * root n2 (-(l * j))) k p hp.le]
    unfold rfft2
    simp only [mul_sum, sum_mul]
    exact sum_congr rfl fun i _ => sum_congr rfl fun j _ => by ring
  rw [lhs, sum_congr rfl fun p hp => sum_congr rfl fun q hq => by rw [inner p hp q hq]]
  conv_rhs => rw [rfft2]
  simp only [sum_mul]
  exact sum_congr rfl fun p _ => sum_congr rfl fun q _ => by ring

/-- The inverse transform of the transform. -/
theorem irfft2_rfft2 (n1 n2 : Nat) (x : Nat → Nat → ℝ) (i j : Nat) (hi : i < n1) (hj : j < n2) :
    irfft2 n1 n2 (rfft2 n1 n2 x) i j = x i j := by
  have h2 : 0 < n2 := by omega
  have hz : ∀ l, (∑ k ∈ range n1, rfft2 n1 n2 x k l * root n1 (k * i)) / n1 =
      ∑ j' ∈ range n2, (x i j' : ℂ) * root n2 (-(l * j')) := by
    intro l
    rw [← inverse n1 (fun i' => ∑ j' ∈ range n2, (x i' j' : ℂ) * root n2 (-(l * j'))) i hi]
    congr 1
    refine sum_congr rfl fun k _ => ?_
    congr 1
    unfold rfft2
    refine sum_congr rfl fun i' _ => ?_
    rw [sum_mul]
    exact sum_congr rfl fun j' _ => by ring
  have hconj : ∀ l ∈ range n2, (if l ≤ n2 / 2 then (∑ k ∈ range n1, rfft2 n1 n2 x k l * root n1 (k * i)) / n1
      else starRingEnd ℂ ((∑ k ∈ range n1, rfft2 n1 n2 x k (n2 - l) * root n1 (k * i)) / n1)) =
      ∑ j' ∈ range n2, (x i j' : ℂ) * root n2 (-(l * j')) := by
    intro l hl
    rw [mem_range] at hl
    split_ifs with h
    · exact hz l
    · rw [hz, map_sum]
      refine sum_congr rfl fun j' _ => ?_
      rw [map_mul, Complex.conj_ofReal, conj_root, neg_neg]
      congr 1
      rw [show ((n2 - l : Nat) : ℤ) * j' = n2 * j' + -(l * j') by push_cast [Nat.cast_sub hl.le]; ring, root_add,
        root_mul_self n2 _ h2, one_mul]
  unfold irfft2
  dsimp only
  rw [sum_congr rfl fun l hl => by rw [hconj l hl]]
  rw [inverse n2 (fun j' => (x i j' : ℂ)) j hj, Complex.ofReal_re]

/-- The product of transforms gives the cyclic convolution. -/
theorem irfft2_product (n1 n2 : Nat) (a b : Nat → Nat → ℝ) (i j : Nat) (hi : i < n1) (hj : j < n2) :
    irfft2 n1 n2 (fun k l => rfft2 n1 n2 a k l * rfft2 n1 n2 b k l) i j = cyclic n1 n2 a b i j := by
  have : (fun k l => rfft2 n1 n2 a k l * rfft2 n1 n2 b k l) = rfft2 n1 n2 (cyclic n1 n2 a b) := by
    funext k l
    rw [rfft2_cyclic n1 n2 (by omega) (by omega)]
  rw [this, irfft2_rfft2 n1 n2 _ i j hi hj]

end Verif.Examples
