/-
C43: Noll indices and Zernike polynomials.
-/
import Verif.Rime.ModelZernike
import Verif.Loops
import Mathlib.Data.Nat.Factorial.Basic
import Mathlib.Data.Nat.Choose.Sum
import Mathlib.Data.Nat.Choose.Cast
import Mathlib.Algebra.BigOperators.Intervals
import Mathlib.Tactic.FieldSimp
import Mathlib.Tactic.Linarith

set_option autoImplicit false

namespace Verif.Rime

/-! ### specification -/

/-- The pairs of degree and order of the Zernike modes. -/
def IsMode (p : Nat × Int) : Prop := |p.2| ≤ p.1 ∧ (2 : Int) ∣ p.1 - p.2

/-- The radial polynomial of degree `n` and order `m`, as in the literature. -/
noncomputable def radial (n m : Nat) (rho : ℝ) : ℝ :=
  ∑ k ∈ Finset.range ((n - m) / 2 + 1),
    (-1) ^ k * ((n - k).factorial : ℝ) /
      (k.factorial * ((n + m) / 2 - k).factorial * ((n - m) / 2 - k).factorial) * rho ^ (n - 2 * k)

/-! ### the Noll index -/

theorem nollLoop_spec (j1 n : Nat) :
    (nollLoop j1 n).1 ≤ (nollLoop j1 n).2 ∧ n ≤ (nollLoop j1 n).2 ∧
    2 * (nollLoop j1 n).1 + (nollLoop j1 n).2 * ((nollLoop j1 n).2 + 1) = 2 * j1 + n * (n + 1) := by
  fun_induction nollLoop j1 n with
  | case1 j1 n h ih =>
    obtain ⟨h1, h2, h3⟩ := ih
    refine ⟨h1, by omega, ?_⟩
    rw [h3]
    obtain ⟨d, rfl⟩ : ∃ d, j1 = d + (n + 1) := ⟨j1 - (n + 1), by omega⟩
    rw [Nat.add_sub_cancel]
    ring
  | case2 j1 n h => exact ⟨by omega, le_rfl, rfl⟩

/-- Position within the row and row of the triangle determine each other. -/
theorem row_unique {a b n k : Nat} (ha : a ≤ n) (hb : b ≤ k)
    (h : 2 * a + n * (n + 1) = 2 * b + k * (k + 1)) : n = k ∧ a = b := by
  have hnk : n = k := by
    by_contra hne
    rcases Nat.lt_or_gt_of_ne hne with hl | hl
    · have : (n + 1) * (n + 2) ≤ k * (k + 1) := Nat.mul_le_mul (by omega) (by omega)
      nlinarith
    · have : (k + 1) * (k + 2) ≤ n * (n + 1) := Nat.mul_le_mul (by omega) (by omega)
      nlinarith
  subst hnk
  exact ⟨rfl, by omega⟩

theorem noll_eq {j n a : Nat} (ha : a ≤ n) (h : 2 * a + n * (n + 1) = 2 * j) :
    noll j = (n, (-1) ^ (j + 1) * (((n % 2) + 2 * ((a + ((n + 1) % 2)) / 2) : Nat) : Int)) := by
  obtain ⟨h1, -, h3⟩ := nollLoop_spec j 0
  obtain ⟨e1, e2⟩ := row_unique h1 ha (by rw [h3, h]; simp)
  simp only [noll, Nat.add_sub_cancel, e1, e2]

theorem noll_row (j : Nat) : ∃ n a, a ≤ n ∧ 2 * a + n * (n + 1) = 2 * j :=
  ⟨_, _, (nollLoop_spec j 0).1, by simpa using (nollLoop_spec j 0).2.2⟩

theorem natAbs_noll {j n a : Nat} (ha : a ≤ n) (h : 2 * a + n * (n + 1) = 2 * j) :
    (noll j).2.natAbs = (n % 2) + 2 * ((a + ((n + 1) % 2)) / 2) := by
  rw [noll_eq ha h]
  show ((-1) ^ (j + 1) * (((n % 2) + 2 * ((a + ((n + 1) % 2)) / 2) : Nat) : Int)).natAbs = _
  rw [Int.natAbs_mul, Int.natAbs_pow, Int.natAbs_natCast]
  simp

/-- **C43** Every index gives a mode. -/
theorem C43_noll_mode (j : Nat) : IsMode (noll j) := by
  obtain ⟨n, a, ha, h⟩ := noll_row j
  have hn := natAbs_noll ha h
  have h1 : (noll j).1 = n := by rw [noll_eq ha h]
  unfold IsMode
  rw [h1, Int.abs_eq_natAbs]
  constructor <;> omega

/-- **C43** Different indices give different modes. -/
theorem C43_noll_injective (j k : Nat) (h : noll j = noll k) : j = k := by
  obtain ⟨n, a, ha, hj⟩ := noll_row j
  obtain ⟨n', b, hb, hk⟩ := noll_row k
  have hj1 : (noll j).1 = n := by rw [noll_eq ha hj]
  have hk1 : (noll k).1 = n' := by rw [noll_eq hb hk]
  obtain rfl : n = n' := by rw [← hj1, ← hk1, h]
  have ea := natAbs_noll ha hj
  have eb := natAbs_noll hb hk
  rw [h, eb] at ea
  have hv : (noll j).2 = (noll k).2 := by rw [h]
  rw [noll_eq ha hj, noll_eq hb hk] at hv
  simp only at hv
  rw [← ea] at hv
  by_cases hz : (n % 2) + 2 * ((b + ((n + 1) % 2)) / 2) = 0
  · omega
  · -- the signs agree, so the indices have the same parity
    have hpar : (j + 1) % 2 = (k + 1) % 2 := by
      rcases Nat.even_or_odd (j + 1) with ej | oj <;> rcases Nat.even_or_odd (k + 1) with ek | ok
      · rw [Nat.even_iff.1 ej, Nat.even_iff.1 ek]
      · rw [ej.neg_one_pow, ok.neg_one_pow] at hv; omega
      · rw [oj.neg_one_pow, ek.neg_one_pow] at hv; omega
      · rw [Nat.odd_iff.1 oj, Nat.odd_iff.1 ok]
    have : 2 * a + 2 * k = 2 * b + 2 * j := by omega
    omega

/-- **C43** Every mode has an index. -/
theorem C43_noll_surjective (p : Nat × Int) (hp : IsMode p) : ∃ j, noll j = p := by
  obtain ⟨n, m⟩ := p
  obtain ⟨h1, h2⟩ := hp
  simp only [Int.abs_eq_natAbs] at h1 h2
  obtain ⟨t, ht⟩ : ∃ t, n * (n + 1) = 2 * t := by
    obtain ⟨t, ht⟩ := Nat.even_mul_succ_self n
    exact ⟨t, by omega⟩
  have key : ∀ a, a ≤ n → noll (a + t) =
      (n, (-1) ^ (a + t + 1) * (((n % 2) + 2 * ((a + ((n + 1) % 2)) / 2) : Nat) : Int)) :=
    fun a ha => noll_eq ha (by omega)
  by_cases hm : m = 0
  · subst hm
    refine ⟨0 + t, ?_⟩
    rw [key 0 (by omega)]
    have : (n % 2) + 2 * ((0 + ((n + 1) % 2)) / 2) = 0 := by omega
    rw [this]; simp
  · -- the two candidates are the neighbours `c` and `c + 1`
    obtain ⟨c, hc⟩ : ∃ c : Nat, c + 1 = m.natAbs := ⟨m.natAbs - 1, by omega⟩
    have hcn : c + 1 ≤ n := by omega
    have hcpar : (c + 1) % 2 = n % 2 := by omega
    have v1 : (n % 2) + 2 * ((c + ((n + 1) % 2)) / 2) = m.natAbs := by omega
    have v2 : (n % 2) + 2 * ((c + 1 + ((n + 1) % 2)) / 2) = m.natAbs := by omega
    have k1 := key c (by omega)
    have k2 := key (c + 1) hcn
    rw [v1] at k1
    rw [v2] at k2
    rcases Nat.even_or_odd (c + t + 1) with he | ho
    · have ho2 : Odd (c + 1 + t + 1) := by rw [Nat.odd_iff]; rw [Nat.even_iff] at he; omega
      rw [he.neg_one_pow] at k1
      rw [ho2.neg_one_pow] at k2
      rcases lt_or_gt_of_ne hm with hneg | hpos
      · refine ⟨c + 1 + t, ?_⟩
        rw [k2]
        refine congrArg (Prod.mk n) ?_
        omega
      · refine ⟨c + t, ?_⟩
        rw [k1]
        refine congrArg (Prod.mk n) ?_
        omega
    · have he2 : Even (c + 1 + t + 1) := by rw [Nat.even_iff]; rw [Nat.odd_iff] at ho; omega
      rw [ho.neg_one_pow] at k1
      rw [he2.neg_one_pow] at k2
      rcases lt_or_gt_of_ne hm with hneg | hpos
      · refine ⟨c + t, ?_⟩
        rw [k1]
        refine congrArg (Prod.mk n) ?_
        omega
      · refine ⟨c + 1 + t, ?_⟩
        rw [k2]
        refine congrArg (Prod.mk n) ?_
        omega

example : IsMode (5, -3) := ⟨by decide, ⟨4, by norm_num⟩⟩

/-! ### values -/

theorem fac_nat (x : Nat) : fac x = .ok x.factorial := by
  unfold fac
  rw [if_neg (by omega)]
  split_ifs with h
  · obtain rfl : x = 0 := by omega
    rfl
  · refine congrArg Except.ok ?_
    rw [Int.toNat_natCast]
    have : ∀ n, forRange n 1 (fun i f => f * (i + 1)) = n.factorial := by
      intro n
      induction n with
      | zero => rfl
      | succ n ih => rw [forRange_succ, ih, Nat.factorial_succ, mul_comm]
    exact this x

theorem preFac_nat {n m k : Nat} (hm : m ≤ n) (hpar : (n - m) % 2 = 0) (hk : k ≤ (n - m) / 2) :
    preFac k n m = .ok ((-1) ^ k * ((n - k).factorial : ℝ) /
      (k.factorial * ((n + m) / 2 - k).factorial * ((n - m) / 2 - k).factorial)) := by
  unfold preFac
  rw [show (n : Int) - k = ((n - k : Nat) : Int) by omega,
    show ((n : Int) + m) / 2 - k = (((n + m) / 2 - k : Nat) : Int) by omega,
    show ((n : Int) - m) / 2 - k = (((n - m) / 2 - k : Nat) : Int) by omega]
  rw [fac_nat, fac_nat, fac_nat, fac_nat]
  rfl

theorem zernikeRad_nat {n m : Nat} (hm : m ≤ n) (hpar : (n - m) % 2 = 0) (rho : ℝ) :
    zernikeRad m n rho = .ok (radial n m rho) := by
  unfold zernikeRad
  rw [if_neg (by
    rintro (h | h | h)
    · omega
    · omega
    · rw [abs_of_nonneg (by omega)] at h; omega)]
  rw [show (((n : Int) - m) / 2 + 1).toNat = (n - m) / 2 + 1 by omega]
  have : ∀ K, K ≤ (n - m) / 2 + 1 → forRangeM K (0 : ℝ) (fun k acc =>
      match preFac k n m with
      | .error e => .error e
      | .ok p => .ok (acc + p * rho ^ ((n : Int) - 2 * k).toNat)) =
      (.ok (∑ k ∈ Finset.range K, (-1) ^ k * ((n - k).factorial : ℝ) /
      (k.factorial * ((n + m) / 2 - k).factorial * ((n - m) / 2 - k).factorial) * rho ^ (n - 2 * k)) :
        Except PyErr ℝ) := by
    intro K
    induction K with
    | zero => intro _; rfl
    | succ K ih =>
      intro hK
      rw [forRangeM_succ, ih (by omega), Finset.sum_range_succ]
      show (match preFac K n m with
        | .error e => .error e
        | .ok p => .ok (_ + p * rho ^ ((n : Int) - 2 * K).toNat) : Except PyErr ℝ) = _
      rw [preFac_nat hm hpar (by omega), show ((n : Int) - 2 * K).toNat = n - 2 * K by omega]
  exact this _ le_rfl

/-- **C43** Outside the unit disc the value is zero. -/
theorem C43_outside (j : Nat) (rho phi : ℝ) (h : 1 < rho) : zernike j rho phi = .ok 0 := by
  unfold zernike
  rw [if_pos h]

/-- **C43** Inside, the value is the radial polynomial times the cosine (order positive), the sine (order
negative) or one (order zero); no error can occur. -/
theorem C43_value (j : Nat) (rho phi : ℝ) (h : rho ≤ 1) :
    zernike j rho phi = .ok (radial (noll j).1 (noll j).2.natAbs rho *
      (if 0 < (noll j).2 then Real.cos ((noll j).2.natAbs * phi)
       else if (noll j).2 < 0 then Real.sin ((noll j).2.natAbs * phi) else 1)) := by
  have hmode := C43_noll_mode j
  obtain ⟨h1, h2⟩ := hmode
  rw [Int.abs_eq_natAbs] at h1
  have hle : (noll j).2.natAbs ≤ (noll j).1 := by omega
  have hpar : ((noll j).1 - (noll j).2.natAbs) % 2 = 0 := by omega
  have hrad := zernikeRad_nat hle hpar rho
  unfold zernike
  rw [if_neg (not_lt.2 h)]
  simp only
  by_cases hpos : (noll j).2 > 0
  · have e : (((noll j).2.natAbs : Nat) : Int) = (noll j).2 := by omega
    have e' : (((noll j).2.natAbs : Nat) : ℝ) = ((noll j).2 : ℝ) := by
      rw [← e]; push_cast; simp
    rw [if_pos hpos, if_pos hpos, e']
    rw [e] at hrad
    rw [hrad]
  · rw [if_neg hpos, if_neg hpos]
    by_cases hneg : (noll j).2 < 0
    · have e : (((noll j).2.natAbs : Nat) : Int) = -(noll j).2 := by omega
      have e' : (((noll j).2.natAbs : Nat) : ℝ) = -((noll j).2 : ℝ) := by
        rw [show (((noll j).2.natAbs : Nat) : ℝ) = ((((noll j).2.natAbs : Nat) : Int) : ℝ) from (Int.cast_natCast _).symm, e]
        push_cast; ring
      rw [if_pos hneg, if_pos hneg, e']
      rw [e] at hrad
      rw [hrad]
    · have e : (noll j).2 = 0 := by omega
      rw [if_neg hneg, if_neg hneg, mul_one, ← hrad, e]
      rfl

/-- **C43** The direction dependent effect is the weighted sum of the modes; there are no errors. -/
theorem C43_dde (arctan2 : ℝ → ℝ → ℝ) (l m : ℝ) (npoly : Nat) (coeffs : Nat → ℂ) (nollIndex : Nat → Nat) :
    ∃ z : Nat → ℝ, (∀ p, zernike (nollIndex p) (Real.sqrt (l ^ 2 + m ^ 2)) (arctan2 l m) = .ok (z p)) ∧
      zernikeDde arctan2 l m npoly coeffs nollIndex = .ok (∑ p ∈ Finset.range npoly, coeffs p * (z p : ℂ)) := by
  have hz : ∀ p, ∃ z, zernike (nollIndex p) (Real.sqrt (l ^ 2 + m ^ 2)) (arctan2 l m) = .ok z := by
    intro p
    by_cases h : 1 < Real.sqrt (l ^ 2 + m ^ 2)
    · exact ⟨_, C43_outside _ _ _ h⟩
    · exact ⟨_, C43_value _ _ _ (not_lt.1 h)⟩
  choose z hz using hz
  refine ⟨z, hz, ?_⟩
  unfold zernikeDde
  simp only [convertCoords]
  induction npoly with
  | zero => rfl
  | succ n ih =>
    rw [forRangeM_succ, ih, Finset.sum_range_succ]
    show (match zernike (nollIndex n) (Real.sqrt (l ^ 2 + m ^ 2)) (arctan2 l m) with
      | .error e => .error e
      | .ok z => .ok (_ + coeffs n * (z : ℂ)) : Except PyErr ℂ) = _
    rw [hz n]

/-! ### the radial polynomial is one at the edge -/

theorem alt_choose (b : Nat) : ∀ N r : Nat, b ≤ N → b ≤ r →
    ∑ k ∈ Finset.range (b + 1), (-1 : ℤ) ^ k * (b.choose k) * ((N - k).choose r) = ((N - b).choose (r - b) : ℤ) := by
  induction b with
  | zero => intro N r _ _; simp
  | succ b ih =>
    intro N r hN hr
    have hsplit : ∑ k ∈ Finset.range (b + 1 + 1), (-1 : ℤ) ^ k * ((b + 1).choose k) * ((N - k).choose r) =
        ∑ k ∈ Finset.range (b + 1), (-1 : ℤ) ^ k * (b.choose k) * ((N - k).choose r) -
        ∑ k ∈ Finset.range (b + 1), (-1 : ℤ) ^ k * (b.choose k) * ((N - 1 - k).choose r) := by
      rw [Finset.sum_range_succ', Finset.sum_range_succ' (fun k => (-1 : ℤ) ^ k * (b.choose k) * ((N - k).choose r))]
      have : ∑ k ∈ Finset.range (b + 1), (-1 : ℤ) ^ (k + 1) * ((b + 1).choose (k + 1)) * ((N - (k + 1)).choose r) =
          ∑ k ∈ Finset.range (b + 1), (-1 : ℤ) ^ (k + 1) * (b.choose (k + 1)) * ((N - (k + 1)).choose r) -
          ∑ k ∈ Finset.range (b + 1), (-1 : ℤ) ^ k * (b.choose k) * ((N - 1 - k).choose r) := by
        rw [← Finset.sum_sub_distrib]
        refine Finset.sum_congr rfl fun k _ => ?_
        rw [Nat.choose_succ_succ, show N - (k + 1) = N - 1 - k by omega]
        push_cast
        ring
      rw [this]
      have hlast : ∑ k ∈ Finset.range (b + 1), (-1 : ℤ) ^ (k + 1) * (b.choose (k + 1)) * ((N - (k + 1)).choose r) =
          ∑ k ∈ Finset.range b, (-1 : ℤ) ^ (k + 1) * (b.choose (k + 1)) * ((N - (k + 1)).choose r) := by
        rw [Finset.sum_range_succ, Nat.choose_succ_self]
        simp
      rw [hlast]
      simp only [Nat.choose_zero_right]
      ring
    rw [hsplit, ih N r (by omega) (by omega), ih (N - 1) r (by omega) (by omega)]
    obtain ⟨x, hx⟩ : ∃ x, N - b = x + 1 := ⟨N - b - 1, by omega⟩
    obtain ⟨y, hy⟩ : ∃ y, r - b = y + 1 := ⟨r - b - 1, by omega⟩
    rw [hx, hy, show N - 1 - b = x by omega, show N - (b + 1) = x by omega, show r - (b + 1) = y by omega,
      Nat.choose_succ_succ]
    push_cast
    ring

/-- **C43** All radial polynomials take the value one at the edge of the disc, the usual normalisation. -/
theorem C43_radial_one (n m : Nat) (hm : m ≤ n) (hpar : (n - m) % 2 = 0) : radial n m 1 = 1 := by
  obtain ⟨b, hb⟩ : ∃ b, n = m + 2 * b := ⟨(n - m) / 2, by omega⟩
  subst hb
  have hA : (m + 2 * b + m) / 2 = m + b := by omega
  have hB : (m + 2 * b - m) / 2 = b := by omega
  unfold radial
  rw [hA, hB]
  have hz := alt_choose b (m + 2 * b) b (by omega) le_rfl
  rw [Nat.sub_self, Nat.choose_zero_right] at hz
  have hr : ∑ k ∈ Finset.range (b + 1), (-1 : ℝ) ^ k * (b.choose k) * ((m + 2 * b - k).choose b) = 1 := by
    exact_mod_cast congrArg (fun z : ℤ => (z : ℝ)) hz
  refine Eq.trans ?_ hr
  refine Finset.sum_congr rfl fun k hk => ?_
  have hk' : k ≤ b := by rw [Finset.mem_range] at hk; omega
  have e1 : ((b.choose k : ℕ) : ℝ) = b.factorial / (k.factorial * (b - k).factorial) := Nat.cast_choose ℝ hk'
  have e2 : (((m + 2 * b - k).choose b : ℕ) : ℝ) =
      (m + 2 * b - k).factorial / (b.factorial * (m + b - k).factorial) := by
    rw [Nat.cast_choose ℝ (by omega), show m + 2 * b - k - b = m + b - k by omega]
  rw [e1, e2, one_pow, mul_one]
  have f1 : (b.factorial : ℝ) ≠ 0 := by exact_mod_cast b.factorial_ne_zero
  have f2 : (k.factorial : ℝ) ≠ 0 := by exact_mod_cast k.factorial_ne_zero
  have f3 : ((b - k).factorial : ℝ) ≠ 0 := by exact_mod_cast (b - k).factorial_ne_zero
  have f4 : ((m + b - k).factorial : ℝ) ≠ 0 := by exact_mod_cast (m + b - k).factorial_ne_zero
  field_simp

end Verif.Rime
