/-
C148: factorials in 64-bit integers limit the degree of Zernike modes.
-/
import Verif.Rime.Zernike64
import Verif.Rime.PropsZernike
import Mathlib.Tactic.IntervalCases
import Mathlib.Tactic.NormNum

set_option autoImplicit false

namespace Verif.Rime

theorem wrap64_small (z : Int) (h0 : 0 ≤ z) (h1 : z < 2 ^ 63) : wrap64 z = z := by
  unfold wrap64
  omega

theorem fac64_loop (x : Nat) (h : x ≤ 20) :
    forRange x (1 : Int) (fun i f => wrap64 (f * (i + 1))) = (x.factorial : Int) := by
  interval_cases x <;> decide +kernel

theorem fac64_nat (x : Nat) (h : x ≤ 20) : fac64 x = .ok (x.factorial : Int) := by
  unfold fac64
  rw [if_neg (by omega)]
  split_ifs with h0
  · obtain rfl : x = 0 := by omega
    rfl
  · rw [Int.toNat_natCast, fac64_loop x h]

theorem preFac64_val {k : Nat} {n m a b c d : Int} (ha : fac64 (n - k) = .ok a) (hb : fac64 k = .ok b)
    (hc : fac64 ((n + m) / 2 - k) = .ok c) (hd : fac64 ((n - m) / 2 - k) = .ok d)
    (h0 : wrap64 (wrap64 (b * c) * d) ≠ 0) :
    preFac64 k n m = .ok ((-1) ^ k * (a : ℝ) / ((wrap64 (wrap64 (b * c) * d) : Int) : ℝ)) := by
  unfold preFac64
  rw [ha, hb, hc, hd]
  exact if_neg h0

theorem preFac64_zero {k : Nat} {n m a b c d : Int} (ha : fac64 (n - k) = .ok a) (hb : fac64 k = .ok b)
    (hc : fac64 ((n + m) / 2 - k) = .ok c) (hd : fac64 ((n - m) / 2 - k) = .ok d)
    (h0 : wrap64 (wrap64 (b * c) * d) = 0) : preFac64 k n m = .error .zeroDivisionError := by
  unfold preFac64
  rw [ha, hb, hc, hd]
  exact if_pos h0

theorem factorials_small {a b c : Nat} (h : a + b + c ≤ 20) :
    a.factorial * b.factorial < 2 ^ 63 ∧ a.factorial * b.factorial * c.factorial < 2 ^ 63 := by
  have hf : ∀ x : Nat, x ≤ 20 → x.factorial < 2 ^ 63 := by
    intro x hx
    interval_cases x <;> decide +kernel
  have h1 : a.factorial * b.factorial ≤ (a + b).factorial :=
    Nat.le_of_dvd (Nat.factorial_pos _) (Nat.factorial_mul_factorial_dvd_factorial_add a b)
  have h2 : (a + b).factorial * c.factorial ≤ (a + b + c).factorial :=
    Nat.le_of_dvd (Nat.factorial_pos _) (Nat.factorial_mul_factorial_dvd_factorial_add (a + b) c)
  exact ⟨h1.trans_lt (hf _ (by omega)), ((Nat.mul_le_mul_right _ h1).trans h2).trans_lt (hf _ h)⟩

theorem wrap64_nat (z : Nat) (h : z < 2 ^ 63) : wrap64 (z : Int) = (z : Int) := wrap64_small _ (by omega) (by omega)

theorem preFac64_nat {n m k : Nat} (hn : n ≤ 20) (hm : m ≤ n) (hpar : (n - m) % 2 = 0) (hk : k ≤ (n - m) / 2) :
    preFac64 k n m = preFac k n m := by
  rw [preFac_nat hm hpar hk]
  obtain ⟨h1, h2⟩ := factorials_small (a := k) (b := (n + m) / 2 - k) (c := (n - m) / 2 - k) (by omega)
  have hpos : k.factorial * ((n + m) / 2 - k).factorial * ((n - m) / 2 - k).factorial ≠ 0 :=
    Nat.mul_ne_zero (Nat.mul_ne_zero (Nat.factorial_ne_zero _) (Nat.factorial_ne_zero _)) (Nat.factorial_ne_zero _)
  have hw : wrap64 (wrap64 ((k.factorial : Int) * (((n + m) / 2 - k).factorial : Int)) * (((n - m) / 2 - k).factorial : Int)) =
      ((k.factorial * ((n + m) / 2 - k).factorial * ((n - m) / 2 - k).factorial : Nat) : Int) := by
    rw [← Nat.cast_mul, wrap64_nat _ h1, ← Nat.cast_mul, wrap64_nat _ h2]
  have hv := preFac64_val (k := k) (n := n) (m := m) (a := (n - k).factorial) (b := k.factorial)
    (c := ((n + m) / 2 - k).factorial) (d := ((n - m) / 2 - k).factorial)
    (by rw [← fac64_nat _ (by omega)]; exact congrArg _ (by omega)) (fac64_nat _ (by omega))
    (by rw [← fac64_nat _ (by omega)]; exact congrArg _ (by omega))
    (by rw [← fac64_nat _ (by omega)]; exact congrArg _ (by omega))
    (by rw [hw]; exact Int.natCast_ne_zero.2 hpos)
  rw [hv, hw]
  refine congrArg _ ?_
  rw [Int.cast_natCast, Int.cast_natCast, Nat.cast_mul, Nat.cast_mul]

theorem zernikeRad64_nat {n m : Nat} (hn : n ≤ 20) (hm : m ≤ n) (hpar : (n - m) % 2 = 0) (rho : ℝ) :
    zernikeRad64 m n rho = zernikeRad m n rho := by
  unfold zernikeRad64 zernikeRad
  refine if_congr Iff.rfl rfl ?_
  have : ∀ K, K ≤ (n - m) / 2 + 1 → forRangeM K (0 : ℝ) (fun k acc =>
      match preFac64 k n m with
      | .error e => .error e
      | .ok p => .ok (acc + p * rho ^ ((n : Int) - 2 * k).toNat)) = forRangeM K (0 : ℝ) (fun k acc =>
      match preFac k n m with
      | .error e => .error e
      | .ok p => .ok (acc + p * rho ^ ((n : Int) - 2 * k).toNat)) := by
    intro K
    induction K with
    | zero => intro _; rfl
    | succ K ih =>
      intro hK
      rw [forRangeM_succ, forRangeM_succ, ih (by omega), preFac64_nat hn hm hpar (by omega)]
  exact this _ (by omega)

/-- **C148** Up to degree 20 the 64-bit factorials are exact: the modes are those of exact arithmetic, everywhere. -/
theorem C148_exact (j : Nat) (h : (noll j).1 ≤ 20) (rho phi : ℝ) : zernike64 j rho phi = zernike j rho phi := by
  obtain ⟨h1, h2⟩ := C43_noll_mode j
  rw [Int.abs_eq_natAbs] at h1
  have hle : (noll j).2.natAbs ≤ (noll j).1 := by omega
  have hpar : ((noll j).1 - (noll j).2.natAbs) % 2 = 0 := by omega
  have hrad := zernikeRad64_nat h hle hpar rho
  unfold zernike64 zernike
  by_cases hr : rho > 1
  · rw [if_pos hr, if_pos hr]
  · rw [if_neg hr, if_neg hr]
    simp only
    rcases lt_trichotomy (noll j).2 0 with hs | hs | hs
    · have e : (((noll j).2.natAbs : Nat) : Int) = -(noll j).2 := by omega
      have hs' : ¬ (noll j).2 > 0 := by omega
      rw [e] at hrad
      simp only [if_neg hs', if_pos hs, hrad]
      rfl
    · rw [hs] at hrad ⊢
      simp only [gt_iff_lt, lt_irrefl, if_false]
      exact hrad
    · have e : (((noll j).2.natAbs : Nat) : Int) = (noll j).2 := by omega
      have hs' : (noll j).2 > 0 := hs
      rw [e] at hrad
      simp only [if_pos hs', hrad]
      rfl

example : (noll 5).1 ≤ 20 := by
  obtain ⟨h1, -, h3⟩ := nollLoop_spec 5 0
  have : (noll 5).1 = (nollLoop 5 0).2 := rfl
  rw [this]
  nlinarith

theorem fac64_zero (x : Nat) (h : 66 ≤ x) : fac64 x = .ok 0 := by
  unfold fac64
  rw [if_neg (by omega), if_neg (by omega), Int.toNat_natCast]
  refine congrArg Except.ok ?_
  obtain ⟨d, rfl⟩ := Nat.exists_eq_add_of_le h
  clear h
  induction d with
  | zero => decide +kernel
  | succ d ih =>
    rw [show 66 + (d + 1) = 66 + d + 1 from rfl, forRange_succ, ih, zero_mul]
    decide +kernel

theorem zernikeRad64_top (n : Nat) (h : 66 ≤ n) (rho : ℝ) : zernikeRad64 n n rho = .error .zeroDivisionError := by
  unfold zernikeRad64
  rw [if_neg (by
    rintro (h | h | h)
    · omega
    · omega
    · rw [abs_of_nonneg (by omega)] at h; omega), show (((n : Int) - n) / 2 + 1).toNat = 0 + 1 by omega, forRangeM_succ]
  have : preFac64 0 n n = .error .zeroDivisionError := by
    refine preFac64_zero (a := 0) (b := 1) (c := 0) (d := 1) ?_ rfl ?_ ?_ (by decide +kernel)
    · rw [show (n : Int) - (0 : Nat) = n by omega, fac64_zero n h]
    · rw [show ((n : Int) + n) / 2 - (0 : Nat) = n by omega, fac64_zero n h]
    · rw [show ((n : Int) - n) / 2 - (0 : Nat) = 0 by omega]
      rfl
  show (match preFac64 0 n n with
    | .error e => .error e
    | .ok p => .ok (0 + p * rho ^ ((n : Int) - 2 * (0 : Nat)).toNat) : Except PyErr ℝ) = _
  rw [this]

/-- **C148** From degree 66 on, the outermost modes of every degree raise ZeroDivisionError on the whole disc: `66!` is a
multiple of `2^64`. -/
theorem C148_raises (j : Nat) (h : 66 ≤ (noll j).1) (hm : (noll j).2.natAbs = (noll j).1) (rho phi : ℝ) (hr : rho ≤ 1) :
    zernike64 j rho phi = .error .zeroDivisionError := by
  have hrad := zernikeRad64_top (noll j).1 h rho
  unfold zernike64
  rw [if_neg (not_lt.2 hr)]
  rcases lt_trichotomy (noll j).2 0 with hs | hs | hs
  · have e : -(noll j).2 = (((noll j).1 : Nat) : Int) := by omega
    have hs' : ¬ (noll j).2 > 0 := by omega
    simp only [if_neg hs', if_pos hs, e, hrad]
  · omega
  · have e : (noll j).2 = (((noll j).1 : Nat) : Int) := by omega
    have hs' : (noll j).2 > 0 := hs
    simp only [if_pos hs']
    rw [e, hrad]

example : ∃ j, 66 ≤ (noll j).1 ∧ (noll j).2.natAbs = (noll j).1 := by
  obtain ⟨j, hj⟩ := C43_noll_surjective (70, -70) ⟨by decide, ⟨70, by norm_num⟩⟩
  exact ⟨j, by rw [hj]; decide, by rw [hj]; decide⟩

/-- **C148** Exactness fails for larger degrees: `zernike` raises although the mode exists. -/
theorem C148_raises_violated : ¬ ∀ (j : Nat) (rho phi : ℝ), zernike64 j rho phi = zernike j rho phi := by
  intro h
  obtain ⟨j, hj⟩ := C43_noll_surjective (66, 66) ⟨by decide, ⟨0, by norm_num⟩⟩
  have h1 := h j 1 0
  rw [C148_raises j (by rw [hj]) (by rw [hj]; rfl) 1 0 le_rfl, C43_value j 1 0 le_rfl] at h1
  cases h1

/-- **C148** Already at degree 21 there is a mode with wrong values: on the edge of the disc, where all radial polynomials are
one, it is below -21. -/
theorem C148_value_violated : ∃ j, (noll j).1 = 21 ∧ zernike j 1 0 = .ok 1 ∧
    ∃ v, zernike64 j 1 0 = .ok v ∧ v < -21 := by
  obtain ⟨j, hj⟩ := C43_noll_surjective (21, 19) ⟨by decide, ⟨1, by norm_num⟩⟩
  have h21 : fac64 21 = .ok (-4249290049419214848) := by
    unfold fac64
    rw [if_neg (by decide), if_neg (by decide)]
    exact congrArg _ (by decide +kernel)
  have p0 := preFac64_val (k := 0) (n := 21) (m := 19) h21 (fac64_nat 0 (by omega)) (fac64_nat 20 (by omega))
    (fac64_nat 1 (by omega)) (by decide +kernel)
  have p1 := preFac64_val (k := 1) (n := 21) (m := 19) (fac64_nat 20 (by omega)) (fac64_nat 1 (by omega))
    (fac64_nat 19 (by omega)) (fac64_nat 0 (by omega)) (by decide +kernel)
  rw [show wrap64 (wrap64 (((Nat.factorial 0 : Nat) : Int) * ((Nat.factorial 20 : Nat) : Int)) * ((Nat.factorial 1 : Nat) : Int)) =
    2432902008176640000 by decide +kernel] at p0
  rw [show wrap64 (wrap64 (((Nat.factorial 1 : Nat) : Int) * ((Nat.factorial 19 : Nat) : Int)) * ((Nat.factorial 0 : Nat) : Int)) =
    121645100408832000 by decide +kernel, show ((Nat.factorial 20 : Nat) : Int) = 2432902008176640000 by decide +kernel] at p1
  refine ⟨j, by rw [hj], ?_, ?_⟩
  · rw [C43_value j 1 0 le_rfl, hj]
    refine congrArg _ ?_
    show radial 21 19 1 * _ = 1
    rw [C43_radial_one 21 19 (by norm_num) (by norm_num)]
    simp
  · have hrad : zernikeRad64 19 21 1 = .ok (0 + (-1) ^ 0 * ((-4249290049419214848 : Int) : ℝ) / ((2432902008176640000 : Int) : ℝ) +
        (-1) ^ 1 * ((2432902008176640000 : Int) : ℝ) / ((121645100408832000 : Int) : ℝ)) := by
      unfold zernikeRad64
      rw [if_neg (by decide), show (((21 : Int) - 19) / 2 + 1).toNat = 0 + 1 + 1 by decide, forRangeM_succ, forRangeM_succ]
      simp only [forRangeM, p0, p1, one_pow, mul_one]
      rfl
    unfold zernike64
    rw [if_neg (by norm_num)]
    simp only [hj]
    rw [if_pos (by decide), show ((21 : Nat) : Int) = 21 from rfl, hrad]
    refine ⟨_, rfl, ?_⟩
    norm_num

end Verif.Rime
