/-
C89: prescribed first derivatives at both ends.
-/
import Verif.Splines.Props

set_option autoImplicit false
set_option linter.unusedSectionVars false

namespace Verif.Splines

variable {K : Type*} [Field K] [LinearOrder K] [IsStrictOrderedRing K]

/-! ## Specification -/

/-- The tridiagonal system of a cubic spline with prescribed first derivatives `lv` and `rv` at the ends; `z` is half the second
derivative at the knots. -/
def FirstDerivSystem (n : Nat) (x y : Nat → K) (lv rv : K) (z : Nat → K) : Prop :=
  2 * (x 1 - x 0) * z 0 + (x 1 - x 0) * z 1 = 3 * ((y 1 - y 0) / (x 1 - x 0) - lv) ∧
  (x (n - 1) - x (n - 2)) * z (n - 2) + 2 * (x (n - 1) - x (n - 2)) * z (n - 1) =
    3 * (rv - (y (n - 1) - y (n - 2)) / (x (n - 1) - x (n - 2))) ∧
  ∀ i, 0 < i → i + 1 < n →
    (x i - x (i - 1)) / 3 * z (i - 1) + 2 * (x (i + 1) - x (i - 1)) / 3 * z i + (x (i + 1) - x i) / 3 * z (i + 1)
      = (y (i + 1) - y i) / (x (i + 1) - x i) - (y i - y (i - 1)) / (x i - x (i - 1))

/-! ## Lemmas -/

omit [IsStrictOrderedRing K] in
private theorem backSubst_any (n : Nat) (hn : 1 ≤ n) (junk : K) (t : Tri K) (hb : ∀ i < n, t.b i ≠ 0) :
    ∃ z, backSubst n junk t = .ok z ∧ z (n - 1) = (t.v (n - 1) - t.c (n - 1) * junk) / t.b (n - 1) ∧
      ∀ i, i + 1 < n → z i = (t.v i - t.c i * z (i + 1)) / t.b i := by
  unfold backSubst
  rw [divE_ok (hb (n - 1) (by omega))]
  obtain ⟨z, hz, h1, h2⟩ := forRangeM_ok_inv (n := n)
    (init := Function.update (fun _ => (0 : K)) (n - 1) (t.v (n - 1) / t.b (n - 1)))
    (f := fun k z => backRow n junk t (n - 1 - k) z)
    (fun k z => (0 < k → z (n - 1) = (t.v (n - 1) - t.c (n - 1) * junk) / t.b (n - 1)) ∧
      ∀ i, n ≤ i + k → i + 1 < n → z i = (t.v i - t.c i * z (i + 1)) / t.b i)
    ⟨by simp, fun i h1 h2 => by omega⟩
    (by
      rintro k z hk ⟨h1, h2⟩
      refine ⟨_, by rw [backRow, divE_ok (hb (n - 1 - k) (by omega))], ?_, ?_⟩
      · intro _
        by_cases h : k = 0
        · subst h
          rw [Nat.sub_zero, Function.update_self, if_neg (by omega)]
        · rw [Function.update_of_ne (by omega)]; exact h1 (by omega)
      · intro i hi hi'
        by_cases h : i = n - 1 - k
        · subst h
          rw [Function.update_self, Function.update_of_ne (by omega), if_pos (by omega)]
        · rw [Function.update_of_ne h, Function.update_of_ne (by omega)]
          exact h2 i (by omega) hi')
  exact ⟨z, hz, h1 (by omega), fun i hi => h2 i (by omega) hi⟩

set_option maxHeartbeats 2000000 in
/-- What `solve_trid_system` computes with first derivatives prescribed at both ends; `w` stands for the pivots and `u` for the
right hand sides of the elimination actually carried out. -/
theorem solveTrid_slopes (n : Nat) (hn : 2 ≤ n) (x y : Nat → K) (lv rv : K) (hx : Increasing n x) :
    ∃ (w u : Nat → K), ∀ junk, ∃ z, solveTrid n junk x y 1 1 lv rv = .ok z ∧ (∀ i < n, 0 < w i) ∧
      w 0 = 2 * (x 1 - x 0) ∧ u 0 = 3 * ((y 1 - y 0) / (x 1 - x 0) - lv) ∧ z 0 = u 0 / w 0 ∧
      z (n - 1) = (u (n - 1) - (x (n - 1) - x (n - 2)) * junk) / w (n - 1) ∧
      (∀ i, 0 < i → i + 1 < n →
        z i = (u i - (1 / 3) * (x (i + 1) - x i) * z (i + 1)) / w i ∧
        u i = (y (i + 1) - y i) / (x (i + 1) - x i) - (y i - y (i - 1)) / (x i - x (i - 1))
          - ((1 / 3) * (x i - x (i - 1)) - w (i - 1)) * u (i - 1)) ∧
      u (n - 1) = 3 * (rv - (y (n - 1) - y (n - 2)) / (x (n - 1) - x (n - 2))) + w (n - 2) * u (n - 2) := by
  obtain ⟨t, ht, b1, b2, b3, b4⟩ := build_spec n hn x y hx
  have hx0 : x 1 - x 0 ≠ 0 := by have := hx 0 (by omega); intro h; rw [zero_add] at this; linarith
  have hxl := hx (n - 2) (by omega)
  rw [show n - 2 + 1 = n - 1 by omega] at hxl
  have hxN : x (n - 1) - x (n - 2) ≠ 0 := by intro h; linarith
  set r0 := (y 1 - y 0) / (x 1 - x 0) with hr0
  set rN := (y (n - 1) - y (n - 2)) / (x (n - 1) - x (n - 2)) with hrN
  obtain ⟨t1, hl, l1, l2, l3, l4⟩ : ∃ t1, leftEnd x y 1 lv t = .ok t1 ∧
      t1.c = t.c ∧ (∀ i, i ≠ 0 → t1.a i = t.a i ∧ t1.b i = t.b i ∧ t1.v i = t.v i) ∧
      t1.b 0 = 2 * (x 1 - x 0) ∧ t1.v 0 = 3 * (r0 - lv) := by
    refine ⟨{ t with
        a := Function.update t.a 0 (1 * (x 1 - x 0))
        b := Function.update t.b 0 (2 * (x 1 - x 0))
        v := Function.update t.v 0 (3 * (-lv + r0)) }, ?_, rfl, fun i hi => ?_, ?_, ?_⟩
    · rw [leftEnd, if_neg (by decide), if_pos rfl, divE_ok hx0]
    · exact ⟨Function.update_of_ne hi _ _, Function.update_of_ne hi _ _, Function.update_of_ne hi _ _⟩
    · simp only [Function.update_self]
    · simp only [Function.update_self]; ring
  obtain ⟨t2, hr, r1, r2, r3, r4, r5⟩ : ∃ t2, rightEnd n x y 1 1 rv t1 = .ok t2 ∧
      t2.a = t1.a ∧ (∀ i, i ≠ n - 1 → t2.b i = t1.b i ∧ t2.c i = t1.c i ∧ t2.v i = t1.v i) ∧
      t2.b (n - 1) = 2 * (x (n - 1) - x (n - 2)) ∧ t2.c (n - 1) = x (n - 1) - x (n - 2) ∧ t2.v (n - 1) = 3 * (rv - rN) := by
    refine ⟨{ t1 with
        b := Function.update t1.b (n - 1) (2 * (x (n - 1) - x (n - 2)))
        c := Function.update t1.c (n - 1) (1 * (x (n - 1) - x (n - 2)))
        v := Function.update t1.v (n - 1) (3 * (rv - rN)) }, ?_, rfl, fun i hi => ?_, ?_, ?_, ?_⟩
    · rw [rightEnd, if_neg (by decide), if_pos rfl, divE_ok hxN]
    · exact ⟨Function.update_of_ne hi _ _, Function.update_of_ne hi _ _, Function.update_of_ne hi _ _⟩
    · simp only [Function.update_self]
    · simp only [Function.update_self]; ring
    · simp only [Function.update_self]
  have hn0 : (0 : Nat) ≠ n - 1 := by omega
  have a2 : ∀ i, 0 < i → i + 1 < n → t2.a i = (1 / 3) * (x i - x (i - 1)) ∧ t2.b i = (2 / 3) * (x (i + 1) - x (i - 1)) ∧
        t2.c i = (1 / 3) * (x (i + 1) - x i) ∧
        t2.v i = (y (i + 1) - y i) / (x (i + 1) - x i) - (y i - y (i - 1)) / (x i - x (i - 1)) := by
    intro i h1 h2
    have e1 : i ≠ 0 := by omega
    have e2 : i ≠ n - 1 := by omega
    have h := b4 i h1 h2
    obtain ⟨q1, q2, q3⟩ := r2 i e2
    obtain ⟨p1, p2, p3⟩ := l2 i e1
    rw [r1, q1, q2, q3, p1, p2, p3, l1]
    exact h
  have aN : t2.a (n - 1) = 0 := by rw [r1, (l2 (n - 1) (Ne.symm hn0)).1]; exact b1
  have a0 : t2.b 0 = 2 * (x 1 - x 0) ∧ t2.c 0 = 0 ∧ t2.v 0 = 3 * (r0 - lv) := by
    obtain ⟨q1, q2, q3⟩ := r2 0 hn0
    rw [q1, q2, q3, l1, l3, l4]
    exact ⟨rfl, b3, rfl⟩
  obtain ⟨e1, e2, e3, e4, e5⟩ := eliminate_spec n t2
  generalize hT : eliminate n t2 = T at *
  have piv : ∀ i, i < n → 0 < T.b i ∧ (0 < i → i + 1 < n → (2 / 3) * (x (i + 1) - x (i - 1)) ≤ T.b i) := by
    intro i
    induction i with
    | zero =>
      intro _
      have := hx 0 (by omega)
      rw [zero_add] at this
      rw [e3, a0.1]; exact ⟨by linarith, fun h => absurd h (by omega)⟩
    | succ i ih =>
      intro hi
      obtain ⟨p1, p2⟩ := ih (by omega)
      have hxi := hx i hi
      obtain ⟨q, _⟩ := e5 i hi
      by_cases h0 : i = 0
      · subst h0
        rw [q, a0.2.1]
        by_cases hlast : 0 + 1 + 1 < n
        · obtain ⟨_, r, _, _⟩ := a2 1 (by omega) hlast
          have hx1 := hx 1 (by omega)
          simp only [zero_add] at hxi ⊢
          rw [r]
          simp only [Nat.sub_self, mul_zero, sub_zero]
          constructor
          · nlinarith
          · intros; exact le_refl _
        · have : 0 + 1 = n - 1 := by omega
          rw [this, r3]
          constructor
          · linarith
          · intros; omega
      · obtain ⟨_, _, ci, _⟩ := a2 i (by omega) hi
        have p3 := p2 (by omega) hi
        have hxp := hx (i - 1) (by omega)
        rw [show i - 1 + 1 = i by omega] at hxp
        have hc : 0 < t2.c i := by rw [ci]; nlinarith
        by_cases hlast : i + 1 + 1 < n
        · obtain ⟨ai, bi, _, _⟩ := a2 (i + 1) (by omega) hlast
          rw [Nat.add_sub_cancel] at ai bi
          have hx2 := hx (i + 1) hlast
          have hw : t2.a (i + 1) - T.b i ≤ 0 := by rw [ai]; nlinarith
          have hm : 0 ≤ -((t2.a (i + 1) - T.b i) * t2.c i) := by nlinarith
          have : (2 / 3) * (x (i + 1 + 1) - x i) ≤ T.b (i + 1) := by rw [q, bi]; linarith
          exact ⟨by nlinarith, fun _ _ => by simpa using this⟩
        · have hiN : i + 1 = n - 1 := by omega
          have hm : 0 ≤ -((t2.a (i + 1) - T.b i) * t2.c i) := by
            rw [hiN, aN]; nlinarith
          refine ⟨?_, fun _ h => absurd h hlast⟩
          rw [q, show t2.b (i + 1) = 2 * (x (n - 1) - x (n - 2)) by rw [hiN]; exact r3]
          linarith
  refine ⟨T.b, T.v, fun junk => ?_⟩
  obtain ⟨z, hz, z1, z2⟩ := backSubst_any n (by omega) junk T (fun i hi => (piv i hi).1.ne')
  refine ⟨z, ?_, fun i hi => (piv i hi).1, by rw [e3]; exact a0.1, by rw [e4]; exact a0.2.2, ?_, ?_, ?_, ?_⟩
  · unfold solveTrid
    rw [ht]
    simp only []
    rw [hl]
    simp only []
    rw [hr]
    simp only []
    rw [hT]
    exact hz
  · rw [z2 0 (by omega), e2, a0.2.1, zero_mul, sub_zero]
  · rw [z1, e2, r4]
  · intro i h1 h2
    obtain ⟨ai, _, ci, vi⟩ := a2 i h1 h2
    refine ⟨by rw [z2 i h2, e2, ci], ?_⟩
    have := (e5 (i - 1) (by omega)).2
    rw [show i - 1 + 1 = i by omega] at this
    rw [this, vi, ai]
  · have := (e5 (n - 2) (by omega)).2
    rw [show n - 2 + 1 = n - 1 by omega, aN, r5] at this
    rw [this]; ring

/-! ## C89 -/

/-- C89, part proved, for prescribed first derivatives: on increasing knots with data on a line and that line's slope
prescribed at both ends, the solver does not raise and returns the solution of the system, if the word after the array of
results, which is read, happens to be zero. Missing: everything else, see `C89_slopes_violated` and `C89_memory_violated`. -/
theorem C89_slopes_partial (n : Nat) (hn : 2 ≤ n) (x y : Nat → K) (s : K) (hx : Increasing n x)
    (hy : ∀ i, i + 1 < n → y (i + 1) - y i = s * (x (i + 1) - x i)) :
    ∃ z, solveTrid n 0 x y 1 1 s s = .ok z ∧ FirstDerivSystem n x y s s z := by
  obtain ⟨w, u, h⟩ := solveTrid_slopes n hn x y s s hx
  obtain ⟨z, hz, hw, w0, u0, z0, zN, zi, uN⟩ := h 0
  have hs : ∀ i, i + 1 < n → (y (i + 1) - y i) / (x (i + 1) - x i) = s := by
    intro i hi
    have : x (i + 1) - x i ≠ 0 := by have := hx i hi; intro h; linarith
    rw [hy i hi, mul_div_assoc, div_self this, mul_one]
  have hs0 := hs 0 (by omega)
  rw [zero_add] at hs0
  have hsN := hs (n - 2) (by omega)
  rw [show n - 2 + 1 = n - 1 by omega] at hsN
  have hsp : ∀ i, 0 < i → i + 1 < n → (y i - y (i - 1)) / (x i - x (i - 1)) = s := by
    intro i h1 h2
    have := hs (i - 1) (by omega)
    rwa [show i - 1 + 1 = i by omega] at this
  have hu : ∀ i, i + 1 < n → u i = 0 := by
    intro i
    induction i with
    | zero => intro _; rw [u0, hs0]; ring
    | succ i ih =>
      intro h
      rw [(zi (i + 1) (by omega) h).2, Nat.add_sub_cancel, ih (by omega), mul_zero, sub_zero, hs (i + 1) h, hs i (by omega),
        sub_self]
  have hN : z (n - 1) = 0 := by rw [zN, uN, hu (n - 2) (by omega), hsN]; simp
  have hall : ∀ k i, i + k + 1 = n → z i = 0 := by
    intro k
    induction k with
    | zero => intro i h; rw [show i = n - 1 by omega]; exact hN
    | succ k ih =>
      intro i h
      by_cases h0 : i = 0
      · rw [h0, z0, hu 0 (by omega)]; simp
      · rw [(zi i (by omega) (by omega)).1, hu i (by omega), ih (i + 1) (by omega)]; simp
  have hz' : ∀ i, i < n → z i = 0 := fun i hi => hall (n - 1 - i) i (by omega)
  refine ⟨z, hz, ?_, ?_, ?_⟩
  · rw [hz' 0 (by omega), hz' 1 (by omega), hs0]; ring
  · rw [hz' (n - 2) (by omega), hz' (n - 1) (by omega), hsN]; ring
  · intro i h1 h2
    rw [hz' (i - 1) (by omega), hz' i (by omega), hz' (i + 1) (by omega), hs i h2, hsp i h1 h2]
    ring

/-- C89: with a first derivative prescribed at both ends, what is returned for the first knot depends on the first two points
and the left value alone. The system couples it to all other points. -/
theorem C89_first_knot (n : Nat) (hn : 2 ≤ n) (junk : K) (x y : Nat → K) (lv rv : K) (hx : Increasing n x) :
    ∃ z, solveTrid n junk x y 1 1 lv rv = .ok z ∧
      z 0 = 3 * ((y 1 - y 0) / (x 1 - x 0) - lv) / (2 * (x 1 - x 0)) := by
  obtain ⟨w, u, h⟩ := solveTrid_slopes n hn x y lv rv hx
  obtain ⟨z, hz, hw, w0, u0, z0, -⟩ := h junk
  exact ⟨z, hz, by rw [z0, u0, w0]⟩

/-- C89 is violated by prescribed first derivatives whatever the knots and values: what is returned for the last knot depends on
the word of memory after the array of results, so it is not a solution of any system. -/
theorem C89_memory_violated (n : Nat) (hn : 2 ≤ n) (x y : Nat → K) (lv rv : K) (hx : Increasing n x) (j j' : K) (hj : j ≠ j') :
    ∃ z z', solveTrid n j x y 1 1 lv rv = .ok z ∧ solveTrid n j' x y 1 1 lv rv = .ok z' ∧
      ¬ (FirstDerivSystem n x y lv rv z ∧ FirstDerivSystem n x y lv rv z') := by
  obtain ⟨w, u, h⟩ := solveTrid_slopes n hn x y lv rv hx
  obtain ⟨z, hz, hw, w0, u0, z0, zN, zi, uN⟩ := h j
  obtain ⟨z', hz', -, -, -, z0', zN', -, -⟩ := h j'
  refine ⟨z, z', hz, hz', fun ⟨h1, h2⟩ => ?_⟩
  have e0 : z 0 = z' 0 := by rw [z0, z0']
  have hx0 := hx 0 (by omega)
  rw [zero_add] at hx0
  have e1 : z 1 = z' 1 := by
    have : (x 1 - x 0) * z 1 = (x 1 - x 0) * z' 1 := by linear_combination h1.1 - h2.1 - 2 * (x 1 - x 0) * e0
    exact mul_left_cancel₀ (by intro h; linarith) this
  have hall : ∀ i, i + 1 < n → z i = z' i ∧ z (i + 1) = z' (i + 1) := by
    intro i
    induction i with
    | zero => intro _; exact ⟨e0, e1⟩
    | succ i ih =>
      intro h
      obtain ⟨p, q⟩ := ih (by omega)
      refine ⟨q, ?_⟩
      have a := h1.2.2 (i + 1) (by omega) h
      have b := h2.2.2 (i + 1) (by omega) h
      rw [Nat.add_sub_cancel] at a b
      have hxi := hx (i + 1) h
      have : (x (i + 1 + 1) - x (i + 1)) / 3 * z (i + 1 + 1) = (x (i + 1 + 1) - x (i + 1)) / 3 * z' (i + 1 + 1) := by
        linear_combination a - b - (x (i + 1) - x i) / 3 * p - 2 * (x (i + 1 + 1) - x i) / 3 * q
      exact mul_left_cancel₀ (by intro h; linarith) this
  have eN := (hall (n - 2) (by omega)).2
  rw [show n - 2 + 1 = n - 1 by omega, zN, zN'] at eN
  have hxl := hx (n - 2) (by omega)
  rw [show n - 2 + 1 = n - 1 by omega] at hxl
  have eN' := (div_left_inj' (hw (n - 1) (by omega)).ne').1 eN
  have : (x (n - 1) - x (n - 2)) * j = (x (n - 1) - x (n - 2)) * j' := by linear_combination -eN'
  exact hj (mul_left_cancel₀ (by intro h; linarith) this)

omit [IsStrictOrderedRing K] in
/-- C89 is violated by prescribed first derivatives although the word read happens to be zero: slopes 1 and 0 at the ends of two
points of equal height. -/
theorem C89_slopes_violated : ∃ z, solveTrid 2 (0 : ℚ) (fun i => i) (fun _ => 0) 1 1 1 0 = .ok z ∧
    z 0 = -3 / 2 ∧ z 1 = -3 ∧ ¬ FirstDerivSystem 2 (fun i : Nat => (i : ℚ)) (fun _ => 0) 1 0 z ∧
    FirstDerivSystem 2 (fun i : Nat => (i : ℚ)) (fun _ => 0) 1 0 (fun i => if i = 0 then -2 else 1) := by
  obtain ⟨z, hz, h⟩ := of_okAnd (r := solveTrid 2 (0 : ℚ) (fun i => i) (fun _ => 0) 1 1 1 0)
    (p := fun z => decide (z 0 = -3 / 2 ∧ z 1 = -3)) (by decide +kernel)
  rw [decide_eq_true_eq] at h
  refine ⟨z, hz, h.1, h.2, fun hs => ?_, ?_, ?_, ?_⟩
  · have := hs.1
    rw [h.1, h.2] at this
    norm_num at this
  · norm_num
  · norm_num
  · intro i h1 h2; omega

/-- Four points of the line 2 x + 1 at uneven knots meet the hypotheses of `C89_slopes_partial` and `C89_memory_violated`. -/
example : Increasing 4 (fun i : Nat => ((i * i : Nat) : ℚ)) ∧
    ∀ i : Nat, i + 1 < 4 → (2 * (((i + 1) * (i + 1) : Nat) : ℚ) + 1) - (2 * ((i * i : Nat) : ℚ) + 1) =
      2 * ((((i + 1) * (i + 1) : Nat) : ℚ) - ((i * i : Nat) : ℚ)) := by
  constructor
  · intro i _; push_cast; nlinarith [(Nat.cast_nonneg i : (0 : ℚ) ≤ i)]
  · intro i _; ring

end Verif.Splines
