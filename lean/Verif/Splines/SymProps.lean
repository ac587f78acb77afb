/-
C141: splines transform with the data.
-/
import Verif.Splines.Props

set_option autoImplicit false
set_option linter.unusedSectionVars false

namespace Verif.Splines

variable {K : Type*} [Field K] [LinearOrder K] [IsStrictOrderedRing K]

/-! ## Lemmas -/

/-- The coefficient of the last knot. -/
theorem coeffs_last {n : Nat} (hn : 2 ≤ n) {x y b : Nat → K} {s : Spline K} (hs : coeffs n x y b = .ok s) :
    s.c (n - 1) = 3 * s.a (n - 2) * (x (n - 2) - x (n - 1)) * (x (n - 2) - x (n - 1)) +
      2 * s.b (n - 2) * (x (n - 2) - x (n - 1)) + s.c (n - 2) := by
  unfold coeffs at hs
  split at hs
  · cases hs
  · injection hs with hs
    subst hs
    have hne : n - 2 ≠ n - 1 := by omega
    simp [Function.update_of_ne hne]

/-- All coefficients of the natural spline through values that are a linear combination. -/
theorem natural_linear (n : Nat) (hn : 2 ≤ n) (junk : K) (x y1 y2 : Nat → K) (α β : K) (hx : Increasing n x) :
    ∃ s s1 s2, fitCubicSpline n junk x (fun i => α * y1 i + β * y2 i) 2 2 0 0 = .ok s ∧
      fitCubicSpline n junk x y1 2 2 0 0 = .ok s1 ∧ fitCubicSpline n junk x y2 2 2 0 0 = .ok s2 ∧
      s.n = n ∧ s1.n = n ∧ s2.n = n ∧ s.x = x ∧ s1.x = x ∧ s2.x = x ∧
      ∀ i < n, s.a i = α * s1.a i + β * s2.a i ∧ s.b i = α * s1.b i + β * s2.b i ∧
        s.c i = α * s1.c i + β * s2.c i ∧ s.y i = α * s1.y i + β * s2.y i := by
  obtain ⟨z, w, u, hz, hw, z1, z0, u0, zi, uN, _, w0, wi⟩ :=
    solveTrid_natural n hn junk x (fun i => α * y1 i + β * y2 i) hx
  obtain ⟨z', w', u', hz', hw', z1', z0', u0', zi', uN', _, w0', wi'⟩ := solveTrid_natural n hn junk x y1 hx
  obtain ⟨z'', w'', u'', hz'', hw'', z1'', z0'', u0'', zi'', uN'', _, w0'', wi''⟩ := solveTrid_natural n hn junk x y2 hx
  have e1 : ∀ i < n, w' i = w i ∧ w'' i = w i := by
    intro i
    induction i with
    | zero => intro _; exact ⟨by rw [w0, w0'], by rw [w0, w0'']⟩
    | succ i ih =>
      intro hi
      obtain ⟨h1, h2⟩ := ih (by omega)
      exact ⟨by rw [wi i hi, wi' i hi, h1], by rw [wi i hi, wi'' i hi, h2]⟩
  have e2 : ∀ i, i + 1 < n → u i = α * u' i + β * u'' i := by
    intro i
    induction i with
    | zero => intro _; rw [u0, u0', u0'']; ring
    | succ i ih =>
      intro hi
      have a := (zi (i + 1) (by omega) hi).2
      have b := (zi' (i + 1) (by omega) hi).2
      have c := (zi'' (i + 1) (by omega) hi).2
      simp only [Nat.add_sub_cancel] at a b c
      rw [(e1 i (by omega)).1] at b
      rw [(e1 i (by omega)).2] at c
      rw [a, b, c, ih (by omega)]
      ring
  have e3 : u (n - 1) = α * u' (n - 1) + β * u'' (n - 1) := by
    rw [uN, uN', uN'', (e1 (n - 2) (by omega)).1, (e1 (n - 2) (by omega)).2, e2 (n - 2) (by omega)]
    ring
  have e4 : ∀ k i, i + k + 1 = n → z i = α * z' i + β * z'' i := by
    intro k
    induction k with
    | zero =>
      intro i hi
      have : i = n - 1 := by omega
      rw [this, z1, z1', z1'', e3, (e1 (n - 1) (by omega)).1, (e1 (n - 1) (by omega)).2]
      ring
    | succ k ih =>
      intro i hi
      by_cases h0 : i = 0
      · rw [h0, z0, z0', z0'']; ring
      · rw [(zi i (by omega) (by omega)).1, (zi' i (by omega) (by omega)).1, (zi'' i (by omega) (by omega)).1,
          (e1 i (by omega)).1, (e1 i (by omega)).2, e2 i (by omega), ih (i + 1) (by omega)]
        ring
  obtain ⟨s, hs, n0, x0, y0, b0, a0, c0⟩ := coeffs_spec n hn x (fun i => α * y1 i + β * y2 i) z hx
  obtain ⟨s', hs', n1, x1, y1', b1, a1, c1⟩ := coeffs_spec n hn x y1 z' hx
  obtain ⟨s'', hs'', n2, x2, y2', b2, a2, c2⟩ := coeffs_spec n hn x y2 z'' hx
  have hlow : ∀ i, i + 1 < n → s.a i = α * s'.a i + β * s''.a i ∧ s.c i = α * s'.c i + β * s''.c i := by
    intro i hi
    rw [(c0 i hi).1, (c1 i hi).1, (c2 i hi).1, (c0 i hi).2, (c1 i hi).2, (c2 i hi).2,
      e4 (n - 1 - i) i (by omega), e4 (n - 1 - (i + 1)) (i + 1) (by omega)]
    constructor <;> ring
  refine ⟨s, s', s'', by rw [fitCubicSpline, hz]; exact hs, by rw [fitCubicSpline, hz']; exact hs',
    by rw [fitCubicSpline, hz'']; exact hs'', n0, n1, n2, x0, x1, x2, fun i hi => ?_⟩
  have hb : ∀ j < n, s.b j = α * s'.b j + β * s''.b j := by
    intro j hj
    rw [b0, b1, b2]
    exact e4 (n - 1 - j) j (by omega)
  refine ⟨?_, hb i hi, ?_, by rw [y0, y1', y2']⟩
  · by_cases h : i + 1 < n
    · exact (hlow i h).1
    · rw [show i = n - 1 by omega, a0, a1, a2]; ring
  · by_cases h : i + 1 < n
    · exact (hlow i h).2
    · rw [show i = n - 1 by omega, coeffs_last hn hs, coeffs_last hn hs', coeffs_last hn hs'',
        (hlow (n - 2) (by omega)).1, (hlow (n - 2) (by omega)).2, hb (n - 2) (by omega)]
      ring

theorem segment_lt (s : Spline K) (hn : 0 < s.n) (p : K) : segment s p < s.n := by
  unfold segment
  have := List.length_filter_le (fun j => decide (s.x j ≤ p)) (List.range s.n)
  rw [List.length_range] at this
  omega

/-! ## C141 -/

/-- The queries are between the first and the last one. -/
def Bracketed (m : Nat) (q : Nat → K) : Prop := ∀ i < m, q 0 ≤ q i ∧ q i ≤ q (m - 1)

/-- C141. Superposition: the natural spline through a linear combination of values, and its derivatives, are the same
combination of the splines through the values. -/
theorem C141_linear (n : Nat) (hn : 2 ≤ n) (junk : K) (x y1 y2 : Nat → K) (α β : K) (hx : Increasing n x) (m : Nat)
    (q : Nat → K) (hq : Bracketed m q) (o : Int) (ho : o = 0 ∨ o = 1 ∨ o = 2) :
    ∃ s s1 s2 v v1 v2, fitCubicSpline n junk x (fun i => α * y1 i + β * y2 i) 2 2 0 0 = .ok s ∧
      fitCubicSpline n junk x y1 2 2 0 0 = .ok s1 ∧ fitCubicSpline n junk x y2 2 2 0 0 = .ok s2 ∧
      evaluateSpline s junk m q o = .ok v ∧ evaluateSpline s1 junk m q o = .ok v1 ∧
      evaluateSpline s2 junk m q o = .ok v2 ∧ ∀ i < m, v i = α * v1 i + β * v2 i := by
  obtain ⟨s, s1, s2, h, h1, h2, n0, n1, n2, x0, x1, x2, hc⟩ := natural_linear n hn junk x y1 y2 α β hx
  have hseg1 : ∀ p, segment s1 p = segment s p := by intro p; unfold segment; rw [n0, n1, x0, x1]
  have hseg2 : ∀ p, segment s2 p = segment s p := by intro p; unfold segment; rw [n0, n2, x0, x2]
  have hlt : ∀ p, segment s p < n := fun p => by
    have := segment_lt s (by omega) p
    omega
  rcases ho with rfl | rfl | rfl
  · refine ⟨s, s1, s2, _, _, _, h, h1, h2, by rw [evaluateSpline, if_pos rfl], by rw [evaluateSpline, if_pos rfl],
      by rw [evaluateSpline, if_pos rfl], fun i hi => ?_⟩
    obtain ⟨ha, hb, hcc, hy⟩ := hc _ (hlt (q i))
    simp only [hseg1, hseg2]
    rw [if_neg (not_lt.2 (hq i hi).1), if_neg (not_lt.2 (hq i hi).2), if_neg (not_lt.2 (hq i hi).1),
      if_neg (not_lt.2 (hq i hi).2), if_neg (not_lt.2 (hq i hi).1), if_neg (not_lt.2 (hq i hi).2), ha, hb, hcc, hy, x0, x1, x2]
    ring
  · refine ⟨s, s1, s2, _, _, _, h, h1, h2, by rw [evaluateSpline, if_neg (by decide), if_pos rfl],
      by rw [evaluateSpline, if_neg (by decide), if_pos rfl],
      by rw [evaluateSpline, if_neg (by decide), if_pos rfl], fun i hi => ?_⟩
    obtain ⟨ha, hb, hcc, hy⟩ := hc _ (hlt (q i))
    simp only [hseg1, hseg2]
    rw [if_neg (not_lt.2 (hq i hi).1), if_neg (not_lt.2 (hq i hi).2), if_neg (not_lt.2 (hq i hi).1),
      if_neg (not_lt.2 (hq i hi).2), if_neg (not_lt.2 (hq i hi).1), if_neg (not_lt.2 (hq i hi).2), ha, hb, hcc, x0, x1, x2]
    ring
  · refine ⟨s, s1, s2, _, _, _, h, h1, h2, by rw [evaluateSpline, if_neg (by decide), if_neg (by decide), if_pos rfl],
      by rw [evaluateSpline, if_neg (by decide), if_neg (by decide), if_pos rfl],
      by rw [evaluateSpline, if_neg (by decide), if_neg (by decide), if_pos rfl], fun i hi => ?_⟩
    obtain ⟨ha, hb, hcc, hy⟩ := hc _ (hlt (q i))
    simp only [hseg1, hseg2]
    rw [if_neg (not_lt.2 (hq i hi).1), if_neg (not_lt.2 (hq i hi).2), if_neg (not_lt.2 (hq i hi).1),
      if_neg (not_lt.2 (hq i hi).2), if_neg (not_lt.2 (hq i hi).1), if_neg (not_lt.2 (hq i hi).2), ha, hb, x0, x1, x2]
    ring

/-- C141. Straight lines are reproduced, also beyond the knots: through values on a line `α + β x` the natural spline is that
line, its first derivative is `β` and its second derivative zero. -/
theorem C141_lines (n : Nat) (hn : 2 ≤ n) (junk : K) (x : Nat → K) (α β : K) (hx : Increasing n x) (m : Nat)
    (q : Nat → K) (hq : Bracketed m q) :
    ∃ s v0 v1 v2, fitCubicSpline n junk x (fun i => α + β * x i) 2 2 0 0 = .ok s ∧
      evaluateSpline s junk m q 0 = .ok v0 ∧ evaluateSpline s junk m q 1 = .ok v1 ∧
      evaluateSpline s junk m q 2 = .ok v2 ∧ ∀ i < m, v0 i = α + β * q i ∧ v1 i = β ∧ v2 i = 0 := by
  have hd : ∀ i, i + 1 < n → x (i + 1) - x i ≠ 0 := by
    intro i hi h
    have := hx i hi
    linarith
  have hslope : ∀ i, i + 1 < n → (α + β * x (i + 1) - (α + β * x i)) / (x (i + 1) - x i) = β := by
    intro i hi
    rw [div_eq_iff (hd i hi)]
    ring
  obtain ⟨z, w, u, hz, hw, z1, z0, u0, zi, uN, _⟩ := solveTrid_natural n hn junk x (fun i => α + β * x i) hx
  have hu : ∀ i, i + 1 < n → u i = 0 := by
    intro i
    induction i with
    | zero => intro _; exact u0
    | succ i ih =>
      intro hi
      have a := (zi (i + 1) (by omega) hi).2
      simp only [Nat.add_sub_cancel] at a
      rw [a, ih (by omega), hslope i (by omega), hslope (i + 1) hi]
      ring
  have hzz : ∀ k i, i + k + 1 = n → z i = 0 := by
    intro k
    induction k with
    | zero =>
      intro i hi
      rw [show i = n - 1 by omega, z1, uN, hu (n - 2) (by omega), mul_zero, zero_div]
    | succ k ih =>
      intro i hi
      by_cases h0 : i = 0
      · rw [h0, z0]
      · rw [(zi i (by omega) (by omega)).1, hu i (by omega), ih (i + 1) (by omega)]
        simp
  obtain ⟨s, hs, n0, x0, y0, b0, a0, c0⟩ := coeffs_spec n hn x (fun i => α + β * x i) z hx
  have hb : ∀ i < n, s.b i = 0 := fun i hi => by rw [b0]; exact hzz (n - 1 - i) i (by omega)
  have ha : ∀ i < n, s.a i = 0 := by
    intro i hi
    by_cases h : i + 1 < n
    · rw [(c0 i h).1, hzz (n - 1 - i) i (by omega), hzz (n - 1 - (i + 1)) (i + 1) (by omega)]
      simp
    · rw [show i = n - 1 by omega, a0]
  have hc' : ∀ i, i + 1 < n → s.c i = β := by
    intro i h
    rw [(c0 i h).2, hzz (n - 1 - i) i (by omega), hzz (n - 1 - (i + 1)) (i + 1) (by omega)]
    simp only [hslope i h]
    ring
  have hc : ∀ i < n, s.c i = β := by
    intro i hi
    by_cases h : i + 1 < n
    · exact hc' i h
    · rw [show i = n - 1 by omega, coeffs_last hn hs, ha (n - 2) (by omega), hb (n - 2) (by omega), hc' (n - 2) (by omega)]
      ring
  refine ⟨s, _, _, _, by rw [fitCubicSpline, hz]; exact hs, by rw [evaluateSpline, if_pos rfl],
    by rw [evaluateSpline, if_neg (by decide), if_pos rfl],
    by rw [evaluateSpline, if_neg (by decide), if_neg (by decide), if_pos rfl], fun i hi => ?_⟩
  have hlt : segment s (q i) < n := by
    have := segment_lt s (by omega) (q i)
    omega
  simp only []
  rw [if_neg (not_lt.2 (hq i hi).1), if_neg (not_lt.2 (hq i hi).2), if_neg (not_lt.2 (hq i hi).1),
    if_neg (not_lt.2 (hq i hi).2), if_neg (not_lt.2 (hq i hi).1), if_neg (not_lt.2 (hq i hi).2),
    ha _ hlt, hb _ hlt, hc _ hlt, y0, x0]
  refine ⟨?_, ?_, ?_⟩ <;> ring

/-- C141. The origin of the axis does not matter: knots and queries moved by the same amount give the same values, for all end
conditions, orders and queries, and the same errors. -/
theorem C141_shift (n : Nat) (junk : K) (x y : Nat → K) (lt rt : Int) (lv rv d : K) (m : Nat) (q : Nat → K) (o : Int) :
    (match fitCubicSpline n junk (fun i => x i + d) y lt rt lv rv with
      | .error e => Except.error e
      | .ok s => evaluateSpline s junk m (fun i => q i + d) o) =
    (match fitCubicSpline n junk x y lt rt lv rv with
      | .error e => Except.error e
      | .ok s => evaluateSpline s junk m q o) := by
  have hfit : fitCubicSpline n junk (fun i => x i + d) y lt rt lv rv =
      (fitCubicSpline n junk x y lt rt lv rv).map fun s => { s with x := fun i => x i + d } := by
    have hrow : ∀ i t, buildRow (fun i => x i + d) y i t = buildRow x y i t := by
      intro i t
      unfold buildRow
      simp only [add_sub_add_right_eq_sub]
    have hbuild : build n (fun i => x i + d) y = build n x y := by
      unfold build
      simp only [hrow]
    have hsolve : solveTrid n junk (fun i => x i + d) y lt rt lv rv = solveTrid n junk x y lt rt lv rv := by
      unfold solveTrid leftEnd rightEnd
      simp only [hbuild, add_sub_add_right_eq_sub]
    unfold fitCubicSpline
    rw [hsolve]
    cases solveTrid n junk x y lt rt lv rv with
    | error e => rfl
    | ok b =>
      have hcr : ∀ i ac, coeffRow (fun i => x i + d) y b i ac = coeffRow x y b i ac := by
        intro i ac
        unfold coeffRow
        simp only [add_sub_add_right_eq_sub]
      simp only []
      unfold coeffs
      simp only [hcr, add_sub_add_right_eq_sub]
      cases forRangeM (n - 1) ((fun _ => 0, fun _ => 0) : (Nat → K) × (Nat → K)) fun i ac => coeffRow x y b i ac with
      | error e => rfl
      | ok ac => rfl
  rw [hfit]
  cases hs : fitCubicSpline n junk x y lt rt lv rv with
  | error e => rfl
  | ok s =>
    have hsx : s.x = x := by
      unfold fitCubicSpline coeffs at hs
      split at hs
      · cases hs
      · split at hs
        · cases hs
        · cases hs; rfl
    have hseg : ∀ p, segment { s with x := fun i => x i + d } (p + d) = segment s p := by
      intro p
      unfold segment
      simp only [add_le_add_iff_right, hsx]
    show evaluateSpline { s with x := fun i => x i + d } junk m (fun i => q i + d) o = evaluateSpline s junk m q o
    unfold evaluateSpline
    simp only [hseg, add_sub_add_right_eq_sub, add_lt_add_iff_right, at?, hsx]

/-- C141 is violated for the unit of the axis: the spline through 0, 1, 0, 0 at 0, 1, 2, 3 has at 3/2 a value different from that
of the spline at 0, 2, 4, 6 at 3, as the elimination subtracts a pivot where it should divide by it. -/
theorem C141_unit_violated : ∃ s s' v v',
    fitCubicSpline 4 (0 : ℚ) (fun i => i) (fun i => if i = 1 then 1 else 0) 2 2 0 0 = .ok s ∧
    fitCubicSpline 4 (0 : ℚ) (fun i => 2 * i) (fun i => if i = 1 then 1 else 0) 2 2 0 0 = .ok s' ∧
    evaluateSpline s 0 1 (fun _ => 3 / 2) 0 = .ok v ∧ evaluateSpline s' 0 1 (fun _ => 2 * (3 / 2)) 0 = .ok v' ∧
    v 0 ≠ v' 0 := by
  obtain ⟨s, hs, h⟩ := of_okAnd (r := fitCubicSpline 4 (0 : ℚ) (fun i => i) (fun i => if i = 1 then 1 else 0) 2 2 0 0)
    (p := fun s => okAnd (fitCubicSpline 4 (0 : ℚ) (fun i => 2 * i) (fun i => if i = 1 then 1 else 0) 2 2 0 0) fun s' =>
      okAnd (evaluateSpline s 0 1 (fun _ => 3 / 2) 0) fun v =>
        okAnd (evaluateSpline s' 0 1 (fun _ => 2 * (3 / 2)) 0) fun v' => decide (v 0 ≠ v' 0)) (by decide +kernel)
  obtain ⟨s', hs', h⟩ := of_okAnd h
  obtain ⟨v, hv, h⟩ := of_okAnd h
  obtain ⟨v', hv', h⟩ := of_okAnd h
  exact ⟨s, s', v, v', hs, hs', hv, hv', of_decide_eq_true h⟩

/-- Knots 0 .. 4 and queries -1, 0, 1, .. , 6 (two of them beyond the knots) meet the hypotheses. -/
example : Increasing 5 (fun i : Nat => (i : ℚ)) ∧ Bracketed 8 (fun i : Nat => (i : ℚ) - 1) := by
  constructor
  · intro i _; push_cast; linarith
  · intro i hi
    have : (i : ℚ) ≤ 7 := by exact_mod_cast (show i ≤ 7 by omega)
    have h0 : (0 : ℚ) ≤ i := by exact_mod_cast Nat.zero_le i
    constructor
    · push_cast; linarith
    · push_cast; linarith

end Verif.Splines
