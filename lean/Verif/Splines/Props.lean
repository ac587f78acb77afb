/-
C89 and C97-C98 about averaging/splines.py.
-/
import Verif.Splines.Model
import Mathlib.Algebra.Order.Ring.Rat
import Mathlib.Tactic.Ring
import Mathlib.Tactic.Linarith
import Mathlib.Tactic.FieldSimp
import Mathlib.Tactic.LinearCombination
import Mathlib.Tactic.NormNum

set_option autoImplicit false
set_option linter.unusedSectionVars false

namespace Verif.Splines

variable {K : Type*} [Field K] [LinearOrder K] [IsStrictOrderedRing K]

/-! ## Specification -/

/-- The tridiagonal system of a cubic spline with prescribed second derivatives `lv` and `rv` at the ends; `z` is half the
second derivative at the knots. -/
def SecondDerivSystem (n : Nat) (x y : Nat → K) (lv rv : K) (z : Nat → K) : Prop :=
  2 * z 0 = lv ∧ 2 * z (n - 1) = rv ∧
  ∀ i, 0 < i → i + 1 < n →
    (x i - x (i - 1)) / 3 * z (i - 1) + 2 * (x (i + 1) - x (i - 1)) / 3 * z i + (x (i + 1) - x i) / 3 * z (i + 1)
      = (y (i + 1) - y i) / (x (i + 1) - x i) - (y i - y (i - 1)) / (x i - x (i - 1))

/-- Knots in increasing order. -/
def Increasing (n : Nat) (x : Nat → K) : Prop := ∀ i, i + 1 < n → x i < x (i + 1)

/-- The data lie on one line: consecutive slopes agree. -/
def Collinear (n : Nat) (x y : Nat → K) : Prop :=
  ∀ i, 0 < i → i + 1 < n → (y (i + 1) - y i) / (x (i + 1) - x i) = (y i - y (i - 1)) / (x i - x (i - 1))

/-! ## Lemmas -/

/-- A decidable form of "succeeds with a result such that", for concrete cases. -/
def okAnd {α : Type*} (r : Except PyErr α) (p : α → Bool) : Bool :=
  match r with
  | .ok a => p a
  | .error _ => false

omit [Field K] [LinearOrder K] [IsStrictOrderedRing K] in
theorem of_okAnd {α : Type*} {r : Except PyErr α} {p : α → Bool} (h : okAnd r p = true) : ∃ a, r = .ok a ∧ p a = true := by
  cases r with
  | ok a => exact ⟨a, rfl, h⟩
  | error e => cases h

omit [IsStrictOrderedRing K] in
theorem divE_ok {p q : K} (h : q ≠ 0) : divE p q = .ok (p / q) := by simp [divE, h]

/-- What the construction loop stores. -/
theorem build_spec (n : Nat) (hn : 2 ≤ n) (x y : Nat → K) (hx : Increasing n x) :
    ∃ t, build n x y = .ok t ∧ t.a (n - 1) = 0 ∧ t.v 0 = 0 ∧ t.c 0 = 0 ∧
      ∀ i, 0 < i → i + 1 < n → t.a i = (1 / 3) * (x i - x (i - 1)) ∧ t.b i = (2 / 3) * (x (i + 1) - x (i - 1)) ∧
        t.c i = (1 / 3) * (x (i + 1) - x i) ∧
        t.v i = (y (i + 1) - y i) / (x (i + 1) - x i) - (y i - y (i - 1)) / (x i - x (i - 1)) := by
  unfold build
  obtain ⟨t, ht, h1, h2, h3, h4⟩ := forRangeM_ok_inv (n := n - 2)
    (init := (⟨fun _ => 0, fun _ => 0, fun _ => 0, fun _ => 0⟩ : Tri K)) (f := fun k t => buildRow x y (k + 1) t)
    (fun k t => t.a (n - 1) = 0 ∧ t.v 0 = 0 ∧ t.c 0 = 0 ∧
      ∀ i, 0 < i → i < k + 1 → t.a i = (1 / 3) * (x i - x (i - 1)) ∧ t.b i = (2 / 3) * (x (i + 1) - x (i - 1)) ∧
        t.c i = (1 / 3) * (x (i + 1) - x i) ∧
        t.v i = (y (i + 1) - y i) / (x (i + 1) - x i) - (y i - y (i - 1)) / (x i - x (i - 1)))
    ⟨rfl, rfl, rfl, fun i h1 h2 => by omega⟩
    (by
      rintro k t hk ⟨h1, h2, h3, h4⟩
      have e1 : x (k + 1 + 1) - x (k + 1) ≠ 0 := by have := hx (k + 1) (by omega); intro h; linarith
      have e2 : x (k + 1) - x (k + 1 - 1) ≠ 0 := by have := hx k (by omega); simp; intro h; linarith
      refine ⟨_, by rw [buildRow, divE_ok e1, divE_ok e2], ?_, ?_, ?_, ?_⟩
      · simp only []; rw [Function.update_of_ne (by omega)]; exact h1
      · simp only []; rw [Function.update_of_ne (by omega)]; exact h2
      · simp only []; rw [Function.update_of_ne (by omega)]; exact h3
      · intro i h5 h6
        by_cases h : i = k + 1
        · subst h; simp
        · simp only []
          rw [Function.update_of_ne h, Function.update_of_ne h, Function.update_of_ne h, Function.update_of_ne h]
          exact h4 i h5 (by omega))
  exact ⟨t, ht, h1, h2, h3, fun i h5 h6 => h4 i h5 (by omega)⟩

omit [LinearOrder K] [IsStrictOrderedRing K] in
/-- The elimination leaves `A`, `C` alone, and row `i` is computed from the final row `i - 1`. -/
theorem eliminate_spec (n : Nat) (t : Tri K) :
    (eliminate n t).a = t.a ∧ (eliminate n t).c = t.c ∧ (eliminate n t).b 0 = t.b 0 ∧ (eliminate n t).v 0 = t.v 0 ∧
    ∀ i, i + 1 < n →
      (eliminate n t).b (i + 1) = t.b (i + 1) - (t.a (i + 1) - (eliminate n t).b i) * t.c i ∧
      (eliminate n t).v (i + 1) = t.v (i + 1) - (t.a (i + 1) - (eliminate n t).b i) * (eliminate n t).v i := by
  have := forRange_inv (n := n - 1) (init := t) (f := fun k t => elimRow (k + 1) t)
    (fun k s => s.a = t.a ∧ s.c = t.c ∧ s.b 0 = t.b 0 ∧ s.v 0 = t.v 0 ∧
      (∀ j, k < j → s.b j = t.b j ∧ s.v j = t.v j) ∧
      ∀ i, i + 1 < k + 1 → s.b (i + 1) = t.b (i + 1) - (t.a (i + 1) - s.b i) * t.c i ∧
        s.v (i + 1) = t.v (i + 1) - (t.a (i + 1) - s.b i) * s.v i)
    ⟨rfl, rfl, rfl, rfl, fun j _ => ⟨rfl, rfl⟩, fun i h => by omega⟩
    (by
      rintro k s hk ⟨h1, h2, h3, h4, h5, h6⟩
      refine ⟨h1, h2, ?_, ?_, ?_, ?_⟩
      · simp [elimRow, h3]
      · simp [elimRow, h4]
      · intro j hj
        have e : j ≠ k + 1 := by omega
        simp [elimRow, Function.update_of_ne e, h5 j (by omega)]
      · intro i hi
        have e : i ≠ k + 1 := by omega
        by_cases h : i = k
        · subst h
          have := h5 (i + 1) (by omega)
          simp [elimRow, h1, h2, this]
        · have e' : i + 1 ≠ k + 1 := by omega
          have := h6 i (by omega)
          simp only [elimRow, Function.update_of_ne e, Function.update_of_ne e']
          exact this)
  obtain ⟨h1, h2, h3, h4, h5, h6⟩ := this
  exact ⟨h1, h2, h3, h4, fun i hi => h6 i (by omega)⟩

omit [IsStrictOrderedRing K] in
/-- Back substitution with a zero superdiagonal entry in the last row. -/
theorem backSubst_spec (n : Nat) (hn : 1 ≤ n) (junk : K) (t : Tri K) (hb : ∀ i < n, t.b i ≠ 0) (hc : t.c (n - 1) = 0) :
    ∃ z, backSubst n junk t = .ok z ∧ z (n - 1) = t.v (n - 1) / t.b (n - 1) ∧
      ∀ i, i + 1 < n → z i = (t.v i - t.c i * z (i + 1)) / t.b i := by
  unfold backSubst
  rw [divE_ok (hb (n - 1) (by omega))]
  obtain ⟨z, hz, h1, h2⟩ := forRangeM_ok_inv (n := n)
    (init := Function.update (fun _ => (0 : K)) (n - 1) (t.v (n - 1) / t.b (n - 1)))
    (f := fun k z => backRow n junk t (n - 1 - k) z)
    (fun k z => z (n - 1) = t.v (n - 1) / t.b (n - 1) ∧
      ∀ i, n ≤ i + k → i + 1 < n → z i = (t.v i - t.c i * z (i + 1)) / t.b i)
    ⟨by simp, fun i h1 h2 => by omega⟩
    (by
      rintro k z hk ⟨h1, h2⟩
      refine ⟨_, by rw [backRow, divE_ok (hb (n - 1 - k) (by omega))], ?_, ?_⟩
      · by_cases h : k = 0
        · subst h; simp [hc]
        · rw [Function.update_of_ne (by omega)]; exact h1
      · intro i hi hi'
        by_cases h : i = n - 1 - k
        · subst h
          rw [Function.update_self, Function.update_of_ne (by omega), if_pos (by omega)]
        · rw [Function.update_of_ne h, Function.update_of_ne (by omega)]
          exact h2 i (by omega) hi')
  exact ⟨z, hz, h1, fun i hi => h2 i (by omega) hi⟩

set_option maxHeartbeats 2000000 in
/-- What `solve_trid_system` computes with the default end conditions: `w` stands for the pivots and `u` for the right hand
sides of the elimination actually carried out. -/
theorem solveTrid_natural (n : Nat) (hn : 2 ≤ n) (junk : K) (x y : Nat → K) (hx : Increasing n x) :
    ∃ (z w u : Nat → K), solveTrid n junk x y 2 2 0 0 = .ok z ∧ (∀ i < n, 0 < w i) ∧
      z (n - 1) = u (n - 1) / w (n - 1) ∧ z 0 = 0 ∧ u 0 = 0 ∧
      (∀ i, 0 < i → i + 1 < n →
        z i = (u i - (1 / 3) * (x (i + 1) - x i) * z (i + 1)) / w i ∧
        u i = (y (i + 1) - y i) / (x (i + 1) - x i) - (y i - y (i - 1)) / (x i - x (i - 1))
          - ((1 / 3) * (x i - x (i - 1)) - w (i - 1)) * u (i - 1)) ∧
      u (n - 1) = w (n - 2) * u (n - 2) ∧
      (2 < n → w 1 = (2 / 3) * (x 2 - x 0)) ∧
      w 0 = 2 ∧ ∀ i, i + 1 < n → w (i + 1) = (if i + 2 < n then (2 / 3) * (x (i + 2) - x i) else 2) -
        ((if i + 2 < n then (1 / 3) * (x (i + 1) - x i) else 0) - w i) *
          (if i = 0 then 0 else (1 / 3) * (x (i + 1) - x i)) := by
  obtain ⟨t, ht, b1, b2, b3, b4⟩ := build_spec n hn x y hx
  have hl : leftEnd x y 2 0 t = .ok { t with a := Function.update t.a 0 0, b := Function.update t.b 0 2, c := Function.update t.c 0 0 } := by
    simp [leftEnd]
  set t1 : Tri K := { t with a := Function.update t.a 0 0, b := Function.update t.b 0 2, c := Function.update t.c 0 0 } with ht1
  have hr : rightEnd n x y 2 2 0 t1 = .ok { t1 with
      b := Function.update t1.b (n - 1) 2, c := Function.update t1.c (n - 1) 0, v := Function.update t1.v (n - 1) 0 } := by
    simp [rightEnd]
  set t2 : Tri K := { t1 with
      b := Function.update t1.b (n - 1) 2, c := Function.update t1.c (n - 1) 0, v := Function.update t1.v (n - 1) 0 } with ht2
  have hn0 : (0 : Nat) ≠ n - 1 := by omega
  have a2 : ∀ i, 0 < i → i + 1 < n → t2.a i = (1 / 3) * (x i - x (i - 1)) ∧ t2.b i = (2 / 3) * (x (i + 1) - x (i - 1)) ∧
        t2.c i = (1 / 3) * (x (i + 1) - x i) ∧
        t2.v i = (y (i + 1) - y i) / (x (i + 1) - x i) - (y i - y (i - 1)) / (x i - x (i - 1)) := by
    intro i h1 h2
    have e1 : i ≠ 0 := by omega
    have e2 : i ≠ n - 1 := by omega
    have := b4 i h1 h2
    simp only [ht2, ht1, Function.update_of_ne e1, Function.update_of_ne e2]
    exact this
  have aN : t2.a (n - 1) = 0 ∧ t2.b (n - 1) = 2 ∧ t2.c (n - 1) = 0 ∧ t2.v (n - 1) = 0 := by
    simp [ht2, ht1, Function.update_of_ne hn0.symm, b1]
  have a0 : t2.b 0 = 2 ∧ t2.c 0 = 0 ∧ t2.v 0 = 0 := by
    simp [ht2, ht1, Function.update_of_ne hn0, b2]
  obtain ⟨e1, e2, e3, e4, e5⟩ := eliminate_spec n t2
  generalize hT : eliminate n t2 = T at *
  -- the pivots are positive
  have piv : ∀ i, i < n → 0 < T.b i ∧ (0 < i → i + 1 < n → (2 / 3) * (x (i + 1) - x (i - 1)) ≤ T.b i) := by
    intro i
    induction i with
    | zero => intro _; rw [e3, a0.1]; exact ⟨by norm_num, fun h => absurd h (by omega)⟩
    | succ i ih =>
      intro hi
      obtain ⟨p1, p2⟩ := ih (by omega)
      have hxi := hx i hi
      obtain ⟨q, _⟩ := e5 i hi
      by_cases h0 : i = 0
      · subst h0
        rw [q, a0.2.1]
        by_cases hlast : 0 + 1 + 1 < n
        · obtain ⟨_, r, _, _⟩ := a2 1 (by omega) hlast
          have hx1 := hx 1 (by omega)
          simp only [zero_add] at hxi ⊢
          rw [r]
          simp only [Nat.sub_self, mul_zero, sub_zero]
          constructor
          · nlinarith
          · intros; exact le_refl _
        · have : 0 + 1 = n - 1 := by omega
          rw [this, aN.2.1]
          constructor
          · norm_num
          · intros; omega
      · obtain ⟨_, _, ci, _⟩ := a2 i (by omega) hi
        have p3 := p2 (by omega) hi
        have hxp := hx (i - 1) (by omega)
        rw [show i - 1 + 1 = i by omega] at hxp
        have hc : 0 < t2.c i := by rw [ci]; nlinarith
        by_cases hlast : i + 1 + 1 < n
        · obtain ⟨ai, bi, _, _⟩ := a2 (i + 1) (by omega) hlast
          rw [Nat.add_sub_cancel] at ai bi
          have hx2 := hx (i + 1) hlast
          have hw : t2.a (i + 1) - T.b i ≤ 0 := by rw [ai]; nlinarith
          have hm : 0 ≤ -((t2.a (i + 1) - T.b i) * t2.c i) := by nlinarith
          have : (2 / 3) * (x (i + 1 + 1) - x i) ≤ T.b (i + 1) := by rw [q, bi]; linarith
          exact ⟨by nlinarith, fun _ _ => by simpa using this⟩
        · have hiN : i + 1 = n - 1 := by omega
          have hm : 0 ≤ -((t2.a (i + 1) - T.b i) * t2.c i) := by
            rw [hiN, aN.1]; nlinarith
          refine ⟨?_, fun _ h => absurd h hlast⟩
          rw [q, show t2.b (i + 1) = 2 by rw [hiN]; exact aN.2.1]
          linarith
  obtain ⟨z, hz, z1, z2⟩ := backSubst_spec n (by omega) junk T (fun i hi => (piv i hi).1.ne') (by rw [e2]; exact aN.2.2.1)
  refine ⟨z, T.b, T.v, ?_, fun i hi => (piv i hi).1, z1, ?_, by rw [e4]; exact a0.2.2, ?_, ?_, ?_,
    by rw [e3]; exact a0.1, ?_⟩
  · unfold solveTrid
    rw [ht]
    simp only []
    rw [hl]
    simp only []
    rw [hr]
    simp only []
    rw [hT]
    exact hz
  · rw [z2 0 (by omega), e4, a0.2.2, e2, a0.2.1]; simp
  · intro i h1 h2
    obtain ⟨_, _, ci, vi⟩ := a2 i h1 h2
    refine ⟨by rw [z2 i h2, e2, ci], ?_⟩
    have := (e5 (i - 1) (by omega)).2
    rw [show i - 1 + 1 = i by omega] at this
    obtain ⟨ai, _, _, _⟩ := a2 i h1 h2
    rw [this, vi, ai]
  · have := (e5 (n - 2) (by omega)).2
    rw [show n - 2 + 1 = n - 1 by omega, aN.1, aN.2.2.2] at this
    rw [this]; ring
  · intro h
    have := (e5 0 (by omega)).1
    rw [zero_add, a0.2.1, mul_zero, sub_zero] at this
    rw [this, (a2 1 (by omega) h).2.1]
  · intro i hi
    rw [(e5 i hi).1]
    have hc : t2.c i = if i = 0 then 0 else (1 / 3) * (x (i + 1) - x i) := by
      split
      · rename_i h0; rw [h0]; exact a0.2.1
      · exact (a2 i (by omega) hi).2.2.1
    rw [hc]
    by_cases h : i + 2 < n
    · rw [if_pos h, if_pos h, (a2 (i + 1) (by omega) h).1, (a2 (i + 1) (by omega) h).2.1, Nat.add_sub_cancel]
    · have hN : i + 1 = n - 1 := by omega
      rw [if_neg h, if_neg h, hN, aN.1, aN.2.1, ← hN]

/-! ## C89 -/

/-- C89, part proved: on increasing knots with data on a line and the default end conditions, the solver does not raise and
returns the solution of the system. Missing: every other system, see `C89_violated`. -/
theorem C89_partial (n : Nat) (hn : 2 ≤ n) (junk : K) (x y : Nat → K) (hx : Increasing n x) (hy : Collinear n x y) :
    ∃ z, solveTrid n junk x y 2 2 0 0 = .ok z ∧ SecondDerivSystem n x y 0 0 z := by
  obtain ⟨z, w, u, hz, hw, z1, z0, u0, zi, uN, _⟩ := solveTrid_natural n hn junk x y hx
  have hu : ∀ i, i + 1 < n → u i = 0 := by
    intro i
    induction i with
    | zero => intro _; exact u0
    | succ i ih =>
      intro h
      have := (zi (i + 1) (by omega) h).2
      rw [this, Nat.add_sub_cancel, ih (by omega), mul_zero, sub_zero, hy (i + 1) (by omega) h, Nat.add_sub_cancel, sub_self]
  have hN : z (n - 1) = 0 := by rw [z1, uN, hu (n - 2) (by omega)]; simp
  have hall : ∀ k i, i + k + 1 = n → z i = 0 := by
    intro k
    induction k with
    | zero => intro i h; rw [show i = n - 1 by omega]; exact hN
    | succ k ih =>
      intro i h
      by_cases h0 : i = 0
      · rw [h0]; exact z0
      · rw [(zi i (by omega) (by omega)).1, hu i (by omega), ih (i + 1) (by omega)]; simp
  refine ⟨z, hz, by rw [z0]; simp, by rw [hN]; simp, ?_⟩
  intro i h1 h2
  rw [hall (n - 1 - (i - 1)) (i - 1) (by omega), hall (n - 1 - i) i (by omega), hall (n - 1 - (i + 1)) (i + 1) (by omega),
    hy i h1 h2]
  simp

/-- C89 is violated for *all* three knots that are not on a line: the value returned for the last knot is not zero although
the end condition prescribes zero. -/
theorem C89_violated (junk : K) (x y : Nat → K) (hx : Increasing 3 x) (hy : ¬ Collinear 3 x y) :
    ∃ z, solveTrid 3 junk x y 2 2 0 0 = .ok z ∧ ¬ SecondDerivSystem 3 x y 0 0 z := by
  obtain ⟨z, w, u, hz, hw, z1, z0, u0, zi, uN, w1, _, _⟩ := solveTrid_natural 3 (by omega) junk x y hx
  refine ⟨z, hz, fun h => hy ?_⟩
  obtain ⟨_, h2, _⟩ := h
  intro i h3 h4
  have hi : i = 1 := by omega
  subst hi
  have u1 := (zi 1 (by omega) (by omega)).2
  simp only [Nat.sub_self, u0, mul_zero, sub_zero] at u1
  simp only [show 3 - 1 = 2 from rfl, show 3 - 2 = 1 from rfl] at *
  have hz2 : z 2 = 0 := by linarith
  rw [hz2] at z1
  have hu2 : u 2 = 0 := by
    have := (hw 2 (by omega)).ne'
    field_simp at z1
    simpa using z1.symm
  rw [hu2] at uN
  have : u 1 = 0 := by
    rcases mul_eq_zero.1 uN.symm with h | h
    · exact absurd h (hw 1 (by omega)).ne'
    · exact h
  linarith

omit [IsStrictOrderedRing K] in
/-- C89 is violated by the end conditions as well: a prescribed second derivative at the left end has no effect on two knots. -/
theorem C89_violated_left_value : ∃ z, solveTrid 2 (5 : ℚ) (fun i => i) (fun _ => 0) 2 2 6 0 = .ok z ∧
    z 0 = 0 ∧ ¬ SecondDerivSystem 2 (fun i : Nat => (i : ℚ)) (fun _ => 0) 6 0 z := by
  obtain ⟨z, hz, h⟩ := of_okAnd (r := solveTrid 2 (5 : ℚ) (fun i => i) (fun _ => 0) 2 2 6 0)
    (p := fun z => decide (z 0 = 0)) (by decide +kernel)
  rw [decide_eq_true_eq] at h
  refine ⟨z, hz, h, fun hs => ?_⟩
  have := hs.1
  rw [h] at this
  norm_num at this

omit [IsStrictOrderedRing K] in
/-- C89 is violated for a prescribed first derivative at the right end: it is refused unless the left end has one too. -/
theorem C89_violated_right_type (n : Nat) (junk : K) (x y : Nat → K) (lv rv : K) (h : ∃ t, build n x y = .ok t) :
    solveTrid n junk x y 2 1 lv rv = .error .valueError := by
  obtain ⟨t, ht⟩ := h
  simp [solveTrid, ht, leftEnd, rightEnd]

/-- The hypotheses of `C89_partial` and `C89_violated` are met. -/
example : Increasing 5 (fun i : Nat => (i : ℚ)) ∧ Collinear 5 (fun i : Nat => (i : ℚ)) (fun i : Nat => 3 * (i : ℚ) + 1) := by
  constructor
  · intro i _; push_cast; linarith
  · intro i h1 _
    obtain ⟨j, rfl⟩ : ∃ j, i = j + 1 := ⟨i - 1, by omega⟩
    simp only [Nat.add_sub_cancel]
    push_cast
    ring

example : Increasing 3 (fun i : Nat => (i : ℚ)) ∧ ¬ Collinear 3 (fun i : Nat => (i : ℚ)) (fun i : Nat => (i : ℚ) ^ 2) := by
  constructor
  · intro i _; push_cast; linarith
  · intro h
    have := h 1 (by omega) (by omega)
    norm_num at this

/-! ## C97: interpolation -/

/-- What the coefficient loop stores. -/
theorem coeffs_spec (n : Nat) (hn : 2 ≤ n) (x y b : Nat → K) (hx : Increasing n x) :
    ∃ s, coeffs n x y b = .ok s ∧ s.n = n ∧ s.x = x ∧ s.y = y ∧ s.b = b ∧ s.a (n - 1) = 0 ∧
      (∀ i, i + 1 < n → s.a i = (b (i + 1) - b i) / (3 * (x (i + 1) - x i)) ∧
        s.c i = (y (i + 1) - y i) / (x (i + 1) - x i) - (2 * b i + b (i + 1)) * (x (i + 1) - x i) / 3) := by
  unfold coeffs
  obtain ⟨ac, hac, h1⟩ := forRangeM_ok_inv (n := n - 1) (init := ((fun _ => 0, fun _ => 0) : (Nat → K) × (Nat → K)))
    (f := fun i ac => coeffRow x y b i ac)
    (fun k ac => ∀ i, i < k → ac.1 i = (b (i + 1) - b i) / (3 * (x (i + 1) - x i)) ∧
        ac.2 i = (y (i + 1) - y i) / (x (i + 1) - x i) - (2 * b i + b (i + 1)) * (x (i + 1) - x i) / 3)
    (fun i h => by omega)
    (by
      intro k ac hk h
      have e1 : x (k + 1) - x k ≠ 0 := by have := hx k (by omega); intro h; linarith
      have e2 : 3 * (x (k + 1) - x k) ≠ 0 := mul_ne_zero (by norm_num) e1
      refine ⟨_, by rw [coeffRow, divE_ok e2, divE_ok e1], ?_⟩
      intro i hi
      by_cases hik : i = k
      · subst hik; simp
      · simp only []
        rw [Function.update_of_ne hik, Function.update_of_ne hik]
        exact h i (by omega))
  rw [hac]
  refine ⟨_, rfl, rfl, rfl, rfl, rfl, by simp, ?_⟩
  intro i hi
  have e : i ≠ n - 1 := by omega
  simp only [Function.update_of_ne e]
  exact h1 i (by omega)

theorem increasing_lt {n : Nat} {x : Nat → K} (hx : Increasing n x) {i j : Nat} (hij : i < j) (hj : j < n) : x i < x j := by
  induction j with
  | zero => omega
  | succ j ih =>
    have := hx j hj
    by_cases h : i = j
    · subst h; exact this
    · exact (ih (by omega) (by omega)).trans this

theorem filter_range_length (n : Nat) (p : Nat → Bool) (j : Nat) (hj : j < n) (h1 : ∀ i ≤ j, p i = true)
    (h2 : ∀ i, j < i → i < n → p i = false) : ((List.range n).filter p).length = j + 1 := by
  obtain ⟨m, rfl⟩ : ∃ m, n = (j + 1) + m := ⟨n - (j + 1), by omega⟩
  rw [List.range_add, List.filter_append, List.length_append, List.filter_eq_self.2, List.filter_eq_nil_iff.2]
  · simp
  · intro a ha
    rw [List.mem_map] at ha
    obtain ⟨b, hb, rfl⟩ := ha
    rw [List.mem_range] at hb
    rw [h2 (j + 1 + b) (by omega) (by omega)]
    simp
  · intro a ha
    exact h1 a (by rw [List.mem_range] at ha; omega)

/-- The segment of a point between two knots. -/
theorem segment_eq (s : Spline K) (hx : Increasing s.n s.x) (p : K) (j : Nat) (hj : j < s.n) (h1 : s.x j ≤ p)
    (h2 : j + 1 < s.n → p < s.x (j + 1)) : segment s p = j := by
  unfold segment
  rw [filter_range_length s.n _ j hj]
  · omega
  · intro i hi
    rw [decide_eq_true_eq]
    by_cases h : i = j
    · rw [h]; exact h1
    · exact (increasing_lt hx (by omega) hj).le.trans h1
  · intro i hi hin
    rw [decide_eq_false_iff_not, not_le]
    by_cases h : i = j + 1
    · rw [h]; exact h2 (by omega)
    · exact (h2 (by omega)).trans (increasing_lt hx (by omega) hin)

/-- C97, part proved. For knots in increasing order, whatever the solver returned, and queries that lie between the first and
the last query (as sorted queries do): a query at a knot returns the datum of that knot, and on each interval between knots
the values are those of one cubic polynomial that passes through the data at both ends of the interval, whose first and second
derivative are the results for orders 1 and 2. Missing: queries in another order, see `C97_violated`. -/
theorem C97_interpolates_partial (n : Nat) (hn : 2 ≤ n) (junk : K) (x y b : Nat → K) (hx : Increasing n x) (s : Spline K)
    (hs : coeffs n x y b = .ok s) (m : Nat) (q : Nat → K) (hq : ∀ i < m, q 0 ≤ q i ∧ q i ≤ q (m - 1)) :
    ∃ v0 v1 v2, evaluateSpline s junk m q 0 = .ok v0 ∧ evaluateSpline s junk m q 1 = .ok v1 ∧
      evaluateSpline s junk m q 2 = .ok v2 ∧
      (∀ i < m, ∀ j < n, q i = x j → v0 i = y j) ∧
      ∀ j, j + 1 < n → ∃ α β γ : K,
        (∀ i < m, x j ≤ q i → q i < x (j + 1) →
          v0 i = α * (q i - x j) ^ 3 + β * (q i - x j) ^ 2 + γ * (q i - x j) + y j ∧
          v1 i = 3 * α * (q i - x j) ^ 2 + 2 * β * (q i - x j) + γ ∧
          v2 i = 6 * α * (q i - x j) + 2 * β) ∧
        α * (x (j + 1) - x j) ^ 3 + β * (x (j + 1) - x j) ^ 2 + γ * (x (j + 1) - x j) + y j = y (j + 1) ∧
        β = b j ∧ 6 * α * (x (j + 1) - x j) + 2 * β = 2 * b (j + 1) := by
  obtain ⟨s', hs', hn', hx', hy', hb', _, hc⟩ := coeffs_spec n hn x y b hx
  rw [hs] at hs'
  cases hs'
  have hxs : Increasing s.n s.x := by rw [hn', hx']; exact hx
  have ne : ∀ i < m, ¬ q i < q 0 ∧ ¬ q (m - 1) < q i := fun i hi => ⟨not_lt.2 (hq i hi).1, not_lt.2 (hq i hi).2⟩
  refine ⟨_, _, _, if_pos rfl, by rw [evaluateSpline, if_neg (by decide), if_pos rfl],
    by rw [evaluateSpline, if_neg (by decide), if_neg (by decide), if_pos rfl], ?_, ?_⟩
  · intro i hi j hj hqi
    obtain ⟨h1, h2⟩ := ne i hi
    have hseg : segment s (q i) = j := by
      refine segment_eq s hxs _ j (by omega) (by rw [hx', hqi]) ?_
      intro h
      rw [hx', hqi]
      exact hx j (by omega)
    simp only []
    rw [if_neg h1, if_neg h2, hseg, hx', hqi, hy']
    ring
  · intro j hj
    obtain ⟨ha, hcc⟩ := hc j hj
    have hd : x (j + 1) - x j ≠ 0 := by have := hx j hj; intro h; linarith
    refine ⟨s.a j, s.b j, s.c j, ?_, ?_, by rw [hb'], ?_⟩
    · intro i hi h1 h2
      obtain ⟨e1, e2⟩ := ne i hi
      have hseg : segment s (q i) = j := segment_eq s hxs _ j (by omega) (by rw [hx']; exact h1) (fun _ => by rw [hx']; exact h2)
      refine ⟨?_, ?_, ?_⟩
      · simp only []
        rw [if_neg e1, if_neg e2, hseg, hx', hy']
        ring
      · simp only []
        rw [if_neg e1, if_neg e2, hseg, hx']
        ring
      · simp only []
        rw [if_neg e1, if_neg e2, hseg, hx']
    · rw [ha, hcc, hb']
      field_simp
      ring
    · rw [ha, hb']
      field_simp
      ring

/-- C97 is violated: a query below the first query is "extrapolated", even at a knot. Here the data are `y = x` at 0, 1, 2, and
the query 1 after the query 2 returns 0. -/
theorem C97_violated : ∃ s, fitCubicSpline 3 (0 : ℚ) (fun i => i) (fun i => i) 2 2 0 0 = .ok s ∧
    ∃ v, evaluateSpline s 0 2 (fun i => if i = 0 then 2 else 1) 0 = .ok v ∧ v 1 = 0 := by
  obtain ⟨s, hs, h⟩ := of_okAnd (r := fitCubicSpline 3 (0 : ℚ) (fun i => i) (fun i => i) 2 2 0 0)
    (p := fun s => okAnd (evaluateSpline s 0 2 (fun i => if i = 0 then 2 else 1) 0) fun v => decide (v 1 = 0)) (by decide +kernel)
  obtain ⟨v, hv, h⟩ := of_okAnd h
  exact ⟨s, hs, v, hv, of_decide_eq_true h⟩

/-- C97 is violated at the right hand end too: with more queries than knots the "extrapolation" reads outside the arrays, so
that the result depends on whatever lies there. -/
theorem C97_violated_outside : ∃ s, fitCubicSpline 2 (0 : ℚ) (fun i => i) (fun i => i) 2 2 0 0 = .ok s ∧
    ∃ v w, evaluateSpline s 0 3 (fun i => if i = 1 then 1 else 0) 0 = .ok v ∧
      evaluateSpline s 7 3 (fun i => if i = 1 then 1 else 0) 0 = .ok w ∧ v 1 ≠ w 1 := by
  obtain ⟨s, hs, h⟩ := of_okAnd (r := fitCubicSpline 2 (0 : ℚ) (fun i => i) (fun i => i) 2 2 0 0)
    (p := fun s => okAnd (evaluateSpline s 0 3 (fun i => if i = 1 then 1 else 0) 0) fun v =>
      okAnd (evaluateSpline s 7 3 (fun i => if i = 1 then 1 else 0) 0) fun w => decide (v 1 ≠ w 1)) (by decide +kernel)
  obtain ⟨v, hv, h⟩ := of_okAnd h
  obtain ⟨w, hw, h⟩ := of_okAnd h
  exact ⟨s, hs, v, w, hv, hw, of_decide_eq_true h⟩

/-- C97, what holds instead at the last knot: the derivative returned there is that of the last segment's cubic as far *before* the
segment's start as the knot is behind it. -/
theorem C97_last_derivative (n : Nat) (hn : 2 ≤ n) (junk : K) (x y b : Nat → K) (hx : Increasing n x) (s : Spline K)
    (hs : coeffs n x y b = .ok s) (m : Nat) (q : Nat → K) (hq : ∀ i < m, q 0 ≤ q i ∧ q i ≤ q (m - 1)) :
    ∃ v, evaluateSpline s junk m q 1 = .ok v ∧ ∀ i < m, q i = x (n - 1) →
      v i = 3 * s.a (n - 2) * (x (n - 2) - x (n - 1)) ^ 2 + 2 * s.b (n - 2) * (x (n - 2) - x (n - 1)) + s.c (n - 2) := by
  obtain ⟨s', hs', hn', hx', hy', hb', _, hc⟩ := coeffs_spec n hn x y b hx
  rw [hs] at hs'
  cases hs'
  have hxs : Increasing s.n s.x := by rw [hn', hx']; exact hx
  refine ⟨_, by rw [evaluateSpline, if_neg (by decide), if_pos rfl], ?_⟩
  intro i hi hqi
  have hseg : segment s (q i) = n - 1 := segment_eq s hxs _ (n - 1) (by omega) (by rw [hx', hqi]) (fun h => by omega)
  have hlast : s.c (n - 1) = 3 * s.a (n - 2) * (x (n - 2) - x (n - 1)) * (x (n - 2) - x (n - 1)) +
      2 * s.b (n - 2) * (x (n - 2) - x (n - 1)) + s.c (n - 2) := by
    unfold coeffs at hs
    split at hs
    · cases hs
    · injection hs with hs
      subst hs
      have hne : n - 2 ≠ n - 1 := by omega
      simp [Function.update_of_ne hne]
  simp only []
  rw [if_neg (not_lt.2 (hq i hi).1), if_neg (not_lt.2 (hq i hi).2), hseg, hx', hqi, sub_self, hlast]
  ring

/-- C97 is violated at the last knot: the derivative returned there, 983/224, is not that of the last segment. -/
theorem C97_violated_last : ∃ s, fitCubicSpline 3 (0 : ℚ) (fun i => i) (fun i => i * i) 2 2 2 2 = .ok s ∧
    ∃ v, evaluateSpline s 0 2 (fun i => i * 2) 1 = .ok v ∧ v 1 = 983 / 224 ∧
      3 * s.a 1 * (s.x 2 - s.x 1) ^ 2 + 2 * s.b 1 * (s.x 2 - s.x 1) + s.c 1 ≠ 983 / 224 := by
  obtain ⟨s, hs, h⟩ := of_okAnd (r := fitCubicSpline 3 (0 : ℚ) (fun i => i) (fun i => i * i) 2 2 2 2)
    (p := fun s => okAnd (evaluateSpline s 0 2 (fun i => i * 2) 1) fun v => decide (v 1 = 983 / 224 ∧
      3 * s.a 1 * (s.x 2 - s.x 1) ^ 2 + 2 * s.b 1 * (s.x 2 - s.x 1) + s.c 1 ≠ 983 / 224)) (by decide +kernel)
  obtain ⟨v, hv, h⟩ := of_okAnd h
  exact ⟨s, hs, v, hv, of_decide_eq_true h⟩

/-- Sorted queries meet the hypothesis of `C97_interpolates_partial`. -/
example : ∀ i < 4, (fun i : Nat => (i : ℚ) / 2) 0 ≤ (fun i : Nat => (i : ℚ) / 2) i ∧
    (fun i : Nat => (i : ℚ) / 2) i ≤ (fun i : Nat => (i : ℚ) / 2) (4 - 1) := by decide +kernel

/-- An order other than 0, 1, 2 raises. -/
theorem C97_rejects (s : Spline K) (junk : K) (m : Nat) (q : Nat → K) (o : Int) (h : o ≠ 0 ∧ o ≠ 1 ∧ o ≠ 2) :
    evaluateSpline s junk m q o = .error .valueError := by
  simp [evaluateSpline, h.1, h.2.1, h.2.2]

/-! ## C98: smoothness -/

/-- C98, part proved: the first derivative is continuous at an interior knot exactly when the coefficients satisfy that
knot's row of the tridiagonal system. -/
theorem C98_smooth_partial (n : Nat) (hn : 2 ≤ n) (x y b : Nat → K) (hx : Increasing n x) (s : Spline K)
    (hs : coeffs n x y b = .ok s) (i : Nat) (h0 : 0 < i) (hi : i + 1 < n) :
    3 * s.a (i - 1) * (x i - x (i - 1)) ^ 2 + 2 * s.b (i - 1) * (x i - x (i - 1)) + s.c (i - 1) = s.c i ↔
    (x i - x (i - 1)) / 3 * b (i - 1) + 2 * (x (i + 1) - x (i - 1)) / 3 * b i + (x (i + 1) - x i) / 3 * b (i + 1)
      = (y (i + 1) - y i) / (x (i + 1) - x i) - (y i - y (i - 1)) / (x i - x (i - 1)) := by
  obtain ⟨s', hs', hn', hx', hy', hb', _, hc⟩ := coeffs_spec n hn x y b hx
  rw [hs] at hs'
  cases hs'
  obtain ⟨j, rfl⟩ : ∃ j, i = j + 1 := ⟨i - 1, by omega⟩
  obtain ⟨a1, c1⟩ := hc j (by omega)
  obtain ⟨a2, c2⟩ := hc (j + 1) hi
  have d1 : x (j + 1) - x j ≠ 0 := by have := hx j (by omega); intro h; linarith
  simp only [Nat.add_sub_cancel]
  rw [a1, c1, c2, hb']
  generalize (y (j + 1 + 1) - y (j + 1)) / (x (j + 1 + 1) - x (j + 1)) = S2
  generalize (y (j + 1) - y j) / (x (j + 1) - x j) = S1
  have e : 3 * ((b (j + 1) - b j) / (3 * (x (j + 1) - x j))) * (x (j + 1) - x j) ^ 2 = (b (j + 1) - b j) * (x (j + 1) - x j) := by
    field_simp
  rw [e]
  constructor
  · intro h; linear_combination h
  · intro h; linear_combination h

/-- C98 is violated by the fitted spline: data 0, 1, 0, 0 at the knots 0, 1, 2, 3. -/
theorem C98_violated : ∃ s, fitCubicSpline 4 (0 : ℚ) (fun i => i) (fun i => if i = 1 then 1 else 0) 2 2 0 0 = .ok s ∧
    3 * s.a 1 * (s.x 2 - s.x 1) ^ 2 + 2 * s.b 1 * (s.x 2 - s.x 1) + s.c 1 ≠ s.c 2 := by
  obtain ⟨s, hs, h⟩ := of_okAnd (r := fitCubicSpline 4 (0 : ℚ) (fun i => i) (fun i => if i = 1 then 1 else 0) 2 2 0 0)
    (p := fun s => decide (3 * s.a 1 * (s.x 2 - s.x 1) ^ 2 + 2 * s.b 1 * (s.x 2 - s.x 1) + s.c 1 ≠ s.c 2)) (by decide +kernel)
  exact ⟨s, hs, of_decide_eq_true h⟩

end Verif.Splines
