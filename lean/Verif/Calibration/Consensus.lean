/-
Lemmas for C183: the phase errors of an array during calibration on noiseless data.
-/
import Mathlib.Analysis.SpecialFunctions.Trigonometric.Bounds
import Mathlib.Analysis.Convex.SpecificFunctions.Deriv
import Mathlib.Algebra.BigOperators.Field
import Mathlib.Logic.Relation
import Mathlib.Tactic.Linarith
import Mathlib.Tactic.LinearCombination
import Mathlib.Tactic.FieldSimp
import Mathlib.Tactic.Positivity

set_option autoImplicit false

noncomputable section

namespace Verif.Calibration

/-- How many times antenna `p` is in row `r`, with its weight (a specification about calibration/phase_only/phase_only.py:156-196). -/
def linkPower (R : Finset Nat) (a b : Nat → Nat) (w : Nat → ℝ) (p : Nat) : ℝ :=
  ∑ r ∈ R, ((if a r = p then 1 else 0) + (if b r = p then 1 else 0)) * w r

/-- The correction of antenna `p` for phase errors `e` (a specification about calibration/phase_only/phase_only.py:156-196). -/
def turn (R : Finset Nat) (a b : Nat → Nat) (w : Nat → ℝ) (e : Nat → ℝ) (p : Nat) : ℝ :=
  0.5 * ((∑ r ∈ R, ((if a r = p then 1 else 0) - (if b r = p then 1 else 0)) *
    (w r * -Real.sin (e (a r) - e (b r)))) / linkPower R a b w p)

/-- The errors after one iteration (a specification about calibration/phase_only/phase_only.py:156-196). -/
def turned (R : Finset Nat) (a b : Nat → Nat) (w : Nat → ℝ) (e : Nat → ℝ) (p : Nat) : ℝ :=
  e p + turn R a b w e p

theorem sin_lower {D : ℝ} (hD : 0 < D) (hpi : D < Real.pi) :
    ∃ κ : ℝ, 0 < κ ∧ κ ≤ 1 ∧ ∀ x, 0 ≤ x → x ≤ D → κ * x ≤ Real.sin x := by
  have hs := Real.sin_pos_of_pos_of_lt_pi hD hpi
  refine ⟨Real.sin D / D, by positivity, (div_le_one hD).2 (Real.sin_le hD.le), fun x hx hxD => ?_⟩
  have h0 : (0 : ℝ) ∈ Set.Icc 0 Real.pi := ⟨le_rfl, Real.pi_pos.le⟩
  have h1 : D ∈ Set.Icc 0 Real.pi := ⟨hD.le, hpi.le⟩
  have h2 : 0 ≤ 1 - x / D := sub_nonneg.2 ((div_le_one hD).2 hxD)
  have h3 : 0 ≤ x / D := by positivity
  have := strictConcaveOn_sin_Icc.concaveOn.2 h0 h1 h2 h3 (by ring)
  simp only [smul_eq_mul, Real.sin_zero, mul_zero, zero_add] at this
  rw [div_mul_cancel₀ _ hD.ne'] at this
  calc _ = x / D * Real.sin D := by ring
    _ ≤ _ := this

section
variable {R : Finset Nat} {a b : Nat → Nat} {w : Nat → ℝ} {A : Nat}

theorem turn_form (e : Nat → ℝ) (p : Nat) :
    (∑ r ∈ R, ((if a r = p then 1 else 0) - (if b r = p then 1 else 0)) * (w r * -Real.sin (e (a r) - e (b r)))) =
      ∑ r ∈ R, ((if a r = p then w r * Real.sin (e (b r) - e p) else 0) +
        (if b r = p then w r * Real.sin (e (a r) - e p) else 0)) := by
  refine Finset.sum_congr rfl fun r _ => ?_
  by_cases h1 : a r = p <;> by_cases h2 : b r = p
  · simp [h1, h2]
  · rw [if_pos h1, if_neg h2, if_pos h1, if_neg h2, h1, ← Real.sin_neg]
    simp
  · rw [if_neg h1, if_pos h2, if_neg h1, if_pos h2, h2, ← Real.sin_neg]
    rw [Real.sin_neg]
    ring
  · simp [h1, h2]

theorem linkPower_form (p : Nat) (x : ℝ) : linkPower R a b w p * x =
    ∑ r ∈ R, ((if a r = p then w r * x else 0) + (if b r = p then w r * x else 0)) := by
  unfold linkPower
  rw [Finset.sum_mul]
  refine Finset.sum_congr rfl fun r _ => ?_
  split_ifs <;> ring

theorem sin_upper {y z : ℝ} (hy : -Real.pi ≤ y) (hz : 0 ≤ z) (hyz : y ≤ z) : Real.sin y ≤ z := by
  rcases le_total 0 y with h | h
  · exact (Real.sin_le h).trans hyz
  · exact (Real.sin_nonpos_of_nonpos_of_neg_pi_le h hy).trans hz

/-- Errors below `M` stay below `M`, and keep half their distance. -/
theorem turned_upper (hA : ∀ r ∈ R, a r < A ∧ b r < A) (hw : ∀ r ∈ R, 0 ≤ w r) {e : Nat → ℝ} {D M : ℝ}
    (hD : ∀ p < A, ∀ q < A, |e p - e q| ≤ D) (hpi : D < Real.pi) (hM : ∀ p < A, e p ≤ M) {p : Nat} (hp : p < A)
    (hP : 0 < linkPower R a b w p) : (M - e p) / 2 ≤ M - turned R a b w e p := by
  have hle : (∑ r ∈ R, ((if a r = p then w r * Real.sin (e (b r) - e p) else 0) +
        (if b r = p then w r * Real.sin (e (a r) - e p) else 0))) ≤ linkPower R a b w p * (M - e p) := by
    rw [linkPower_form]
    have hs : ∀ q < A, Real.sin (e q - e p) ≤ M - e p := fun q hq => by
      have := abs_le.1 (hD q hq p hp)
      exact sin_upper (by linarith) (sub_nonneg.2 (hM p hp)) (by linarith [hM q hq])
    refine Finset.sum_le_sum fun r hr => add_le_add ?_ ?_
    · split
      · exact mul_le_mul_of_nonneg_left (hs _ (hA r hr).2) (hw r hr)
      · exact le_rfl
    · split
      · exact mul_le_mul_of_nonneg_left (hs _ (hA r hr).1) (hw r hr)
      · exact le_rfl
  unfold turned turn
  rw [turn_form]
  have := (div_le_iff₀ hP).2 (hle.trans_eq (mul_comm _ _))
  norm_num
  linarith

/-- A neighbour below `M` pulls. -/
theorem turned_pull (hA : ∀ r ∈ R, a r < A ∧ b r < A) (hw : ∀ r ∈ R, 0 ≤ w r) {e : Nat → ℝ} {D M κ : ℝ}
    (hD : ∀ p < A, ∀ q < A, |e p - e q| ≤ D) (hpi : D < Real.pi) (hκ0 : 0 < κ) (hκ1 : κ ≤ 1)
    (hκ : ∀ x, 0 ≤ x → x ≤ D → κ * x ≤ Real.sin x) (hM : ∀ p < A, e p ≤ M) {p q : Nat} (hp : p < A) (hq : q < A)
    (hP : 0 < linkPower R a b w p) {r : Nat} (hr : r ∈ R) (hpq : (a r = p ∧ b r = q) ∨ (a r = q ∧ b r = p)) :
    κ * w r / (2 * linkPower R a b w p) * (M - e q) ≤ M - turned R a b w e p := by
  have hs : ∀ q < A, Real.sin (e q - e p) ≤ M - e p := fun q hq => by
    have := abs_le.1 (hD q hq p hp)
    exact sin_upper (by linarith) (sub_nonneg.2 (hM p hp)) (by linarith [hM q hq])
  have hs' : Real.sin (e q - e p) ≤ M - e p - κ * (M - e q) := by
    have hd := abs_le.1 (hD q hq p hp)
    have h1 := hM p hp
    have h2 := hM q hq
    rcases le_total (e p) (e q) with h | h
    · have := Real.sin_le (sub_nonneg.2 h)
      nlinarith
    · have := hκ (e p - e q) (sub_nonneg.2 h) (by linarith)
      have h3 : Real.sin (e q - e p) = -Real.sin (e p - e q) := by rw [← Real.sin_neg]; congr 1; ring
      nlinarith
  have hle : (∑ r ∈ R, ((if a r = p then w r * Real.sin (e (b r) - e p) else 0) +
        (if b r = p then w r * Real.sin (e (a r) - e p) else 0))) ≤
      linkPower R a b w p * (M - e p) - w r * (κ * (M - e q)) := by
    rw [linkPower_form, ← Finset.add_sum_erase _ _ hr, ← Finset.add_sum_erase _ _ hr, add_sub_right_comm]
    refine add_le_add ?_ (Finset.sum_le_sum fun r' hr' => add_le_add ?_ ?_)
    · have hw' := hw r hr
      have hg : ∀ q' < A, w r * Real.sin (e q' - e p) ≤ w r * (M - e p) := fun q' hq' =>
        mul_le_mul_of_nonneg_left (hs _ hq') hw'
      have hgg := mul_le_mul_of_nonneg_left hs' hw'
      have ha := hg _ (hA r hr).1
      have hb := hg _ (hA r hr).2
      have hk : 0 ≤ w r * (κ * (M - e q)) := mul_nonneg hw' (mul_nonneg hκ0.le (sub_nonneg.2 (hM q hq)))
      rcases hpq with ⟨h1, h2⟩ | ⟨h1, h2⟩
      · rw [if_pos h1, if_pos h1, h2]
        rw [h1] at ha ⊢
        split_ifs <;> linarith
      · rw [if_pos h2, if_pos h2, h1]
        rw [h2] at hb ⊢
        split_ifs <;> linarith
    · have hr'' := Finset.mem_of_mem_erase hr'
      split
      · exact mul_le_mul_of_nonneg_left (hs _ (hA _ hr'').2) (hw _ hr'')
      · exact le_rfl
    · have hr'' := Finset.mem_of_mem_erase hr'
      split
      · exact mul_le_mul_of_nonneg_left (hs _ (hA _ hr'').1) (hw _ hr'')
      · exact le_rfl
  have hdiv := div_le_div_of_nonneg_right hle hP.le
  have h1 := hM p hp
  unfold turned turn
  rw [turn_form]
  rw [sub_div, mul_div_cancel_left₀ _ hP.ne'] at hdiv
  have : κ * w r / (2 * linkPower R a b w p) * (M - e q) = w r * (κ * (M - e q)) / linkPower R a b w p / 2 := by
    field_simp
  rw [this]
  norm_num
  linarith

theorem turned_neg (e : Nat → ℝ) (p : Nat) :
    turned R a b w (fun q => -e q) p = -turned R a b w e p := by
  unfold turned turn
  have : ∀ r, -Real.sin (-e (a r) - -e (b r)) = Real.sin (e (a r) - e (b r)) := fun r => by
    rw [← Real.sin_neg]; congr 1; ring
  simp only [this]
  have h2 : (∑ r ∈ R, ((if a r = p then (1 : ℝ) else 0) - (if b r = p then 1 else 0)) * (w r * Real.sin (e (a r) - e (b r)))) =
      -∑ r ∈ R, ((if a r = p then 1 else 0) - (if b r = p then 1 else 0)) * (w r * -Real.sin (e (a r) - e (b r))) := by
    rw [← Finset.sum_neg_distrib]
    exact Finset.sum_congr rfl fun r _ => by ring
  rw [h2]
  ring

/-- Errors stay in any interval narrower than half a turn. -/
theorem turned_within (hA : ∀ r ∈ R, a r < A ∧ b r < A) (hw : ∀ r ∈ R, 0 ≤ w r)
    (hP : ∀ p < A, 0 < linkPower R a b w p) {e : Nat → ℝ} {x y : ℝ} (hx : ∀ p < A, x ≤ e p ∧ e p ≤ y)
    (hxy : y - x < Real.pi) : ∀ p < A, x ≤ turned R a b w e p ∧ turned R a b w e p ≤ y := by
  have hD : ∀ p < A, ∀ q < A, |e p - e q| ≤ y - x := fun p hp q hq => by
    rw [abs_le]
    constructor <;> linarith [(hx p hp).1, (hx p hp).2, (hx q hq).1, (hx q hq).2]
  intro p hp
  constructor
  · have := turned_upper hA hw (e := fun q => -e q) (D := y - x) (M := -x)
      (fun p hp q hq => by rw [abs_le]; have := abs_le.1 (hD p hp q hq); constructor <;> linarith)
      hxy (fun p hp => neg_le_neg (hx p hp).1) hp (hP p hp)
    rw [turned_neg] at this
    linarith [(hx p hp).1]
  · have := turned_upper hA hw hD hxy (fun p hp => (hx p hp).2) hp (hP p hp)
    linarith [(hx p hp).2]

/-- The least and the largest error. -/
theorem exists_range (e : Nat → ℝ) {D : ℝ} (hD : ∀ p < A, ∀ q < A, |e p - e q| ≤ D) (hA : 0 < A) :
    ∃ p < A, ∃ q < A, (∀ s < A, e p ≤ e s ∧ e s ≤ e q) ∧ e q - e p ≤ D := by
  obtain ⟨p, hp, h1⟩ := (Finset.range A).exists_min_image e ⟨0, Finset.mem_range.2 hA⟩
  obtain ⟨q, hq, h2⟩ := (Finset.range A).exists_max_image e ⟨0, Finset.mem_range.2 hA⟩
  rw [Finset.mem_range] at hp hq
  exact ⟨p, hp, q, hq, fun s hs => ⟨h1 s (Finset.mem_range.2 hs), h2 s (Finset.mem_range.2 hs)⟩,
    (le_abs_self _).trans (hD q hq p hp)⟩

theorem turned_spread (hA : ∀ r ∈ R, a r < A ∧ b r < A) (hw : ∀ r ∈ R, 0 ≤ w r)
    (hP : ∀ p < A, 0 < linkPower R a b w p) {e : Nat → ℝ} {D : ℝ} (hD : ∀ p < A, ∀ q < A, |e p - e q| ≤ D)
    (hpi : D < Real.pi) (n : Nat) :
    ∀ p < A, ∀ q < A, |(turned R a b w)^[n] e p - (turned R a b w)^[n] e q| ≤ D := by
  intro p hp q hq
  obtain ⟨i, hi, j, hj, h1, h2⟩ := exists_range e hD (by omega)
  have : ∀ s < A, e i ≤ (turned R a b w)^[n] e s ∧ (turned R a b w)^[n] e s ≤ e j := by
    induction n with
    | zero => exact h1
    | succ n ih =>
      rw [Function.iterate_succ_apply']
      exact turned_within hA hw hP ih (by linarith)
  rw [abs_le]
  constructor <;> linarith [(this p hp).1, (this p hp).2, (this q hq).1, (this q hq).2]

/-- Two antennas with a baseline of positive weight (a specification about calibration/phase_only/phase_only.py:156-196). -/
def LinkedBy (R : Finset Nat) (a b : Nat → Nat) (w : Nat → ℝ) (p q : Nat) : Prop :=
  ∃ r ∈ R, 0 < w r ∧ ((a r = p ∧ b r = q) ∨ (a r = q ∧ b r = p))

theorem LinkedBy.symm {p q : Nat} (h : LinkedBy R a b w p q) : LinkedBy R a b w q p := by
  obtain ⟨r, hr, hw, h⟩ := h
  exact ⟨r, hr, hw, h.symm⟩

/-- A pull common to all links. -/
theorem exists_pull {κ : ℝ} (hκ0 : 0 < κ)
    (hP : ∀ p < A, 0 < linkPower R a b w p) : ∃ α : ℝ, 0 < α ∧ α ≤ 1 / 2 ∧
      ∀ p < A, ∀ q, LinkedBy R a b w p q →
        ∃ r ∈ R, 0 < w r ∧ ((a r = p ∧ b r = q) ∨ (a r = q ∧ b r = p)) ∧
          α ≤ κ * w r / (2 * linkPower R a b w p) := by
  classical
  let S := ((Finset.range A) ×ˢ R.filter fun r => 0 < w r)
  have key : ∃ α : ℝ, 0 < α ∧ α ≤ 1 / 2 ∧ ∀ x ∈ S, α ≤ κ * w x.2 / (2 * linkPower R a b w x.1) := by
    rcases S.eq_empty_or_nonempty with h | h
    · exact ⟨1 / 2, by norm_num, le_rfl, fun x hx => by rw [h] at hx; simp at hx⟩
    · obtain ⟨x, hx, hmin⟩ := S.exists_min_image (fun x => κ * w x.2 / (2 * linkPower R a b w x.1)) h
      have hx' := Finset.mem_product.1 hx
      have h1 := hP x.1 (Finset.mem_range.1 hx'.1)
      have h2 := (Finset.mem_filter.1 hx'.2).2
      exact ⟨min (1 / 2) (κ * w x.2 / (2 * linkPower R a b w x.1)), lt_min (by norm_num) (by positivity),
        min_le_left _ _, fun y hy => (min_le_right _ _).trans (hmin y hy)⟩
  obtain ⟨α, h0, h1, h2⟩ := key
  refine ⟨α, h0, h1, fun p hp q ⟨r, hr, hw, hpq⟩ => ⟨r, hr, hw, hpq, h2 (p, r) ?_⟩⟩
  exact Finset.mem_product.2 ⟨Finset.mem_range.2 hp, Finset.mem_filter.2 ⟨hr, hw⟩⟩

/-- In an array whose antennas are all linked, directly or over others, the spread of the errors shrinks by
a fixed factor every `N` iterations. -/
theorem turned_contract (hA : ∀ r ∈ R, a r < A ∧ b r < A) (hw : ∀ r ∈ R, 0 ≤ w r)
    (hP : ∀ p < A, 0 < linkPower R a b w p)
    (hcon : ∀ p < A, ∀ q < A, Relation.ReflTransGen (LinkedBy R a b w) p q) {D : ℝ} (hD0 : 0 < D) (hpi : D < Real.pi) :
    ∃ (N : Nat) (ρ : ℝ), 0 ≤ ρ ∧ ρ < 1 ∧ ∀ (e : Nat → ℝ) (S : ℝ), S ≤ D → (∀ p < A, ∀ q < A, |e p - e q| ≤ S) →
      ∀ p < A, ∀ q < A, |(turned R a b w)^[N] e p - (turned R a b w)^[N] e q| ≤ ρ * S := by
  obtain ⟨κ, hκ0, hκ1, hκ⟩ := sin_lower hD0 hpi
  obtain ⟨α, hα0, hα1, hα⟩ := exists_pull hκ0 hP
  -- along a path
  have hpath : ∀ q p, q < A → p < A → Relation.ReflTransGen (LinkedBy R a b w) q p → ∃ n, ∀ n', n ≤ n' →
      ∀ (e : Nat → ℝ) (x M : ℝ), M - x ≤ D → (∀ s < A, x ≤ e s ∧ e s ≤ M) →
        α ^ n' * (M - e q) ≤ M - (turned R a b w)^[n'] e p := by
    intro q p hq hp h
    have hstay : ∀ n (e : Nat → ℝ) (x M : ℝ), M - x ≤ D → (∀ s < A, x ≤ e s ∧ e s ≤ M) →
        ∀ s < A, x ≤ (turned R a b w)^[n] e s ∧ (turned R a b w)^[n] e s ≤ M := by
      intro n e x M hMx he
      induction n with
      | zero => exact he
      | succ n ih =>
        rw [Function.iterate_succ_apply']
        exact turned_within hA hw hP ih (by linarith)
    have hspread : ∀ (e : Nat → ℝ) (x M : ℝ), M - x ≤ D → (∀ s < A, x ≤ e s ∧ e s ≤ M) →
        ∀ p < A, ∀ q < A, |e p - e q| ≤ D := by
      intro e x M hMx he p hp q hq
      rw [abs_le]
      constructor <;> linarith [(he p hp).1, (he p hp).2, (he q hq).1, (he q hq).2]
    suffices hs : p < A → ∃ n, ∀ n', n ≤ n' →
        ∀ (e : Nat → ℝ) (x M : ℝ), M - x ≤ D → (∀ s < A, x ≤ e s ∧ e s ≤ M) →
        α ^ n' * (M - e q) ≤ M - (turned R a b w)^[n'] e p from hs hp
    clear hp
    induction h with
    | refl =>
      intro _
      refine ⟨0, fun n' _ e x M hMx he => ?_⟩
      induction n' with
      | zero => simp
      | succ n' ih =>
        rw [Function.iterate_succ_apply']
        have h1 := hstay n' e x M hMx he
        have := turned_upper hA hw (hspread _ x M hMx h1) hpi (fun p hp => (h1 p hp).2) hq (hP q hq)
        have h2 : 0 ≤ M - (turned R a b w)^[n'] e q := sub_nonneg.2 (h1 q hq).2
        have h3 := ih (Nat.zero_le _)
        rw [pow_succ]
        nlinarith
    | tail hqs hsp ih =>
      rename_i s p
      intro hp
      have hs : s < A := by
        obtain ⟨r, hr, -, h | h⟩ := hsp
        · rw [← h.1]; exact (hA r hr).1
        · rw [← h.2]; exact (hA r hr).2
      obtain ⟨n, hn⟩ := ih hs
      refine ⟨n + 1, fun n' hn' e x M hMx he => ?_⟩
      obtain ⟨n'', rfl⟩ : ∃ n'', n' = n'' + 1 := ⟨n' - 1, by omega⟩
      rw [Function.iterate_succ_apply', pow_succ]
      have h1 := hstay n'' e x M hMx he
      have h2 := hn n'' (by omega) e x M hMx he
      obtain ⟨r, hr, hwr, hpq, hle⟩ := hα p hp s hsp.symm
      have h3 := turned_pull hA hw (hspread _ x M hMx h1) hpi hκ0 hκ1 hκ (fun p hp => (h1 p hp).2) hp hs (hP p hp) hr hpq
      have h4 : 0 ≤ M - (turned R a b w)^[n''] e s := sub_nonneg.2 (h1 s hs).2
      calc _ = α * (α ^ n'' * (M - e q)) := by ring
        _ ≤ α * (M - (turned R a b w)^[n''] e s) := mul_le_mul_of_nonneg_left h2 hα0.le
        _ ≤ _ := (mul_le_mul_of_nonneg_right hle h4).trans h3
  have hN : ∃ N, ∀ q < A, ∀ p < A, ∀ (e : Nat → ℝ) (x M : ℝ), M - x ≤ D → (∀ s < A, x ≤ e s ∧ e s ≤ M) →
        α ^ N * (M - e q) ≤ M - (turned R a b w)^[N] e p := by
    have : ∀ q p, ∃ n, q < A → p < A → ∀ n', n ≤ n' →
        ∀ (e : Nat → ℝ) (x M : ℝ), M - x ≤ D → (∀ s < A, x ≤ e s ∧ e s ≤ M) →
        α ^ n' * (M - e q) ≤ M - (turned R a b w)^[n'] e p := by
      intro q p
      by_cases hq : q < A
      · by_cases hp : p < A
        · obtain ⟨n, hn⟩ := hpath q p hq hp (hcon q hq p hp)
          exact ⟨n, fun _ _ => hn⟩
        · exact ⟨0, fun _ h => absurd h hp⟩
      · exact ⟨0, fun h _ => absurd h hq⟩
    choose n hn using this
    refine ⟨(Finset.range A).sup fun q => (Finset.range A).sup fun p => n q p, fun q hq p hp => ?_⟩
    refine hn q p hq hp _ ?_
    refine le_trans ?_ (Finset.le_sup (f := fun q => (Finset.range A).sup fun p => n q p) (Finset.mem_range.2 hq))
    exact Finset.le_sup (f := fun p => n q p) (Finset.mem_range.2 hp)
  obtain ⟨N, hN⟩ := hN
  have hαN : α ^ N ≤ 1 := pow_le_one₀ hα0.le (by linarith)
  refine ⟨N, 1 - α ^ N, by linarith, by linarith [pow_pos hα0 N], fun e S hS he p hp q hq => ?_⟩
  obtain ⟨i, hi, j, hj, h1, h2⟩ := exists_range e he (by omega)
  have hlow : ∀ s < A, e i ≤ (turned R a b w)^[N] e s := by
    intro s hs
    have : ∀ n, ∀ s < A, e i ≤ (turned R a b w)^[n] e s ∧ (turned R a b w)^[n] e s ≤ e j := by
      intro n
      induction n with
      | zero => exact h1
      | succ n ih =>
        rw [Function.iterate_succ_apply']
        exact turned_within hA hw hP ih (by linarith)
    exact (this N s hs).1
  have hup : ∀ s < A, (turned R a b w)^[N] e s ≤ e j - α ^ N * (e j - e i) := fun s hs => by
    have := hN i hi s hs e (e i) (e j) (by linarith) h1
    linarith
  have hS' : (1 - α ^ N) * (e j - e i) ≤ (1 - α ^ N) * S := mul_le_mul_of_nonneg_left h2 (by linarith)
  rw [abs_le]
  constructor <;> linarith [hlow p hp, hlow q hq, hup p hp, hup q hq]

/-- Errors whose corrections are all small are almost equal. -/
theorem spread_of_small (hA : ∀ r ∈ R, a r < A ∧ b r < A) (hw : ∀ r ∈ R, 0 ≤ w r)
    (hP : ∀ p < A, 0 < linkPower R a b w p)
    (hcon : ∀ p < A, ∀ q < A, Relation.ReflTransGen (LinkedBy R a b w) p q) {D : ℝ} (hD0 : 0 < D) (hpi : D < Real.pi) :
    ∃ C : ℝ, 0 < C ∧ ∀ (e : Nat → ℝ) (τ : ℝ), (∀ p < A, ∀ q < A, |e p - e q| ≤ D) →
      (∀ p < A, |turn R a b w e p| ≤ τ) → ∀ p < A, ∀ q < A, |e p - e q| ≤ C * τ := by
  obtain ⟨κ, hκ0, hκ1, hκ⟩ := sin_lower hD0 hpi
  -- lengths of paths
  have hlen : ∃ N : Nat, ∀ p < A, ∀ q < A, ∀ (e : Nat → ℝ) (L : ℝ), 0 ≤ L →
      (∀ i j, LinkedBy R a b w i j → |e i - e j| ≤ L) → |e p - e q| ≤ N * L := by
    have : ∀ p q, ∃ n : Nat, p < A → q < A → ∀ (e : Nat → ℝ) (L : ℝ), 0 ≤ L →
        (∀ i j, LinkedBy R a b w i j → |e i - e j| ≤ L) → |e p - e q| ≤ n * L := by
      intro p q
      by_cases hp : p < A
      · by_cases hq : q < A
        · have h := hcon p hp q hq
          suffices ∃ n : Nat, ∀ (e : Nat → ℝ) (L : ℝ), 0 ≤ L →
            (∀ i j, LinkedBy R a b w i j → |e i - e j| ≤ L) → |e p - e q| ≤ n * L by
            obtain ⟨n, hn⟩ := this
            exact ⟨n, fun _ _ => hn⟩
          clear hq
          induction h with
          | refl => exact ⟨0, fun e L _ _ => by simp⟩
          | tail hqs hl ih =>
            rename_i s q
            obtain ⟨n, hn⟩ := ih
            refine ⟨n + 1, fun e L hL h => ?_⟩
            have h1 := hn e L hL h
            have h2 := h _ _ hl
            push_cast
            have h3 : |e p - e q| ≤ |e p - e s| + |e s - e q| := abs_sub_le _ _ _
            linarith
        · exact ⟨0, fun _ h => absurd h hq⟩
      · exact ⟨0, fun h _ => absurd h hp⟩
    choose n hn using this
    refine ⟨(Finset.range A).sup fun q => (Finset.range A).sup fun p => n q p, fun p hp q hq e L hL h => ?_⟩
    refine (hn p q hp hq e L hL h).trans (mul_le_mul_of_nonneg_right (Nat.cast_le.2 ?_) hL)
    refine le_trans ?_ (Finset.le_sup (f := fun q => (Finset.range A).sup fun p => n q p) (Finset.mem_range.2 hp))
    exact Finset.le_sup (f := fun q => n p q) (Finset.mem_range.2 hq)
  obtain ⟨N, hN⟩ := hlen
  -- the least weight of a link
  obtain ⟨w0, hw0, hmin⟩ : ∃ w0 : ℝ, 0 < w0 ∧ ∀ r ∈ R, 0 < w r → w0 ≤ w r := by
    classical
    rcases (R.filter fun r => 0 < w r).eq_empty_or_nonempty with h | h
    · exact ⟨1, one_pos, fun r hr hwr => absurd (Finset.mem_filter.2 ⟨hr, hwr⟩) (by rw [h]; simp)⟩
    · obtain ⟨r0, hr0, h0⟩ := (R.filter fun r => 0 < w r).exists_min_image w h
      exact ⟨w r0, (Finset.mem_filter.1 hr0).2, fun r hr hwr => h0 r (Finset.mem_filter.2 ⟨hr, hwr⟩)⟩
  set W := ∑ p ∈ Finset.range A, linkPower R a b w p with hW
  have hW0 : 0 ≤ W := Finset.sum_nonneg fun p hp => (hP p (Finset.mem_range.1 hp)).le
  refine ⟨N ^ 2 * (2 * W / (κ * w0)) + 1, by positivity, fun e τ hD hτ p hp q hq => ?_⟩
  have hτ0 : 0 ≤ τ := (abs_nonneg _).trans (hτ p hp)
  obtain ⟨i, hi, j, hj, h1, -⟩ := exists_range e hD (by omega)
  set S := e j - e i with hS
  have hS0 : 0 ≤ S := sub_nonneg.2 (h1 j hj).1
  -- energy
  have hen : ∑ r ∈ R, w r * ((e (a r) - e (b r)) * Real.sin (e (a r) - e (b r))) ≤ 2 * τ * S * W := by
    have e1 : ∀ p < A, linkPower R a b w p * (2 * turn R a b w e p) =
        ∑ r ∈ R, ((if a r = p then 1 else 0) - (if b r = p then 1 else 0)) * (w r * -Real.sin (e (a r) - e (b r))) := by
      intro p hp
      have := (hP p hp).ne'
      unfold turn
      rw [show (0.5 : ℝ) = 1 / 2 by norm_num]
      field_simp
    have e2 : ∑ p ∈ Finset.range A, (linkPower R a b w p * (2 * turn R a b w e p)) * (e p - e i) =
        -∑ r ∈ R, w r * ((e (a r) - e (b r)) * Real.sin (e (a r) - e (b r))) := by
      rw [Finset.sum_congr rfl fun p hp => by rw [e1 p (Finset.mem_range.1 hp), Finset.sum_mul], Finset.sum_comm,
        ← Finset.sum_neg_distrib]
      refine Finset.sum_congr rfl fun r hr => ?_
      have hpick : ∀ s < A, ∑ p ∈ Finset.range A, (if s = p then (1 : ℝ) else 0) * (e p - e i) = e s - e i := by
        intro s hs
        simp only [ite_mul, one_mul, zero_mul]
        rw [Finset.sum_ite_eq, if_pos (Finset.mem_range.2 hs)]
      have : ∀ p, ((if a r = p then (1 : ℝ) else 0) - (if b r = p then 1 else 0)) *
          (w r * -Real.sin (e (a r) - e (b r))) * (e p - e i) =
          (w r * -Real.sin (e (a r) - e (b r))) * ((if a r = p then (1 : ℝ) else 0) * (e p - e i) -
            (if b r = p then 1 else 0) * (e p - e i)) := fun p => by ring
      rw [Finset.sum_congr rfl fun p _ => this p, ← Finset.mul_sum, Finset.sum_sub_distrib, hpick _ (hA r hr).1,
        hpick _ (hA r hr).2]
      ring
    have e3 : -∑ p ∈ Finset.range A, (linkPower R a b w p * (2 * turn R a b w e p)) * (e p - e i) ≤
        ∑ p ∈ Finset.range A, linkPower R a b w p * (2 * τ * S) := by
      rw [← Finset.sum_neg_distrib]
      refine Finset.sum_le_sum fun p hp => ?_
      have hp' := Finset.mem_range.1 hp
      have := (abs_le.1 (hτ p hp')).1
      have h3 := h1 p hp'
      have h4 : -turn R a b w e p * (e p - e i) ≤ τ * S := by
        calc _ ≤ τ * (e p - e i) := mul_le_mul_of_nonneg_right (by linarith) (by linarith)
          _ ≤ _ := mul_le_mul_of_nonneg_left (by linarith) hτ0
      have := mul_le_mul_of_nonneg_left h4 (hP p hp').le
      nlinarith
    rw [e2, neg_neg, ← Finset.sum_mul] at e3
    calc _ ≤ _ := e3
      _ = _ := by rw [hW]; ring
  have hsin : ∀ x : ℝ, |x| ≤ D → κ * x ^ 2 ≤ x * Real.sin x := by
    intro x hx
    rcases le_total 0 x with h | h
    · have := hκ x h (by rwa [abs_of_nonneg h] at hx)
      nlinarith
    · have := hκ (-x) (by linarith) (by rwa [abs_of_nonpos h] at hx)
      rw [Real.sin_neg] at this
      nlinarith
  have hlink : ∀ i j, LinkedBy R a b w i j → (e i - e j) ^ 2 ≤ 2 * W / (κ * w0) * (τ * S) := by
    rintro i j ⟨r, hr, hwr, hij⟩
    have hx : (e i - e j) ^ 2 = (e (a r) - e (b r)) ^ 2 := by
      rcases hij with ⟨rfl, rfl⟩ | ⟨rfl, rfl⟩
      · rfl
      · ring
    rw [hx]
    have h2 : ∀ r ∈ R, 0 ≤ w r * ((e (a r) - e (b r)) * Real.sin (e (a r) - e (b r))) := fun r hr => by
      refine mul_nonneg (hw r hr) (le_trans ?_ (hsin _ (hD _ (hA r hr).1 _ (hA r hr).2)))
      positivity
    have h3 := (Finset.single_le_sum h2 hr).trans hen
    have h4 := hsin _ (hD _ (hA r hr).1 _ (hA r hr).2)
    have h5 : w0 * (κ * (e (a r) - e (b r)) ^ 2) ≤ 2 * τ * S * W := by
      calc _ ≤ w r * (κ * (e (a r) - e (b r)) ^ 2) := mul_le_mul_of_nonneg_right (hmin r hr hwr) (by positivity)
        _ ≤ _ := mul_le_mul_of_nonneg_left h4 (hw r hr)
        _ ≤ _ := h3
    rw [div_mul_eq_mul_div, le_div_iff₀ (by positivity)]
    linarith
  set K := 2 * W / (κ * w0) with hK
  have hK0 : 0 ≤ K := by positivity
  have hSN : S ≤ N * Real.sqrt (K * (τ * S)) := by
    have := hN j hj i hi e (Real.sqrt (K * (τ * S))) (Real.sqrt_nonneg _) fun i j hij => Real.abs_le_sqrt (hlink i j hij)
    rwa [abs_of_nonneg hS0] at this
  have hSq : S * S ≤ N ^ 2 * K * τ * S := by
    have := mul_self_le_mul_self hS0 hSN
    rw [mul_mul_mul_comm, Real.mul_self_sqrt (by positivity)] at this
    nlinarith
  have hfin : S ≤ N ^ 2 * K * τ := by
    rcases hS0.eq_or_lt with h | h
    · rw [← h]; positivity
    · exact le_of_mul_le_mul_right hSq h
  rw [abs_le]
  constructor <;> linarith [(h1 p hp).1, (h1 p hp).2, (h1 q hq).1, (h1 q hq).2]

end

end Verif.Calibration
