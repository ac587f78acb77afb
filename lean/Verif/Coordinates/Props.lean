/-
C87: directions and direction cosines.
-/
import Verif.Coordinates.Model
import Mathlib.Tactic.Ring
import Mathlib.Tactic.Linarith
import Mathlib.Tactic.LinearCombination
import Mathlib.Tactic.FieldSimp
import Mathlib.Tactic.Positivity

set_option autoImplicit false

namespace Verif.Coordinates

/-! ### specification -/

/-- Cosine of the angle between a direction and the phase centre: positive on the hemisphere around the phase centre. -/
noncomputable def cosAngle (pc : ℝ × ℝ) (ra dec : ℝ) : ℝ :=
  Real.sin dec * Real.sin pc.2 + Real.cos dec * Real.cos pc.2 * Real.cos (ra - pc.1)

private theorem sphere (pc : ℝ × ℝ) (ra dec : ℝ) :
    (lmOf pc ra dec).1 ^ 2 + (lmOf pc ra dec).2 ^ 2 + cosAngle pc ra dec ^ 2 = 1 := by
  unfold lmOf cosAngle
  dsimp only
  have h1 := Real.sin_sq_add_cos_sq dec
  have h2 := Real.sin_sq_add_cos_sq pc.2
  have h3 := Real.sin_sq_add_cos_sq (ra - pc.1)
  linear_combination (Real.cos dec ^ 2) * h3 + h1 +
    (Real.sin dec ^ 2 + Real.cos dec ^ 2 * Real.cos (ra - pc.1) ^ 2) * h2

private theorem npSqrt_lm (pc : ℝ × ℝ) (ra dec : ℝ) :
    npSqrt (1 - (lmOf pc ra dec).1 ^ 2 - (lmOf pc ra dec).2 ^ 2) = .val |cosAngle pc ra dec| := by
  have h := sphere pc ra dec
  have e : 1 - (lmOf pc ra dec).1 ^ 2 - (lmOf pc ra dec).2 ^ 2 = cosAngle pc ra dec ^ 2 := by linarith
  unfold npSqrt
  rw [e, if_neg (not_lt.mpr (sq_nonneg _)), Real.sqrt_sq_eq_abs]

/-- **C87**: `radec_to_lmn` never computes nan; `l^2 + m^2 + n^2 = 1`, and `n` is the absolute value of the cosine of the
angle to the phase centre (the cosine itself on the hemisphere around it). -/
theorem C87_unit_partial (radec : Nat → ℝ × ℝ) (pc : Option (ℝ × ℝ)) :
    ∃ f, radecToLmn 2 radec pc = .ok f ∧ ∀ s, ∃ n, (f s).2.2 = .val n ∧
      (f s).1 ^ 2 + (f s).2.1 ^ 2 + n ^ 2 = 1 ∧ n = |cosAngle (pc.getD (0, 0)) (radec s).1 (radec s).2| := by
  refine ⟨_, by unfold radecToLmn; rw [if_neg (by decide)], fun s => ⟨_, npSqrt_lm _ _ _, ?_, rfl⟩⟩
  dsimp only
  rw [sq_abs]
  exact sphere _ _ _

/-- **C87**: the phase centre is mapped to `(0, 0, 1)`. -/
theorem C87_centre_partial (pc : ℝ × ℝ) :
    ∃ f, radecToLmn 2 (fun _ => pc) (some pc) = .ok f ∧ ∀ s, f s = (0, 0, .val 1) := by
  refine ⟨_, by unfold radecToLmn; rw [if_neg (by decide)], fun s => ?_⟩
  dsimp only
  rw [npSqrt_lm]
  have h := Real.sin_sq_add_cos_sq pc.2
  have e : cosAngle pc pc.1 pc.2 = 1 := by
    unfold cosAngle; rw [sub_self, Real.cos_zero]; linear_combination h
  have e1 : (lmOf pc pc.1 pc.2) = (0, 0) := by
    unfold lmOf; simp; ring
  simp only [centre, Option.getD_some, e1, e, abs_one]

/-- **C87**: the first two columns of `radec_to_lmn` are `radec_to_lm`. -/
theorem C87_lm_partial (radec : Nat → ℝ × ℝ) (pc : Option (ℝ × ℝ)) :
    ∃ f g, radecToLmn 2 radec pc = .ok f ∧ radecToLm 2 radec pc = .ok g ∧ ∀ s, ((f s).1, (f s).2.1) = g s := by
  refine ⟨_, _, by unfold radecToLmn; rw [if_neg (by decide)], by unfold radecToLm; rw [if_neg (by decide)], fun s => rfl⟩

/-- **C87**: arrays with the wrong number of components raise `ValueError`. -/
theorem C87_components_partial (n c : Nat) (radec : Nat → ℝ × ℝ) (lmn : Nat → ℝ × ℝ × ℝ) (pc : Option (ℝ × ℝ)) :
    (c ≠ 2 → radecToLmn c radec pc = .error .valueError ∧ radecToLm c radec pc = .error .valueError ∧
      lmToRadec n c radec pc = .error .valueError) ∧
    (c ≠ 3 → lmnToRadec n c lmn pc = .error .valueError) := by
  unfold radecToLmn radecToLm lmToRadec lmnToRadec
  refine ⟨fun h => ?_, fun h => by rw [if_pos h]⟩
  rw [if_pos h, if_pos h, if_pos h]
  exact ⟨rfl, rfl, rfl⟩

/-! ### the loops -/

private theorem lmToRadec_ok (sources : Nat) (lm : Nat → ℝ × ℝ) (pc : Option (ℝ × ℝ)) (v : Nat → ℝ × Num)
    (h : ∀ s < sources, ∃ n, npSqrt (1 - (lm s).1 ^ 2 - (lm s).2 ^ 2) = .val n ∧
      radecOf (centre pc) (lm s).1 (lm s).2 n = .ok (v s)) :
    ∃ f, lmToRadec sources 2 lm pc = .ok f ∧ ∀ s < sources, f s = v s := by
  unfold lmToRadec
  rw [if_neg (by decide)]
  refine forRangeM_ok_inv (P := fun k (f : Nat → ℝ × Num) => ∀ s < k, f s = v s) (fun s hs => absurd hs (by omega)) ?_
  intro i f hi hP
  obtain ⟨n, h1, h2⟩ := h i hi
  rw [h1]
  dsimp only
  rw [h2]
  refine ⟨_, rfl, fun s hs => ?_⟩
  by_cases hsi : s = i
  · subst hsi; simp
  · rw [Function.update_of_ne hsi]
    exact hP s (by omega)

private theorem lmnToRadec_ok (sources : Nat) (lmn : Nat → ℝ × ℝ × ℝ) (pc : Option (ℝ × ℝ)) (v : Nat → ℝ × Num)
    (h : ∀ s < sources, radecOf (centre pc) (lmn s).1 (lmn s).2.1 (lmn s).2.2 = .ok (v s)) :
    ∃ f, lmnToRadec sources 3 lmn pc = .ok f ∧ ∀ s < sources, f s = v s := by
  unfold lmnToRadec
  rw [if_neg (by decide)]
  refine forRangeM_ok_inv (P := fun k (f : Nat → ℝ × Num) => ∀ s < k, f s = v s) (fun s hs => absurd hs (by omega)) ?_
  intro i f hi hP
  rw [h i hi]
  refine ⟨_, rfl, fun s hs => ?_⟩
  by_cases hsi : s = i
  · subst hsi; simp
  · rw [Function.update_of_ne hsi]
    exact hP s (by omega)

/-! ### round trips -/

private theorem sin_back (pc : ℝ × ℝ) (ra dec : ℝ) :
    (lmOf pc ra dec).2 * Real.cos pc.2 + cosAngle pc ra dec * Real.sin pc.2 = Real.sin dec := by
  unfold lmOf cosAngle
  dsimp only
  linear_combination (Real.sin dec) * Real.sin_sq_add_cos_sq pc.2

private theorem den_back (pc : ℝ × ℝ) (ra dec : ℝ) :
    cosAngle pc ra dec * Real.cos pc.2 - (lmOf pc ra dec).2 * Real.sin pc.2 = Real.cos dec * Real.cos (ra - pc.1) := by
  unfold lmOf cosAngle
  dsimp only
  linear_combination (Real.cos dec * Real.cos (ra - pc.1)) * Real.sin_sq_add_cos_sq pc.2

private theorem npArcsin_sin {dec : ℝ} (h1 : -(Real.pi / 2) ≤ dec) (h2 : dec ≤ Real.pi / 2) :
    npArcsin (Real.sin dec) = .val dec := by
  unfold npArcsin
  rw [if_neg, Real.arcsin_sin h1 h2]
  rintro (h | h)
  · exact absurd (Real.neg_one_le_sin dec) (not_le.mpr h)
  · exact absurd (Real.sin_le_one dec) (not_le.mpr h)

private theorem radecOf_back (pc : ℝ × ℝ) (ra dec : ℝ) (h1 : -(Real.pi / 2) < dec) (h2 : dec < Real.pi / 2)
    (h3 : -(Real.pi / 2) < ra - pc.1) (h4 : ra - pc.1 < Real.pi / 2) (_h5 : 0 ≤ cosAngle pc ra dec) :
    radecOf pc (lmOf pc ra dec).1 (lmOf pc ra dec).2 (cosAngle pc ra dec) = .ok (ra, .val dec) := by
  unfold radecOf
  dsimp only
  have hc : 0 < Real.cos dec := Real.cos_pos_of_mem_Ioo ⟨h1, h2⟩
  have hr : 0 < Real.cos (ra - pc.1) := Real.cos_pos_of_mem_Ioo ⟨h3, h4⟩
  rw [den_back, sin_back, npArcsin_sin h1.le h2.le, if_neg (by positivity)]
  have : (lmOf pc ra dec).1 / (Real.cos dec * Real.cos (ra - pc.1)) = Real.tan (ra - pc.1) := by
    unfold lmOf
    dsimp only
    rw [Real.tan_eq_sin_div_cos]
    field_simp
  rw [this, Real.arctan_tan h3 h4]
  congr 2
  ring

/-- **C87** (partial: right ascensions less than a quarter turn from the phase centre, see `C87_violated`). For every phase
centre and all directions on the hemisphere around it (excluding the poles, and right ascensions a quarter turn or more
away) `lm_to_radec` undoes `radec_to_lm`, and `lmn_to_radec` undoes `radec_to_lmn`. -/
theorem C87_radec_round_trip_partial (sources : Nat) (radec : Nat → ℝ × ℝ) (pc : Option (ℝ × ℝ))
    (h : ∀ s < sources, -(Real.pi / 2) < (radec s).2 ∧ (radec s).2 < Real.pi / 2 ∧
      -(Real.pi / 2) < (radec s).1 - (pc.getD (0, 0)).1 ∧ (radec s).1 - (pc.getD (0, 0)).1 < Real.pi / 2 ∧
      0 ≤ cosAngle (pc.getD (0, 0)) (radec s).1 (radec s).2) :
    ∃ lm back, radecToLm 2 radec pc = .ok lm ∧ lmToRadec sources 2 lm pc = .ok back ∧
      (∀ s < sources, back s = ((radec s).1, .val (radec s).2)) ∧
    ∃ (lmn : Nat → ℝ × ℝ × Num) (n : Nat → ℝ) (back' : Nat → ℝ × Num), radecToLmn 2 radec pc = .ok lmn ∧ (∀ s, (lmn s).2.2 = .val (n s)) ∧
      lmnToRadec sources 3 (fun s => ((lmn s).1, (lmn s).2.1, n s)) pc = .ok back' ∧
      ∀ s < sources, back' s = ((radec s).1, .val (radec s).2) := by
  have e1 : radecToLm 2 radec pc = .ok fun s => lmOf (centre pc) (radec s).1 (radec s).2 := by
    unfold radecToLm; rw [if_neg (by decide)]
  have e2 : radecToLmn 2 radec pc = .ok fun s => ((lmOf (centre pc) (radec s).1 (radec s).2).1,
      (lmOf (centre pc) (radec s).1 (radec s).2).2, Num.val |cosAngle (centre pc) (radec s).1 (radec s).2|) := by
    unfold radecToLmn
    rw [if_neg (by decide)]
    dsimp only
    simp only [npSqrt_lm]
  have hb : ∀ s < sources, radecOf (centre pc) (lmOf (centre pc) (radec s).1 (radec s).2).1
      (lmOf (centre pc) (radec s).1 (radec s).2).2 |cosAngle (centre pc) (radec s).1 (radec s).2| =
      .ok ((radec s).1, .val (radec s).2) := by
    intro s hs
    obtain ⟨h1, h2, h3, h4, h5⟩ := h s hs
    rw [abs_of_nonneg (show 0 ≤ cosAngle (centre pc) _ _ from h5)]
    exact radecOf_back _ _ _ h1 h2 h3 h4 h5
  obtain ⟨back, b1, b2⟩ := lmToRadec_ok sources (fun s => lmOf (centre pc) (radec s).1 (radec s).2) pc
    (fun s => ((radec s).1, .val (radec s).2)) fun s hs => ⟨_, npSqrt_lm _ _ _, hb s hs⟩
  obtain ⟨back', b1', b2'⟩ := lmnToRadec_ok sources (fun s => ((lmOf (centre pc) (radec s).1 (radec s).2).1,
      (lmOf (centre pc) (radec s).1 (radec s).2).2, |cosAngle (centre pc) (radec s).1 (radec s).2|)) pc
    (fun s => ((radec s).1, .val (radec s).2)) fun s hs => hb s hs
  exact ⟨_, back, e1, b1, b2, _, _, back', e2, fun _ => rfl, b1', b2'⟩

private theorem lm_back (pc : ℝ × ℝ) (l m n : ℝ) (hn : l ^ 2 + m ^ 2 + n ^ 2 = 1)
    (hd : 0 < n * Real.cos pc.2 - m * Real.sin pc.2) :
    ∃ ra dec, radecOf pc l m n = .ok (ra, .val dec) ∧ lmOf pc ra dec = (l, m) := by
  have h2 := Real.sin_sq_add_cos_sq pc.2
  have hs : (m * Real.cos pc.2 + n * Real.sin pc.2) ^ 2 + (l ^ 2 + (n * Real.cos pc.2 - m * Real.sin pc.2) ^ 2) = 1 := by
    linear_combination hn + (m ^ 2 + n ^ 2) * h2
  set a := m * Real.cos pc.2 + n * Real.sin pc.2 with ha
  set b := n * Real.cos pc.2 - m * Real.sin pc.2 with hb
  have hpos : 0 < l ^ 2 + b ^ 2 := by positivity
  have ha1 : a ^ 2 ≤ 1 := by linarith
  have hle : -1 ≤ a ∧ a ≤ 1 := abs_le.mp ((sq_le_one_iff_abs_le_one a).mp ha1)
  refine ⟨pc.1 + Real.arctan (l / b), Real.arcsin a, ?_, ?_⟩
  · unfold radecOf
    dsimp only
    rw [← ha, ← hb, if_neg hd.ne']
    unfold npArcsin
    rw [if_neg (by rintro (h | h) <;> linarith [hle.1, hle.2])]
  · have hsin : Real.sin (Real.arcsin a) = a := Real.sin_arcsin hle.1 hle.2
    have hcos : Real.cos (Real.arcsin a) = Real.sqrt (l ^ 2 + b ^ 2) := by
      rw [Real.cos_arcsin]; congr 1; linarith
    have hq : Real.sqrt (1 + (l / b) ^ 2) = Real.sqrt (l ^ 2 + b ^ 2) / b := by
      rw [show 1 + (l / b) ^ 2 = (l ^ 2 + b ^ 2) / b ^ 2 by field_simp; ring, Real.sqrt_div hpos.le, Real.sqrt_sq hd.le]
    have hq0 : Real.sqrt (l ^ 2 + b ^ 2) ≠ 0 := (Real.sqrt_pos.mpr hpos).ne'
    have hb0 : b ≠ 0 := hd.ne'
    unfold lmOf
    dsimp only
    rw [add_sub_cancel_left, hsin, hcos, Real.sin_arctan, Real.cos_arctan, hq]
    refine Prod.ext ?_ ?_
    · dsimp only; field_simp
    · dsimp only
      have : Real.sqrt (l ^ 2 + b ^ 2) * Real.sin pc.2 * (1 / (Real.sqrt (l ^ 2 + b ^ 2) / b)) = b * Real.sin pc.2 := by
        field_simp
      rw [this, ha, hb]
      linear_combination m * h2

/-- **C87** (partial: directions on the near side of the meridian circle through the pole, see `C87_violated`). For every
phase centre and all `(l, m)` in the unit disc with `n cos dec0 > m sin dec0`, `radec_to_lm` undoes `lm_to_radec`. -/
theorem C87_lm_round_trip_partial (sources : Nat) (lm : Nat → ℝ × ℝ) (pc : Option (ℝ × ℝ))
    (h : ∀ s < sources, (lm s).1 ^ 2 + (lm s).2 ^ 2 ≤ 1 ∧
      (lm s).2 * Real.sin (pc.getD (0, 0)).2 <
        Real.sqrt (1 - (lm s).1 ^ 2 - (lm s).2 ^ 2) * Real.cos (pc.getD (0, 0)).2) :
    ∃ (f : Nat → ℝ × Num) (ra dec : Nat → ℝ) (g : Nat → ℝ × ℝ), lmToRadec sources 2 lm pc = .ok f ∧ (∀ s < sources, f s = (ra s, .val (dec s))) ∧
      radecToLm 2 (fun s => (ra s, dec s)) pc = .ok g ∧ ∀ s < sources, g s = lm s := by
  have hb : ∀ s, ∃ ra dec, s < sources →
      radecOf (centre pc) (lm s).1 (lm s).2 (Real.sqrt (1 - (lm s).1 ^ 2 - (lm s).2 ^ 2)) = .ok (ra, .val dec) ∧
      lmOf (centre pc) ra dec = lm s := by
    intro s
    by_cases hs : s < sources
    · obtain ⟨h1, h2⟩ := h s hs
      obtain ⟨ra, dec, e1, e2⟩ := lm_back (centre pc) (lm s).1 (lm s).2 (Real.sqrt (1 - (lm s).1 ^ 2 - (lm s).2 ^ 2))
        (by rw [Real.sq_sqrt (by linarith)]; ring) (by unfold centre; linarith)
      exact ⟨ra, dec, fun _ => ⟨e1, e2⟩⟩
    · exact ⟨0, 0, fun h => absurd h hs⟩
  choose ra dec hrd using hb
  obtain ⟨f, f1, f2⟩ := lmToRadec_ok sources lm pc (fun s => (ra s, .val (dec s))) fun s hs =>
    ⟨Real.sqrt (1 - (lm s).1 ^ 2 - (lm s).2 ^ 2), by
      unfold npSqrt
      rw [if_neg (by have := (h s hs).1; linarith)], (hrd s hs).1⟩
  refine ⟨f, ra, dec, _, f1, f2, by unfold radecToLm; rw [if_neg (by decide)], fun s hs => ?_⟩
  exact (hrd s hs).2

private theorem trig_third : Real.cos (Real.pi / 3) = 1 / 2 ∧ Real.sin (Real.pi / 3) = Real.sqrt 3 / 2 :=
  ⟨Real.cos_pi_div_three, Real.sin_pi_div_three⟩

/-- **C87** refuted: with the phase centre at declination 60 degrees, the direction at the same declination and opposite
right ascension lies on the hemisphere around the phase centre (60 degrees away), but `lm_to_radec(radec_to_lm(.))` returns
the right ascension of the phase centre; and for the phase centre at the origin the point `(1, 0)` of the unit circle
raises `ZeroDivisionError`. -/
theorem C87_violated :
    (∃ (radec : Nat → ℝ × ℝ) (pc : ℝ × ℝ) (lm : Nat → ℝ × ℝ) (back : Nat → ℝ × Num),
      radecToLm 2 radec (some pc) = .ok lm ∧ lmToRadec 1 2 lm (some pc) = .ok back ∧
      cosAngle pc (radec 0).1 (radec 0).2 = 1 / 2 ∧ (radec 0).2 = Real.pi / 3 ∧ (radec 0).1 = Real.pi ∧
      back 0 = (0, .val (Real.pi / 3))) ∧
    lmToRadec 1 2 (fun _ => (1, 0)) none = .error .zeroDivisionError := by
  constructor
  · let pc : ℝ × ℝ := (0, Real.pi / 3)
    let radec : Nat → ℝ × ℝ := fun _ => (Real.pi, Real.pi / 3)
    obtain ⟨hc, hs⟩ := trig_third
    have h3 : Real.sqrt 3 ^ 2 = 3 := Real.sq_sqrt (by norm_num)
    have ec : cosAngle pc Real.pi (Real.pi / 3) = 1 / 2 := by
      unfold cosAngle
      dsimp only [pc]
      rw [sub_zero, Real.cos_pi, hc, hs]
      nlinarith
    have hback : radecOf pc (lmOf pc Real.pi (Real.pi / 3)).1 (lmOf pc Real.pi (Real.pi / 3)).2
        |cosAngle pc Real.pi (Real.pi / 3)| = .ok (0, .val (Real.pi / 3)) := by
      rw [ec, abs_of_pos (by norm_num : (0 : ℝ) < 1 / 2), ← ec]
      unfold radecOf
      dsimp only
      rw [sin_back, den_back, npArcsin_sin (by linarith [Real.pi_pos]) (by linarith [Real.pi_pos])]
      have e : Real.cos (Real.pi / 3) * Real.cos (Real.pi - pc.1) ≠ 0 := by
        dsimp only [pc]
        rw [sub_zero, hc, Real.cos_pi]
        norm_num
      rw [if_neg e]
      have e' : (lmOf pc Real.pi (Real.pi / 3)).1 = 0 := by
        unfold lmOf
        dsimp only [pc]
        rw [sub_zero, Real.sin_pi, mul_zero]
      rw [e', zero_div, Real.arctan_zero]
      simp [pc]
    obtain ⟨back, b1, b2⟩ := lmToRadec_ok 1 (fun s => lmOf (centre (some pc)) (radec s).1 (radec s).2) (some pc)
      (fun _ => (0, .val (Real.pi / 3))) fun s _ => ⟨_, npSqrt_lm _ _ _, hback⟩
    refine ⟨radec, pc, _, back, by unfold radecToLm; rw [if_neg (by decide)], b1, ec, rfl, rfl, b2 0 (by omega)⟩
  · unfold lmToRadec
    rw [if_neg (by decide), forRangeM_succ, forRangeM_zero]
    have e : npSqrt (1 - (1 : ℝ) ^ 2 - (0 : ℝ) ^ 2) = .val 0 := by
      unfold npSqrt
      norm_num
    have e' : radecOf (centre none) 1 0 0 = .error .zeroDivisionError := by
      unfold radecOf
      dsimp only
      rw [if_pos (by simp)]
    show (match npSqrt (1 - (1 : ℝ) ^ 2 - (0 : ℝ) ^ 2) with
      | .nan => Except.ok (Function.update (fun _ => ((0 : ℝ), Num.nan)) 0 (0, .nan))
      | .val n => match radecOf (centre none) 1 0 n with
        | .error e => Except.error e
        | .ok v => Except.ok (Function.update (fun _ => ((0 : ℝ), Num.nan)) 0 v)) = _
    rw [e]
    dsimp only
    rw [e']

/-- Non-vacuity of the round trips: phase centre at the origin, a source at right ascension and declination 1/2; and the
point `(1/2, 1/2)`. -/
example : 0 ≤ cosAngle (0, 0) (1 / 2) (1 / 2) ∧
    (1 / 2 : ℝ) * Real.sin 0 < Real.sqrt (1 - (1 / 2) ^ 2 - (1 / 2) ^ 2) * Real.cos 0 := by
  constructor
  · unfold cosAngle
    have : 0 < Real.cos (1 / 2) := Real.cos_pos_of_mem_Ioo ⟨by linarith [Real.two_le_pi], by linarith [Real.two_le_pi]⟩
    simp only [Real.sin_zero, Real.cos_zero, sub_zero, mul_zero, zero_add, mul_one]
    positivity
  · rw [Real.sin_zero, Real.cos_zero, mul_zero, mul_one]
    exact Real.sqrt_pos.mpr (by norm_num)

end Verif.Coordinates
