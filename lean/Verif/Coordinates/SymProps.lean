/-
C145: direction cosines under changes of the coordinate system.
-/
import Verif.Coordinates.Props
import Verif.Loops

set_option autoImplicit false

namespace Verif.Coordinates

/-! ## Specification -/

/-- Cosine of the angle between two directions on the sphere. -/
noncomputable def cosSeparation (a b : ℝ × ℝ) : ℝ :=
  Real.sin a.2 * Real.sin b.2 + Real.cos a.2 * Real.cos b.2 * Real.cos (a.1 - b.1)

/-- The result of `radec_to_lmn` for one source. -/
def IsLmn (pc : ℝ × ℝ) (radec : ℝ × ℝ) (l m n : ℝ) : Prop :=
  ∃ f, radecToLmn 2 (fun _ => radec) (some pc) = .ok f ∧ f 0 = (l, m, .val n)

theorem isLmn_iff (pc radec : ℝ × ℝ) (l m n : ℝ) : IsLmn pc radec l m n ↔
    (l, m) = lmOf pc radec.1 radec.2 ∧ n = |cosAngle pc radec.1 radec.2| := by
  obtain ⟨f, h1, h2⟩ := C87_unit_partial (fun _ => radec) (some pc)
  obtain ⟨k, h3, _, h5⟩ := h2 0
  have hf : ((f 0).1, (f 0).2.1) = lmOf pc radec.1 radec.2 := by
    unfold radecToLmn at h1
    rw [if_neg (by decide)] at h1
    cases h1
    rfl
  simp only [Option.getD_some] at h5
  constructor
  · rintro ⟨g, g1, g2⟩
    rw [h1] at g1
    cases g1
    rw [g2] at hf h3
    simp only [Num.val.injEq] at h3
    exact ⟨hf, by rw [h3, h5]⟩
  · rintro ⟨e1, e2⟩
    refine ⟨f, h1, ?_⟩
    rw [← e1] at hf
    simp only [Prod.mk.injEq] at hf
    refine Prod.ext hf.1 (Prod.ext hf.2 ?_)
    rw [h3, h5, e2]

/-! ## C145 -/

/-- C145. Angles are kept: for two directions on the hemisphere around the phase centre the scalar product of their direction
cosines is the cosine of the angle between them, whatever the phase centre. -/
theorem C145_angles (pc a b : ℝ × ℝ) (la ma na lb mb nb : ℝ) (ha : IsLmn pc a la ma na) (hb : IsLmn pc b lb mb nb)
    (na0 : 0 ≤ cosSeparation a pc) (nb0 : 0 ≤ cosSeparation b pc) : la * lb + ma * mb + na * nb = cosSeparation a b := by
  rw [isLmn_iff] at ha hb
  have ea : cosAngle pc a.1 a.2 = cosSeparation a pc := rfl
  have eb : cosAngle pc b.1 b.2 = cosSeparation b pc := rfl
  rw [ea, abs_of_nonneg na0] at ha
  rw [eb, abs_of_nonneg nb0] at hb
  obtain ⟨ha1, ha2⟩ := ha
  obtain ⟨hb1, hb2⟩ := hb
  simp only [lmOf, Prod.mk.injEq] at ha1 hb1
  rw [ha1.1, ha1.2, hb1.1, hb1.2, ha2, hb2, cosSeparation, cosSeparation, cosSeparation,
    show a.1 - b.1 = (a.1 - pc.1) - (b.1 - pc.1) by ring, Real.cos_sub (a.1 - pc.1) (b.1 - pc.1)]
  have h := Real.sin_sq_add_cos_sq pc.2
  linear_combination (Real.sin a.2 * Real.sin b.2 +
    Real.cos a.2 * Real.cos b.2 * Real.cos (a.1 - pc.1) * Real.cos (b.1 - pc.1)) * h

/-- C145 is violated beyond that hemisphere, which is folded onto it: the direction opposite to the phase centre and the phase
centre itself, half a turn apart, have the same direction cosines. -/
theorem C145_angles_violated : ∃ (pc a : ℝ × ℝ), IsLmn pc pc 0 0 1 ∧ IsLmn pc a 0 0 1 ∧ cosSeparation a pc = -1 := by
  refine ⟨(0, 0), (Real.pi, 0), ?_, ?_, ?_⟩
  · rw [isLmn_iff]; simp [lmOf, cosAngle]
  · rw [isLmn_iff]; simp [lmOf, cosAngle]
  · simp [cosSeparation]

/-- C145. Only differences of right ascension matter, in both directions. -/
theorem C145_right_ascension (radec : Nat → ℝ × ℝ) (lm : Nat → ℝ × ℝ) (lmn : Nat → ℝ × ℝ × ℝ) (ra0 dec0 d : ℝ)
    (n c : Nat) :
    radecToLmn c (fun s => ((radec s).1 + d, (radec s).2)) (some (ra0 + d, dec0)) = radecToLmn c radec (some (ra0, dec0)) ∧
    radecToLm c (fun s => ((radec s).1 + d, (radec s).2)) (some (ra0 + d, dec0)) = radecToLm c radec (some (ra0, dec0)) ∧
    (∀ f, lmnToRadec n c lmn (some (ra0, dec0)) = .ok f → ∃ g, lmnToRadec n c lmn (some (ra0 + d, dec0)) = .ok g ∧
      ∀ s < n, g s = ((f s).1 + d, (f s).2)) ∧
    (∀ f, lmToRadec n c lm (some (ra0, dec0)) = .ok f → (∀ s < n, (lm s).1 ^ 2 + (lm s).2 ^ 2 ≤ 1) →
      ∃ g, lmToRadec n c lm (some (ra0 + d, dec0)) = .ok g ∧ ∀ s < n, g s = ((f s).1 + d, (f s).2)) := by
  have hlm : ∀ ra dec, lmOf (ra0 + d, dec0) (ra + d) dec = lmOf (ra0, dec0) ra dec := by
    intro ra dec; simp only [lmOf, add_sub_add_right_eq_sub]
  have hrd : ∀ l m k, radecOf (ra0 + d, dec0) l m k = (radecOf (ra0, dec0) l m k).map fun v => (v.1 + d, v.2) := by
    intro l m k
    unfold radecOf
    simp only
    split
    · rfl
    · simp only [Except.map]; congr 2; ring
  refine ⟨?_, ?_, ?_, ?_⟩
  · unfold radecToLmn; simp only [centre, Option.getD_some, hlm]
  · unfold radecToLm; simp only [centre, Option.getD_some, hlm]
  · intro f hf
    unfold lmnToRadec at hf ⊢
    split at hf
    · cases hf
    · rename_i hc
      rw [if_neg hc]
      have key : ∀ k ≤ n, ∀ f : Nat → ℝ × Num, (forRangeM k (fun _ : Nat => ((0 : ℝ), Num.nan)) fun s out =>
          match radecOf (centre (some (ra0, dec0))) (lmn s).1 (lmn s).2.1 (lmn s).2.2 with
          | .error e => .error e
          | .ok v => .ok (Function.update out s v)) = Except.ok (ε := PyErr) f →
          ∃ g, (forRangeM k (fun _ : Nat => ((0 : ℝ), Num.nan)) fun s out =>
          match radecOf (centre (some (ra0 + d, dec0))) (lmn s).1 (lmn s).2.1 (lmn s).2.2 with
          | .error e => .error e
          | .ok v => .ok (Function.update out s v)) = Except.ok (ε := PyErr) g ∧ ∀ s < k, g s = ((f s).1 + d, (f s).2) := by
        intro k
        induction k with
        | zero => intro _ f _; exact ⟨_, rfl, fun s hs => absurd hs (by omega)⟩
        | succ k ih =>
          intro hk f hf
          rw [forRangeM_succ] at hf ⊢
          cases hp : (forRangeM k (fun _ : Nat => ((0 : ℝ), Num.nan)) fun s out =>
            match radecOf (centre (some (ra0, dec0))) (lmn s).1 (lmn s).2.1 (lmn s).2.2 with
            | .error e => .error e
            | .ok v => .ok (Function.update out s v)) with
          | error e => rw [hp] at hf; simp [bind, Except.bind] at hf
          | ok f' =>
            obtain ⟨g', hg', hv⟩ := ih (by omega) f' hp
            rw [hp] at hf
            rw [hg']
            simp only [bind, Except.bind, centre, Option.getD_some, hrd] at hf ⊢
            cases hr : radecOf (ra0, dec0) (lmn k).1 (lmn k).2.1 (lmn k).2.2 with
            | error e => rw [hr] at hf; cases hf
            | ok v =>
              rw [hr] at hf
              simp only [Except.ok.injEq] at hf
              refine ⟨_, rfl, fun s hs => ?_⟩
              rw [← hf]
              by_cases hsk : s = k
              · subst hsk; simp
              · simp only [Function.update_of_ne hsk]; exact hv s (by omega)
      exact key n le_rfl f hf
  · intro f hf hin
    unfold lmToRadec at hf ⊢
    split at hf
    · cases hf
    · rename_i hc
      rw [if_neg hc]
      have key : ∀ k ≤ n, ∀ f : Nat → ℝ × Num, (forRangeM k (fun _ : Nat => ((0 : ℝ), Num.nan)) fun s out =>
          match npSqrt (1 - (lm s).1 ^ 2 - (lm s).2 ^ 2) with
          | .nan => .ok (Function.update out s (0, .nan))
          | .val n =>
            match radecOf (centre (some (ra0, dec0))) (lm s).1 (lm s).2 n with
            | .error e => .error e
            | .ok v => .ok (Function.update out s v)) = Except.ok (ε := PyErr) f →
          ∃ g, (forRangeM k (fun _ : Nat => ((0 : ℝ), Num.nan)) fun s out =>
          match npSqrt (1 - (lm s).1 ^ 2 - (lm s).2 ^ 2) with
          | .nan => .ok (Function.update out s (0, .nan))
          | .val n =>
            match radecOf (centre (some (ra0 + d, dec0))) (lm s).1 (lm s).2 n with
            | .error e => .error e
            | .ok v => .ok (Function.update out s v)) = Except.ok (ε := PyErr) g ∧ ∀ s < k, g s = ((f s).1 + d, (f s).2) := by
        intro k
        induction k with
        | zero => intro _ f _; exact ⟨_, rfl, fun s hs => absurd hs (by omega)⟩
        | succ k ih =>
          intro hk f hf
          rw [forRangeM_succ] at hf ⊢
          cases hp : (forRangeM k (fun _ : Nat => ((0 : ℝ), Num.nan)) fun s out =>
            match npSqrt (1 - (lm s).1 ^ 2 - (lm s).2 ^ 2) with
            | .nan => .ok (Function.update out s (0, .nan))
            | .val n =>
              match radecOf (centre (some (ra0, dec0))) (lm s).1 (lm s).2 n with
              | .error e => .error e
              | .ok v => .ok (Function.update out s v)) with
          | error e => rw [hp] at hf; simp [bind, Except.bind] at hf
          | ok f' =>
            obtain ⟨g', hg', hv⟩ := ih (by omega) f' hp
            rw [hp] at hf
            rw [hg']
            have hsq : npSqrt (1 - (lm k).1 ^ 2 - (lm k).2 ^ 2) = .val (Real.sqrt (1 - (lm k).1 ^ 2 - (lm k).2 ^ 2)) := by
              unfold npSqrt
              rw [if_neg (by have := hin k (by omega); linarith)]
            simp only [bind, Except.bind, hsq, centre, Option.getD_some, hrd] at hf ⊢
            cases hr : radecOf (ra0, dec0) (lm k).1 (lm k).2 (Real.sqrt (1 - (lm k).1 ^ 2 - (lm k).2 ^ 2)) with
            | error e => rw [hr] at hf; cases hf
            | ok v =>
              rw [hr] at hf
              simp only [Except.ok.injEq] at hf
              refine ⟨_, rfl, fun s hs => ?_⟩
              rw [← hf]
              by_cases hsk : s = k
              · subst hsk; simp
              · simp only [Function.update_of_ne hsk]; exact hv s (by omega)
      exact key n le_rfl f hf

/-- C145. Reflections: mirrored right ascensions mirror `l`, mirrored declinations (of source and phase centre) mirror `m`, and
full turns change nothing. -/
theorem C145_reflections (pc radec : ℝ × ℝ) (l m n : ℝ) (h : IsLmn pc radec l m n) (k : Int) :
    IsLmn pc (2 * pc.1 - radec.1, radec.2) (-l) m n ∧
    IsLmn (pc.1, -pc.2) (radec.1, -radec.2) l (-m) n ∧
    IsLmn pc (radec.1 + k * (2 * Real.pi), radec.2) l m n := by
  rw [isLmn_iff] at h
  obtain ⟨h1, h2⟩ := h
  simp only [lmOf, Prod.mk.injEq] at h1
  refine ⟨?_, ?_, ?_⟩
  · rw [isLmn_iff]
    have e : 2 * pc.1 - radec.1 - pc.1 = -(radec.1 - pc.1) := by ring
    simp only [lmOf, cosAngle, e, Real.sin_neg, Real.cos_neg, Prod.mk.injEq]
    refine ⟨⟨by rw [h1.1]; ring, h1.2⟩, ?_⟩
    rw [h2]; rfl
  · rw [isLmn_iff]
    simp only [lmOf, cosAngle, Real.sin_neg, Real.cos_neg, Prod.mk.injEq]
    refine ⟨⟨h1.1, by rw [h1.2]; ring⟩, ?_⟩
    rw [h2, cosAngle]
    congr 1
    ring
  · rw [isLmn_iff]
    have e : radec.1 + k * (2 * Real.pi) - pc.1 = radec.1 - pc.1 + k * (2 * Real.pi) := by ring
    simp only [lmOf, cosAngle, e, Real.sin_add_int_mul_two_pi, Real.cos_add_int_mul_two_pi, Prod.mk.injEq]
    refine ⟨⟨h1.1, h1.2⟩, ?_⟩
    rw [h2]; rfl

/-- The pole is on the hemisphere around a phase centre at the equator's north: the hypotheses of `C145_angles` can be met. -/
example : ∃ (l m n : ℝ), IsLmn (0, 0) (0, Real.pi / 2) l m n ∧ 0 ≤ cosSeparation (0, Real.pi / 2) (0, 0) ∧ m = 1 := by
  refine ⟨0, 1, 0, ?_, ?_, rfl⟩
  · rw [isLmn_iff]; simp [lmOf, cosAngle]
  · simp [cosSeparation]

end Verif.Coordinates
