/-
Property C139: what phase-only calibration cannot see.
-/
import Verif.Calibration.SymLemmas

set_option autoImplicit false

noncomputable section

namespace Verif.Calibration

open Complex

section
variable {e : Ext5} {idx cnt ant1 ant2 : Nat → Nat} {jones : Arr5 ℂ} {vis : Nat → Nat → Nat → ℂ}
  {flagged : Nat → Nat → Bool} {model : Nat → Nat → Nat → Nat → ℂ} {weight : Nat → Nat → Nat → ℝ}
  {tol : ℝ} {maxiter : Nat}

/-- A run of `gauss_newton` with its arguments in the order of the code (phase_only.py:156-196). -/
local notation "run" => gaussNewton 5 3 e idx cnt

/-- C139. A phase common to all antennas cannot be seen: if the initial gains (none of them zero) are
multiplied by phases `u` that depend on time, channel, direction and correlation but not on the antenna,
then the call ends in the same way after the same number of iterations with the same `jhj` and `jhr`, and
the returned gains are multiplied by `u`. -/
theorem C139_gauge (u : Nat → Nat → Nat → Nat → ℂ) (hu : ∀ t nu s c, ‖u t nu s c‖ = 1)
    (hj0 : ∀ t p nu s c, jones t p nu s c ≠ 0) :
    run ant1 ant2 (fun t p nu s c => u t nu s c * jones t p nu s c) vis flagged model weight tol maxiter =
      (run ant1 ant2 jones vis flagged model weight tol maxiter).map
        fun r => (fun t p nu s c => u t nu s c * r.1 t p nu s c, r.2) := by
  have hc : ∀ t nu s c, u t nu s c * (starRingEnd ℂ) (u t nu s c) = 1 := by
    intro t nu s c
    rw [mul_conj, normSq_eq_norm_sq, hu]
    norm_num
  have hp : ∀ j j' : Arr5 ℂ, (∀ t p nu s c, j' t p nu s c = u t nu s c * j t p nu s c) → ∀ t p q nu s c (m : ℂ),
      j' t p nu s c * m * (starRingEnd ℂ) (j' t q nu s c) = j t p nu s c * m * (starRingEnd ℂ) (j t q nu s c) := by
    intro j j' h t p q nu s c m
    rw [h, h, map_mul]
    calc _ = (u t nu s c * (starRingEnd ℂ) (u t nu s c)) *
          (j t p nu s c * m * (starRingEnd ℂ) (j t q nu s c)) := by ring
      _ = _ := by rw [hc, one_mul]
  rcases gaussNewton_sym (e := e) (idx := idx) (cnt := cnt) (flagged := flagged) (tol := tol) (maxiter := maxiter)
    (ant1 := ant1) (ant2 := ant2) (ant1' := ant1) (ant2' := ant2) (vis := vis) (vis' := vis) (model := model)
    (model' := model) (weight := weight) (weight' := weight) (jones := jones)
    (jones' := fun t p nu s c => u t nu s c * jones t p nu s c)
    (AddMonoidHom.id ℂ) (AddMonoidHom.id ℂ) (Equiv.refl _) (fun _ => Iff.rfl) u hu (fun _ z => z) (fun _ => rfl) 1
    one_ne_zero (fun z z' h => by rw [one_mul]; exact congrArg re h) (.inr hj0) (fun _ _ _ _ _ => rfl)
    (by
      intro j j' h t r nu c
      rw [subtractDD_eq, subtractDD_eq]
      congr 1
      exact Finset.sum_congr rfl fun s _ => hp j j' h _ _ _ _ _ _ _)
    (by
      intro j j' h res t' a nu' s' c t row nu s
      unfold gJhr pred
      simp only [Equiv.refl_apply]
      rw [hp j j' h]
      rfl)
    (by
      intro t' a nu' s' c t row nu s
      unfold gJhj pred
      simp only [Equiv.refl_apply, one_mul]
      rw [hp jones _ (fun _ _ _ _ _ => rfl)]
      rfl) with ⟨err, h1, h2⟩ | ⟨g, g', jhj, jhj', r, r', k, h1, h2, h3, h4, h5⟩
  · rw [h1, h2]; rfl
  · rw [h1, h2]
    have e1 : g' = fun t p nu s c => u t nu s c * g t p nu s c := by
      funext t p nu s c; exact h3 t p nu s c
    have e2 : jhj' = jhj := by
      funext t p nu s c; exact (h4 t p nu s c).trans (one_mul _)
    have e3 : r' = r := by
      funext t p nu s c; exact h5 t p nu s c
    rw [e1, e2, e3]
    rfl

/-- C139. Only the ratios of the weights matter: multiplying all weights by `κ > 0` multiplies `jhj` and
`jhr` by `κ` and changes neither the gains nor the number of iterations. -/
theorem C139_weights (κ : ℝ) (hκ : 0 < κ) :
    run ant1 ant2 jones vis flagged model (fun r nu c => κ * weight r nu c) tol maxiter =
      (run ant1 ant2 jones vis flagged model weight tol maxiter).map
        fun r => (r.1, fun t p nu s c => κ * r.2.1 t p nu s c, fun t p nu s c => (κ : ℂ) * r.2.2.1 t p nu s c, r.2.2.2) := by
  have hsq : ∀ w, (Real.sqrt (κ * w) : ℂ) = (Real.sqrt κ : ℂ) * (Real.sqrt w : ℂ) := by
    intro w
    rw [Real.sqrt_mul hκ.le, ofReal_mul]
  have hκ2 : (Real.sqrt κ : ℂ) * (Real.sqrt κ : ℂ) = κ := by
    rw [← ofReal_mul, Real.mul_self_sqrt hκ.le]
  rcases gaussNewton_sym (e := e) (idx := idx) (cnt := cnt) (flagged := flagged) (tol := tol) (maxiter := maxiter)
    (ant1 := ant1) (ant2 := ant2) (ant1' := ant1) (ant2' := ant2) (vis := vis) (vis' := vis) (model := model)
    (model' := model) (weight := weight) (weight' := fun r nu c => κ * weight r nu c) (jones := jones)
    (jones' := jones)
    (AddMonoidHom.mulLeft (κ : ℂ)) (AddMonoidHom.id ℂ) (Equiv.refl _) (fun _ => Iff.rfl) (fun _ _ _ _ => 1)
    (fun _ _ _ _ => norm_one) (fun _ z => Real.sqrt κ * z) (fun _ => mul_zero _) κ
    hκ.ne' (fun z z' h => by
      have h' : z' = κ * z := h
      rw [h', re_ofReal_mul]) (.inl fun _ _ _ _ => rfl) (fun _ _ _ _ _ => (one_mul _).symm)
    (by
      intro j j' h t r nu c
      have hjj : j' = j := by funext t p nu s c; exact (h t p nu s c).trans (one_mul _)
      rw [subtractDD_eq, subtractDD_eq, hjj, mul_sub, Finset.mul_sum, hsq]
      congr 1
      · ring
      · exact Finset.sum_congr rfl fun s _ => by ring)
    (by
      intro j j' h res t' a nu' s' c t row nu s
      have hjj : j' = j := by funext t p nu s c; exact (h t p nu s c).trans (one_mul _)
      subst hjj
      change AddMonoidHom.id ℂ (gJhr _ _ _ _ _ t' a nu' s' c t row nu s) = _
      unfold gJhr pred
      simp only [AddMonoidHom.id_apply, AddMonoidHom.coe_mulLeft]
      rw [mul_ite, mul_zero]
      split
      · rw [hsq, ← hκ2]
        simp only [map_mul, conj_ofReal]
        ring
      · rfl)
    (by
      intro t' a nu' s' c t row nu s
      change gJhj _ _ _ _ t' a nu' s' c t row nu s = _
      unfold gJhj pred
      dsimp only
      rw [mul_ite, mul_zero]
      split
      · rw [hsq]
        simp only [normSq_mul, normSq_ofReal, Real.mul_self_sqrt hκ.le]
        ring
      · rfl) with ⟨err, h1, h2⟩ | ⟨g, g', jhj, jhj', r, r', k, h1, h2, h3, h4, h5⟩
  · rw [h1, h2]; rfl
  · rw [h1, h2]
    have e1 : g' = g := by funext t p nu s c; exact (h3 t p nu s c).trans (one_mul _)
    have e2 : jhj' = fun t p nu s c => κ * jhj t p nu s c := by funext t p nu s c; exact h4 t p nu s c
    have e3 : r' = fun t p nu s c => (κ : ℂ) * r t p nu s c := by funext t p nu s c; exact h5 t p nu s c
    rw [e1, e2, e3]
    rfl

/-- C139. The numbering of the antennas does not matter: with the antennas of all rows renamed by a
permutation `π` of the antennas and the initial gains stored in the new order, all results are those of the
original call in the new order. -/
theorem C139_antennas (π : Equiv.Perm Nat) (hπ : ∀ p, π p < e.nant ↔ p < e.nant) :
    run (fun r => π (ant1 r)) (fun r => π (ant2 r)) (fun t p nu s c => jones t (π.symm p) nu s c) vis flagged
        model weight tol maxiter =
      (run ant1 ant2 jones vis flagged model weight tol maxiter).map
        fun r => (fun t p nu s c => r.1 t (π.symm p) nu s c, fun t p nu s c => r.2.1 t (π.symm p) nu s c,
          fun t p nu s c => r.2.2.1 t (π.symm p) nu s c, r.2.2.2) := by
  rcases gaussNewton_sym (e := e) (idx := idx) (cnt := cnt) (flagged := flagged) (tol := tol) (maxiter := maxiter)
    (ant1 := ant1) (ant2 := ant2) (ant1' := fun r => π (ant1 r)) (ant2' := fun r => π (ant2 r)) (vis := vis)
    (vis' := vis) (model := model)
    (model' := model) (weight := weight) (weight' := weight) (jones := jones)
    (jones' := fun t p nu s c => jones t (π.symm p) nu s c)
    (AddMonoidHom.id ℂ) (AddMonoidHom.id ℂ) π hπ (fun _ _ _ _ => 1) (fun _ _ _ _ => norm_one) (fun _ z => z)
    (fun _ => rfl) 1 one_ne_zero (fun z z' h => by rw [one_mul]; exact congrArg re h) (.inl fun _ _ _ _ => rfl)
    (fun _ _ _ _ _ => by rw [Equiv.symm_apply_apply, one_mul])
    (by
      intro j j' h t r nu c
      rw [subtractDD_eq, subtractDD_eq]
      simp only [h, one_mul])
    (by
      intro j j' h res t' a nu' s' c t row nu s
      unfold gJhr pred
      simp only [h, one_mul, EmbeddingLike.apply_eq_iff_eq])
    (by
      intro t' a nu' s' c t row nu s
      unfold gJhj pred
      simp only [one_mul, EmbeddingLike.apply_eq_iff_eq, Equiv.symm_apply_apply])
    with ⟨err, h1, h2⟩ | ⟨g, g', jhj, jhj', r, r', k, h1, h2, h3, h4, h5⟩
  · rw [h1, h2]; rfl
  · rw [h1, h2]
    have e1 : g' = fun t p nu s c => g t (π.symm p) nu s c := by
      funext t p nu s c
      have := h3 t (π.symm p) nu s c
      rwa [Equiv.apply_symm_apply, one_mul] at this
    have e2 : jhj' = fun t p nu s c => jhj t (π.symm p) nu s c := by
      funext t p nu s c
      have := h4 t (π.symm p) nu s c
      rwa [Equiv.apply_symm_apply, one_mul] at this
    have e3 : r' = fun t p nu s c => r t (π.symm p) nu s c := by
      funext t p nu s c
      have := h5 t (π.symm p) nu s c
      rwa [Equiv.apply_symm_apply] at this
    rw [e1, e2, e3]
    rfl

/-- The first of two things, or the second where `b` is set. -/
def swapIf {M : Type*} (b : Bool) (x y : M) : M := if b then y else x

/-- The conjugate where `b` is set. -/
def conjIf (b : Bool) (z : ℂ) : ℂ := if b then (starRingEnd ℂ) z else z

/-- C139. The direction of a baseline does not matter: recording any of the rows with its antennas
swapped, and the data and the model conjugated, changes neither the gains, nor the number of iterations, nor
`jhj`, nor the real part of `jhr` (which is all the iteration uses). -/
theorem C139_baselines (sw : Nat → Bool) :
    (run (fun r => swapIf (sw r) (ant1 r) (ant2 r)) (fun r => swapIf (sw r) (ant2 r) (ant1 r)) jones
        (fun r nu c => conjIf (sw r) (vis r nu c)) flagged (fun r nu s c => conjIf (sw r) (model r nu s c)) weight
        tol maxiter).map (fun r => (r.1, r.2.1, fun t p nu s c => (r.2.2.1 t p nu s c).re, r.2.2.2)) =
      (run ant1 ant2 jones vis flagged model weight tol maxiter).map
        fun r => (r.1, r.2.1, fun t p nu s c => (r.2.2.1 t p nu s c).re, r.2.2.2) := by
  rcases gaussNewton_sym (e := e) (idx := idx) (cnt := cnt) (flagged := flagged) (tol := tol) (maxiter := maxiter)
    (ant1 := ant1) (ant2 := ant2) (ant1' := fun r => swapIf (sw r) (ant1 r) (ant2 r))
    (ant2' := fun r => swapIf (sw r) (ant2 r) (ant1 r)) (vis := vis)
    (vis' := fun r nu c => conjIf (sw r) (vis r nu c)) (model := model)
    (model' := fun r nu s c => conjIf (sw r) (model r nu s c)) (weight := weight) (weight' := weight)
    (jones := jones) (jones' := jones)
    reAddGroupHom reAddGroupHom (Equiv.refl _) (fun _ => Iff.rfl) (fun _ _ _ _ => 1) (fun _ _ _ _ => norm_one)
    (fun r z => conjIf (sw r) z)
    (fun r => by unfold conjIf; split <;> simp) 1 one_ne_zero (fun z z' h => by rw [one_mul]; exact h)
    (.inl fun _ _ _ _ => rfl) (fun _ _ _ _ _ => (one_mul _).symm)
    (by
      intro j j' h t r nu c
      have hjj : j' = j := by funext t p nu s c; exact (h t p nu s c).trans (one_mul _)
      subst hjj
      rw [subtractDD_eq, subtractDD_eq]
      cases hb : sw r
      · simp only [swapIf, conjIf, Bool.false_eq_true, if_false]
      · simp only [swapIf, conjIf, if_true, map_sub, map_sum, map_mul, conj_ofReal]
        congr 1
        refine Finset.sum_congr rfl fun s _ => ?_
        simp only [← starRingEnd_apply, conj_conj]
        ring)
    (by
      intro j j' h res t' a nu' s' c t row nu s
      have hjj : j' = j := by funext t p nu s c; exact (h t p nu s c).trans (one_mul _)
      subst hjj
      change reAddGroupHom (gJhr _ _ _ _ _ t' a nu' s' c t row nu s) = _
      unfold gJhr pred
      cases hb : sw row
      · simp only [swapIf, conjIf, hb, Bool.false_eq_true, if_false]
      · simp only [swapIf, conjIf, hb, if_true]
        split
        · have hgen : ∀ (A B g m w k r : ℂ), (starRingEnd ℂ) A = -A → (starRingEnd ℂ) B = -B →
              (starRingEnd ℂ) w = w →
              ((starRingEnd ℂ) ((B - A) * (k * ((starRingEnd ℂ) m * w) * (starRingEnd ℂ) g)) * (starRingEnd ℂ) r).re =
              ((starRingEnd ℂ) ((A - B) * (g * (m * w) * (starRingEnd ℂ) k)) * r).re := by
            intro A B g m w k r hA hB hw
            refine (conj_re _).symm.trans (congrArg re ?_)
            simp only [map_mul, map_sub, map_neg, conj_conj, hA, hB, hw, neg_neg]
            ring
          exact hgen _ _ _ _ _ _ _ (by split <;> simp) (by split <;> simp) (conj_ofReal _)
        · rfl)
    (by
      intro t' a nu' s' c t row nu s
      change gJhj _ _ _ _ t' a nu' s' c t row nu s = _
      unfold gJhj pred
      cases hb : sw row
      · simp only [swapIf, conjIf, hb, Bool.false_eq_true, if_false, one_mul]
      · simp only [swapIf, conjIf, hb, if_true, one_mul, normSq_mul, normSq_conj]
        split
        · ring
        · rfl)
    with ⟨err, h1, h2⟩ | ⟨g, g', jhj, jhj', r, r', k, h1, h2, h3, h4, h5⟩
  · rw [h1, h2]
  · rw [h1, h2]
    have e1 : g' = g := by funext t p nu s c; exact (h3 t p nu s c).trans (one_mul _)
    have e2 : jhj' = jhj := by funext t p nu s c; exact (h4 t p nu s c).trans (one_mul _)
    have e3 : (fun t p nu s c => (r' t p nu s c).re) = fun t p nu s c => (r t p nu s c).re := by
      funext t p nu s c; exact h5 t p nu s c
    simp only [Except.map, e1, e2, e3]

/-- C139. The iteration does not move the common phase: the entries of `jhr` of all antennas add up to
zero, at every time, channel, direction and correlation. (The change of the phase of antenna `p` is
`Re(jhr) / (2 jhj)`: weighted with `jhj`, the changes add up to zero.) -/
theorem C139_reference (hant : ∀ r, ant1 r < e.nant ∧ ant2 r < e.nant) (g : Arr5 ℂ) (jhj : Arr5 ℝ) (jhr : Arr5 ℂ)
    (k : Nat) (h : run ant1 ant2 jones vis flagged model weight tol maxiter = .ok (g, jhj, jhr, k))
    (t nu s c : Nat) : ∑ p ∈ Finset.range e.nant, jhr t p nu s c = 0 := by
  let Z : Arr5 ℂ → Prop := fun r => ∑ p ∈ Finset.range e.nant, r t p nu s c = 0
  have hstep : ∀ vis' model' jhj j g r eps, gnStep e idx cnt ant1 ant2 vis' flagged model' jhj j = .ok (g, r, eps) →
      Z r := by
    intro vis' model' jhj j g r eps hs
    unfold gnStep at hs
    simp only at hs
    split at hs
    · cases hs
    · cases hs
    · split at hs
      · cases hs
      · rename_i res _ _ jhr' hj
        split at hs
        · cases hs
        · cases hs
          unfold computeJhr at hj
          split at hj
          · cases hj
          · cases hj
            show ∑ p ∈ Finset.range e.nant, _ = (0 : ℂ)
            rw [nest_sum (fun r : Arr5 ℂ => ∑ p ∈ Finset.range e.nant, r t p nu s c) (fun _ _ _ _ => 0)]
            · simp
            · intro t1 _ row nu1 _ s1 _ st
              simp only [bodyJhr_apply, Finset.sum_add_distrib]
              congr 1
              unfold gJhr
              split
              · simp only [map_mul, map_sub]
                rw [← Finset.sum_mul, ← Finset.sum_mul, Finset.sum_sub_distrib]
                have : ∀ q < e.nant, ∑ p ∈ Finset.range e.nant, (starRingEnd ℂ) (if q = p then I else 0) = -I := by
                  intro q hq
                  rw [Finset.sum_eq_single_of_mem q (Finset.mem_range.2 hq)]
                  · simp
                  · intro p _ hne; simp [Ne.symm hne]
                rw [this _ (hant row).1, this _ (hant row).2, sub_self, zero_mul, zero_mul]
              · simp
  have hwhile : ∀ vis' model' jhj fuel eps k j r0 g r k', (∀ x, r0 = some x → Z x) →
      gnWhile (gnStep e idx cnt ant1 ant2 vis' flagged model' jhj) tol fuel eps k j r0 = .ok (g, r, k') →
      ∀ x, r = some x → Z x := by
    intro vis' model' jhj fuel
    induction fuel with
    | zero =>
      intro eps k j r0 g r k' h0 hw
      simp only [gnWhile] at hw
      cases hw
      exact h0
    | succ n ih =>
      intro eps k j r0 g r k' h0 hw
      simp only [gnWhile] at hw
      split at hw
      · split at hw
        · cases hw
        · rename_i hs
          exact ih _ _ _ _ _ _ _ (fun x hx => by cases hx; exact hstep _ _ _ _ _ _ _ hs) hw
      · cases hw
        exact h0
  unfold gaussNewton at h
  simp only [checkType] at h
  simp only [if_true, ne_eq, not_true_eq_false, if_false] at h
  split at h
  · cases h
  · split at h
    · cases h
    · cases h
    · rename_i hw
      cases h
      exact hwhile _ _ _ _ _ _ _ _ _ _ _ (by simp) hw jhr rfl

end

/-- Two antennas, one row, unit gains and unit data: a call that returns after one iteration. -/
theorem demo_run : ∃ g jhj jhr, gaussNewton 5 3 ⟨1, 2, 1, 1, 1⟩ (fun _ => 0) (fun _ => 1) (fun _ => 0) (fun _ => 1)
    (fun _ _ _ _ _ => 1) (fun _ _ _ => 2) (fun _ _ => false) (fun _ _ _ _ => 2) (fun _ _ _ => 4) (1 / 1000) 10 =
      .ok (g, jhj, jhr, 1) ∧
    ∀ t < 1, ∀ p, ∀ nu < 1, ∀ s < 1, ∀ c, g t p nu s c = 1 :=
  C29_fixed_point (e := ⟨1, 2, 1, 1, 1⟩) 0 ⟨⟨0, by simp, rfl⟩, fun _ _ => le_rfl⟩
    (fun a (ha : a < 1) b (hb : b < 1) _ _ _ => by omega) 10 (by norm_num) (by norm_num) (by norm_num)
    (by simp)
    (by
      intro jhj h t ht p hp nu hnu s hs c hc
      obtain ⟨jhj', _, h1, _, h3⟩ := C27_entries (ntim := 1) (idx := fun _ => 0) (residual := fun _ _ _ => 0)
        (cnt := fun _ => 1) (ant1 := fun _ => 0) (ant2 := fun _ => 1) (nchan := 1) (ndir := 1)
        (jones := fun _ _ _ _ _ => 1) (model := fun _ _ _ _ => 2 * (Real.sqrt 4 : ℂ))
        (flagged := fun _ _ => false) 0 ⟨⟨0, by omega, rfl⟩, fun _ _ => le_rfl⟩
      cases h.symm.trans h1
      rw [(h3 t ht p nu hnu s hs c).1]
      have h4 : Real.sqrt 4 = 2 := by
        rw [show (4 : ℝ) = 2 ^ 2 by norm_num]; exact Real.sqrt_sq (by norm_num)
      have hp' : p = 0 ∨ p = 1 := by change p < 2 at hp; omega
      rcases hp' with rfl | rfl <;> simp [h4, normSq])
    (by simp) (by intro t _ row _ nu _ c; simp)

/-- The same problem started from gains `i` returns gains `i`: the phase of 90 degrees common to both
antennas is not touched. -/
example : ∃ g jhj jhr, gaussNewton 5 3 ⟨1, 2, 1, 1, 1⟩ (fun _ => 0) (fun _ => 1) (fun _ => 0) (fun _ => 1)
    (fun _ _ _ _ _ => I * 1) (fun _ _ _ => 2) (fun _ _ => false) (fun _ _ _ _ => 2) (fun _ _ _ => 4) (1 / 1000) 10 =
      .ok (g, jhj, jhr, 1) ∧ g 0 0 0 0 0 = I ∧ g 0 1 0 0 0 = I := by
  obtain ⟨g, jhj, jhr, h, hg⟩ := demo_run
  refine ⟨fun t p nu s c => I * g t p nu s c, jhj, jhr, ?_, ?_, ?_⟩
  · have := C139_gauge (e := ⟨1, 2, 1, 1, 1⟩) (idx := fun _ => 0) (cnt := fun _ => 1) (ant1 := fun _ => 0)
      (ant2 := fun _ => 1) (jones := fun _ _ _ _ _ => 1) (vis := fun _ _ _ => 2) (flagged := fun _ _ => false)
      (model := fun _ _ _ _ => 2) (weight := fun _ _ _ => 4) (tol := 1 / 1000) (maxiter := 10)
      (fun _ _ _ _ => I) (fun _ _ _ _ => norm_I) (fun _ _ _ _ _ => one_ne_zero)
    rw [this, h]
    rfl
  · simp [hg 0 (by omega) 0 0 (by omega) 0 (by omega) 0]
  · simp [hg 0 (by omega) 1 0 (by omega) 0 (by omega) 0]

/-- With the two antennas exchanged and the weights multiplied by 3 the run returns as well, and the entries of
`jhr` add up to zero. -/
example : ∃ g jhj jhr, gaussNewton 5 3 ⟨1, 2, 1, 1, 1⟩ (fun _ => 0) (fun _ => 1)
    (fun _ => Equiv.swap 0 1 0) (fun _ => Equiv.swap 0 1 1)
    (fun _ _ _ _ _ => 1) (fun _ _ _ => 2) (fun _ _ => false) (fun _ _ _ _ => 2) (fun _ _ _ => 3 * 4) (1 / 1000) 10 =
      .ok (g, jhj, jhr, 1) ∧ jhr 0 0 0 0 0 + jhr 0 1 0 0 0 = 0 := by
  obtain ⟨g, jhj, jhr, h, _⟩ := demo_run
  have h1 := C139_weights (e := ⟨1, 2, 1, 1, 1⟩) (idx := fun _ => 0) (cnt := fun _ => 1) (ant1 := fun _ => 0)
      (ant2 := fun _ => 1) (jones := fun _ _ _ _ _ => 1) (vis := fun _ _ _ => 2) (flagged := fun _ _ => false)
      (model := fun _ _ _ _ => 2) (weight := fun _ _ _ => 4) (tol := 1 / 1000) (maxiter := 10) 3 (by norm_num)
  have h2 := C139_antennas (e := ⟨1, 2, 1, 1, 1⟩) (idx := fun _ => 0) (cnt := fun _ => 1) (ant1 := fun _ => 0)
      (ant2 := fun _ => 1) (jones := fun _ _ _ _ _ => 1) (vis := fun _ _ _ => 2) (flagged := fun _ _ => false)
      (model := fun _ _ _ _ => 2) (weight := fun _ _ _ => 3 * 4) (tol := 1 / 1000) (maxiter := 10)
      (Equiv.swap 0 1) (fun p => by
        by_cases h0 : p = 0
        · subst h0; simp
        · by_cases h1 : p = 1
          · subst h1; simp
          · rw [Equiv.swap_apply_of_ne_of_ne h0 h1])
  rw [h1, h] at h2
  refine ⟨_, _, _, h2, ?_⟩
  have := C139_reference (fun _ => ⟨by simp, by simp⟩) _ _ _ _ h2 0 0 0 0
  simpa [Finset.sum_range_succ] using this

/-- The row recorded as the baseline from antenna 1 to antenna 0. -/
example : ((gaussNewton 5 3 ⟨1, 2, 1, 1, 1⟩ (fun _ => 0) (fun _ => 1) (fun _ => 1) (fun _ => 0)
    (fun _ _ _ _ _ => 1) (fun _ _ _ => (starRingEnd ℂ) 2) (fun _ _ => false) (fun _ _ _ _ => (starRingEnd ℂ) 2)
    (fun _ _ _ => 4) (1 / 1000) 10).map fun r => (r.1, r.2.2.2)) =
    (gaussNewton 5 3 ⟨1, 2, 1, 1, 1⟩ (fun _ => 0) (fun _ => 1) (fun _ => 0) (fun _ => 1)
    (fun _ _ _ _ _ => 1) (fun _ _ _ => 2) (fun _ _ => false) (fun _ _ _ _ => 2)
    (fun _ _ _ => 4) (1 / 1000) 10).map fun r => (r.1, r.2.2.2) := by
  have h := C139_baselines (e := ⟨1, 2, 1, 1, 1⟩) (idx := fun _ => 0) (cnt := fun _ => 1) (ant1 := fun _ => 0)
      (ant2 := fun _ => 1) (jones := fun _ _ _ _ _ => 1) (vis := fun _ _ _ => 2) (flagged := fun _ _ => false)
      (model := fun _ _ _ _ => 2) (weight := fun _ _ _ => 4) (tol := 1 / 1000) (maxiter := 10) (fun _ => true)
  have h' := congrArg (Except.map fun r : Arr5 ℂ × Arr5 ℝ × Arr5 ℝ × Nat => (r.1, r.2.2.2)) h
  obtain ⟨g, jhj, jhr, hd, _⟩ := demo_run
  simp only [swapIf, conjIf, if_true] at h'
  rw [hd] at h' ⊢
  revert h'
  generalize gaussNewton 5 3 ⟨1, 2, 1, 1, 1⟩ (fun _ => 0) (fun _ => 1) (fun _ => 1) (fun _ => 0)
    (fun _ _ _ _ _ => 1) (fun _ _ _ => (starRingEnd ℂ) 2) (fun _ _ => false) (fun _ _ _ _ => (starRingEnd ℂ) 2)
    (fun _ _ _ => 4) (1 / 1000) 10 = x
  intro h'
  cases x with
  | error err => cases h'
  | ok r => exact h'

end Verif.Calibration
