/-
Auxiliary facts for the symmetries of phase-only calibration.
-/
import Verif.Calibration.Props3
import Mathlib.Algebra.Group.Hom.Defs
import Mathlib.Logic.Equiv.Basic

set_option autoImplicit false

noncomputable section

namespace Verif.Calibration

open Complex

section
variable {e : Ext5} {idx cnt ant1 ant2 ant1' ant2' : Nat → Nat} {flagged : Nat → Nat → Bool}
  {vis vis' : Nat → Nat → Nat → ℂ} {model model' : Nat → Nat → Nat → Nat → ℂ}

theorem binLoop_map {V : Type*} {ntim : Nat} {lo : Nat → Nat} {nchan : Nat}
    {cell cell' : Nat → Nat → Nat → V → V} (f : Nat → Nat → V → V) {init init' : Nat → Nat → V}
    (h0 : ∀ r nu, init' r nu = f r nu (init r nu))
    (hc : ∀ t r nu v, cell' t r nu (f r nu v) = f r nu (cell t r nu v)) (r nu : Nat) :
    binLoop ntim lo cnt nchan cell' init' r nu = f r nu (binLoop ntim lo cnt nchan cell init r nu) := by
  have H : ∀ v v' : Nat → Nat → V, (∀ r nu, v' r nu = f r nu (v r nu)) → ∀ t r0 nu0 r nu,
      upd2 v' r0 nu0 (cell' t r0 nu0 (v' r0 nu0)) r nu =
        f r nu (upd2 v r0 nu0 (cell t r0 nu0 (v r0 nu0)) r nu) := by
    intro v v' hv t r0 nu0 r nu
    unfold upd2
    by_cases h1 : r = r0
    · subst h1
      rw [Function.update_self, Function.update_self]
      by_cases h2 : nu = nu0
      · subst h2
        rw [Function.update_self, Function.update_self, hv, hc]
      · rw [Function.update_of_ne h2, Function.update_of_ne h2]
        exact hv r nu
    · rw [Function.update_of_ne h1, Function.update_of_ne h1]
      exact hv r nu
  unfold binLoop
  let R : (Nat → Nat → V) → (Nat → Nat → V) → Prop := fun v v' => ∀ r nu, v' r nu = f r nu (v r nu)
  refine forRange_rel R h0 (fun t _ v v' hv => ?_) r nu
  refine forRange_rel R hv (fun k _ v v' hv => ?_)
  refine forRange_rel R hv (fun nu _ v v' hv => ?_)
  exact H v v' hv _ _ _

theorem residual_map {ntim nchan ndir : Nat} {j j' : Arr5 ℂ} (f : Nat → ℂ → ℂ) (hf0 : ∀ r, f r 0 = 0)
    (hsub : ∀ t r nu c, subtractDD ndir (j' t (ant1' r) nu) (vis' r nu) (j' t (ant2' r) nu) (model' r nu) c =
      f r (subtractDD ndir (j t (ant1 r) nu) (vis r nu) (j t (ant2 r) nu) (model r nu) c)) :
    (∃ err, residualVis ntim idx cnt ant1' ant2' nchan ndir (.five j') (.three vis') flagged (.four model') =
        .error err ∧
      residualVis ntim idx cnt ant1 ant2 nchan ndir (.five j) (.three vis) flagged (.four model) = .error err) ∨
    ∃ r, residualVis ntim idx cnt ant1 ant2 nchan ndir (.five j) (.three vis) flagged (.four model) =
        .ok (.three r) ∧
      residualVis ntim idx cnt ant1' ant2' nchan ndir (.five j') (.three vis') flagged (.four model') =
        .ok (.three fun row nu c => f row (r row nu c)) := by
  unfold residualVis
  cases hlo : shiftIdx ntim idx with
  | error err => exact .inl ⟨err, rfl, rfl⟩
  | ok lo =>
    right
    refine ⟨_, rfl, ?_⟩
    simp only [checkType]
    simp only [Jones.ndim, Vis.ndim, if_true, ne_eq, not_true_eq_false, if_false, Except.ok.injEq,
      Vis.three.injEq]
    funext row nu
    refine binLoop_map (fun row _ (v : Nat → ℂ) c => f row (v c)) (fun r _ => ?_) (fun t r nu v => ?_) row nu
    · funext c; exact (hf0 r).symm
    · by_cases hfl : flagged r nu
      · simp only [hfl, if_true]
      · simp only [hfl]
        funext c
        exact hsub t r nu c

theorem computeJhr_sym {M : Type*} [AddCommMonoid M] {ntim nchan ndir : Nat} {j j' : Arr5 ℂ}
    {res res' : Nat → Nat → Nat → ℂ} (o o' : ℂ →+ M) (π : Nat → Nat)
    (hg : ∀ t' a nu' s' c t row nu s, o' (gJhr ant1' ant2' j' res' model' t' (π a) nu' s' c t row nu s) =
      o (gJhr ant1 ant2 j res model t' a nu' s' c t row nu s)) :
    (∃ err, computeJhr ntim idx cnt ant1' ant2' nchan ndir j' res' model' flagged = .error err ∧
      computeJhr ntim idx cnt ant1 ant2 nchan ndir j res model flagged = .error err) ∨
    ∃ r r', computeJhr ntim idx cnt ant1 ant2 nchan ndir j res model flagged = .ok r ∧
      computeJhr ntim idx cnt ant1' ant2' nchan ndir j' res' model' flagged = .ok r' ∧
      ∀ t a nu s c, o' (r' t (π a) nu s c) = o (r t a nu s c) := by
  unfold computeJhr
  cases hlo : shiftIdx ntim idx with
  | error err => exact .inl ⟨err, rfl, rfl⟩
  | ok lo =>
    refine .inr ⟨_, _, rfl, rfl, fun t a nu s c => ?_⟩
    rw [nest_sum (fun r : Arr5 ℂ => o' (r t (π a) nu s c))
        (fun t1 row nu1 s1 => o' (gJhr ant1' ant2' j' res' model' t (π a) nu s c t1 row nu1 s1)),
      nest_sum (fun r : Arr5 ℂ => o (r t a nu s c))
        (fun t1 row nu1 s1 => o (gJhr ant1 ant2 j res model t a nu s c t1 row nu1 s1))]
    · rw [map_zero, map_zero, zero_add, zero_add]
      refine Finset.sum_congr rfl fun t1 _ => Finset.sum_congr rfl fun k _ => Finset.sum_congr rfl fun nu1 _ => ?_
      split
      · rfl
      · exact Finset.sum_congr rfl fun s1 _ => hg _ _ _ _ _ _ _ _ _
    · intro t1 _ row nu1 _ s1 _ st
      rw [bodyJhr_apply, map_add]
    · intro t1 _ row nu1 _ s1 _ st
      rw [bodyJhr_apply, map_add]

theorem computeJhj_sym {ntim nchan ndir : Nat} {j j' : Arr5 ℂ} (κ : ℝ) (π : Nat → Nat)
    (hg : ∀ t' a nu' s' c t row nu s, gJhj ant1' ant2' j' model' t' (π a) nu' s' c t row nu s =
      κ * gJhj ant1 ant2 j model t' a nu' s' c t row nu s) :
    (∃ err, computeJhj ntim idx cnt ant1' ant2' nchan ndir j' model' flagged = .error err ∧
      computeJhj ntim idx cnt ant1 ant2 nchan ndir j model flagged = .error err) ∨
    ∃ r r', computeJhj ntim idx cnt ant1 ant2 nchan ndir j model flagged = .ok r ∧
      computeJhj ntim idx cnt ant1' ant2' nchan ndir j' model' flagged = .ok r' ∧
      ∀ t a nu s c, r' t (π a) nu s c = κ * r t a nu s c := by
  unfold computeJhj
  cases hlo : shiftIdx ntim idx with
  | error err => exact .inl ⟨err, rfl, rfl⟩
  | ok lo =>
    refine .inr ⟨_, _, rfl, rfl, fun t a nu s c => ?_⟩
    rw [nest_sum (fun r : Arr5 ℝ => r t (π a) nu s c)
        (fun t1 row nu1 s1 => gJhj ant1' ant2' j' model' t (π a) nu s c t1 row nu1 s1),
      nest_sum (fun r : Arr5 ℝ => r t a nu s c)
        (fun t1 row nu1 s1 => gJhj ant1 ant2 j model t a nu s c t1 row nu1 s1)]
    · rw [zero_add, zero_add, Finset.mul_sum]
      refine Finset.sum_congr rfl fun t1 _ => ?_
      rw [Finset.mul_sum]
      refine Finset.sum_congr rfl fun k _ => ?_
      rw [Finset.mul_sum]
      refine Finset.sum_congr rfl fun nu1 _ => ?_
      split
      · rw [mul_zero]
      · rw [Finset.mul_sum]
        exact Finset.sum_congr rfl fun s1 _ => hg _ _ _ _ _ _ _ _ _
    · intro t1 _ row nu1 _ s1 _ st
      exact bodyJhj_apply _ _ _ _ _ _ _ _ _ _
    · intro t1 _ row nu1 _ s1 _ st
      exact bodyJhj_apply _ _ _ _ _ _ _ _ _ _

/-- The largest element does not depend on the order of the elements. -/
theorem npMax_mem {l l' : List ℝ} (h : ∀ x, x ∈ l ↔ x ∈ l') : npMax l = npMax l' := by
  have hfold : ∀ (xs : List ℝ) (x : ℝ), xs.foldl max x ∈ x :: xs ∧ ∀ y ∈ x :: xs, y ≤ xs.foldl max x := by
    intro xs
    induction xs with
    | nil => intro x; simp
    | cons z xs ih =>
      intro x
      obtain ⟨h1, h2⟩ := ih (max x z)
      rw [List.foldl_cons]
      refine ⟨?_, fun y hy => ?_⟩
      · rcases List.mem_cons.1 h1 with h1 | h1
        · rw [h1]
          rcases max_choice x z with h | h <;> rw [h] <;> simp
        · simp [h1]
      · have hm := h2 (max x z) (by simp)
        rcases List.mem_cons.1 hy with rfl | hy
        · exact (le_max_left _ _).trans hm
        · rcases List.mem_cons.1 hy with rfl | hy
          · exact (le_max_right _ _).trans hm
          · exact h2 y (by simp [hy])
  cases l with
  | nil =>
    cases l' with
    | nil => rfl
    | cons y ys => exact absurd ((h y).2 (by simp)) (by simp)
  | cons x xs =>
    cases l' with
    | nil => exact absurd ((h x).1 (by simp)) (by simp)
    | cons y ys =>
      unfold npMax
      simp only [Except.ok.injEq]
      exact le_antisymm ((hfold ys y).2 _ ((h _).1 (hfold xs x).1)) ((hfold xs x).2 _ ((h _).2 (hfold ys y).1))

theorem mem_elems {M : Type*} {a : Arr5 M} {x : M} : x ∈ elems e a ↔ ∃ t < e.ntim, ∃ p < e.nant,
    ∃ nu < e.nchan, ∃ s < e.ndir, ∃ c < e.ncorr, a t p nu s c = x := by
  simp only [elems, List.mem_flatMap, List.mem_map, List.mem_range]

/-- One pass of the loop for two related problems. -/
theorem gnStep_sym {M : Type*} [AddCommMonoid M] {j j' : Arr5 ℂ} {jhj jhj' : Arr5 ℝ} (o o' : ℂ →+ M)
    (π : Equiv.Perm Nat) (hπ : ∀ p, π p < e.nant ↔ p < e.nant) (u : Nat → Nat → Nat → Nat → ℂ)
    (f : Nat → ℂ → ℂ) (hf0 : ∀ r, f r 0 = 0)
    (hsub : ∀ t r nu c, subtractDD e.ndir (j' t (ant1' r) nu) (vis' r nu) (j' t (ant2' r) nu) (model' r nu) c =
      f r (subtractDD e.ndir (j t (ant1 r) nu) (vis r nu) (j t (ant2 r) nu) (model r nu) c))
    (hg : ∀ res t' a nu' s' c t row nu s,
      o' (gJhr ant1' ant2' j' (fun r nu c => f r (res r nu c)) model' t' (π a) nu' s' c t row nu s) =
        o (gJhr ant1 ant2 j res model t' a nu' s' c t row nu s))
    (hre : ∀ t p nu s c z z', o' z' = o z →
      (z' / (jhj' t (π p) nu s c : ℂ)).re = (z / (jhj t p nu s c : ℂ)).re)
    (hgain : ∀ t p nu s c (δ : ℝ), exp (I * (((j' t (π p) nu s c).arg + δ : ℝ) : ℂ)) =
      u t nu s c * exp (I * (((j t p nu s c).arg + δ : ℝ) : ℂ))) :
    (∃ err, gnStep e idx cnt ant1' ant2' vis' flagged model' jhj' j' = .error err ∧
      gnStep e idx cnt ant1 ant2 vis flagged model jhj j = .error err) ∨
    ∃ g g' r r' eps, gnStep e idx cnt ant1 ant2 vis flagged model jhj j = .ok (g, r, eps) ∧
      gnStep e idx cnt ant1' ant2' vis' flagged model' jhj' j' = .ok (g', r', eps) ∧
      (∀ t p nu s c, g' t (π p) nu s c = u t nu s c * g t p nu s c) ∧
      (∀ t p nu s c, o' (r' t (π p) nu s c) = o (r t p nu s c)) := by
  unfold gnStep
  rcases residual_map (idx := idx) (cnt := cnt) (flagged := flagged) (ntim := e.ntim) (nchan := e.nchan)
    f hf0 hsub with ⟨err, h1, h2⟩ | ⟨res, h1, h2⟩
  · simp only [h1, h2]
    exact .inl ⟨err, rfl, rfl⟩
  · simp only [h1, h2]
    rcases computeJhr_sym (idx := idx) (cnt := cnt) (flagged := flagged) (ntim := e.ntim) (nchan := e.nchan)
      (ndir := e.ndir) o o' π (hg res) with ⟨err, h3, h4⟩ | ⟨r, r', h3, h4, h5⟩
    · simp only [h3, h4]
      exact .inl ⟨err, rfl, rfl⟩
    · simp only [h3, h4]
      have hmax : npMax (elems e fun t p nu s c => |(j' t p nu s c).arg +
            0.5 * (r' t p nu s c / (jhj' t p nu s c : ℂ)).re - (j' t p nu s c).arg|) =
          npMax (elems e fun t p nu s c => |(j t p nu s c).arg +
            0.5 * (r t p nu s c / (jhj t p nu s c : ℂ)).re - (j t p nu s c).arg|) := by
        refine npMax_mem fun x => ?_
        simp only [mem_elems, add_sub_cancel_left]
        constructor
        · rintro ⟨t, ht, p, hp, nu, hnu, s, hs, c, hc, rfl⟩
          refine ⟨t, ht, π.symm p, ?_, nu, hnu, s, hs, c, hc, ?_⟩
          · rw [← hπ, Equiv.apply_symm_apply]; exact hp
          · have := hre t (π.symm p) nu s c _ _ (h5 t (π.symm p) nu s c)
            rw [Equiv.apply_symm_apply] at this
            rw [this]
        · rintro ⟨t, ht, p, hp, nu, hnu, s, hs, c, hc, rfl⟩
          exact ⟨t, ht, π p, (hπ p).2 hp, nu, hnu, s, hs, c, hc, by rw [hre t p nu s c _ _ (h5 t p nu s c)]⟩
      rw [hmax]
      cases hm : npMax (elems e fun t p nu s c => |(j t p nu s c).arg +
            0.5 * (r t p nu s c / (jhj t p nu s c : ℂ)).re - (j t p nu s c).arg|) with
      | error err => exact .inl ⟨err, rfl, rfl⟩
      | ok eps =>
        refine .inr ⟨_, _, r, r', eps, rfl, rfl, fun t p nu s c => ?_, h5⟩
        rw [hre t p nu s c _ _ (h5 t p nu s c)]
        exact hgain t p nu s c _

/-- The whole loop for two related problems. -/
theorem gnWhile_sym {M : Type*} {tol : ℝ}
    {step step' : Arr5 ℂ → Except PyErr (Arr5 ℂ × Arr5 ℂ × ℝ)} (o o' : ℂ → M) (π : Nat → Nat)
    (P : Arr5 ℂ → Arr5 ℂ → Prop)
    (hs : ∀ j j', P j j' → (∃ err, step' j' = .error err ∧ step j = .error err) ∨
      ∃ g g' r r' eps, step j = .ok (g, r, eps) ∧ step' j' = .ok (g', r', eps) ∧ P g g' ∧
        (∀ t p nu s c, o' (r' t (π p) nu s c) = o (r t p nu s c)))
    (fuel : Nat) (eps : ℝ) (k : Nat) (j j' : Arr5 ℂ) (hP : P j j') (r0 r0' : Option (Arr5 ℂ))
    (hr0 : (r0 = none ∧ r0' = none) ∨ ∃ r r', r0 = some r ∧ r0' = some r' ∧
      ∀ t p nu s c, o' (r' t (π p) nu s c) = o (r t p nu s c)) :
    (∃ err, gnWhile step' tol fuel eps k j' r0' = .error err ∧ gnWhile step tol fuel eps k j r0 = .error err) ∨
    ∃ g g' r r' k', gnWhile step tol fuel eps k j r0 = .ok (g, r, k') ∧
      gnWhile step' tol fuel eps k j' r0' = .ok (g', r', k') ∧ P g g' ∧
      ((r = none ∧ r' = none) ∨ ∃ x x', r = some x ∧ r' = some x' ∧
        ∀ t p nu s c, o' (x' t (π p) nu s c) = o (x t p nu s c)) := by
  induction fuel generalizing eps k j j' r0 r0' with
  | zero => exact .inr ⟨j, j', r0, r0', k, rfl, rfl, hP, hr0⟩
  | succ n ih =>
    simp only [gnWhile]
    by_cases hgt : eps > tol
    · rw [if_pos hgt, if_pos hgt]
      rcases hs j j' hP with ⟨err, h1, h2⟩ | ⟨g, g', r, r', eps', h1, h2, h3, h4⟩
      · rw [h1, h2]
        exact .inl ⟨err, rfl, rfl⟩
      · rw [h1, h2]
        exact ih eps' (k + 1) g g' h3 (some r) (some r') (.inr ⟨r, r', rfl, rfl, h4⟩)
    · rw [if_neg hgt, if_neg hgt]
      exact .inr ⟨j, j', r0, r0', k, rfl, rfl, hP, hr0⟩

/-- The phase of a product with a number of modulus 1, as a phase factor. -/
theorem exp_arg_mul {v z : ℂ} (hv : ‖v‖ = 1) (hz : z ≠ 0) (δ : ℝ) :
    exp (I * (((v * z).arg + δ : ℝ) : ℂ)) = v * exp (I * ((z.arg + δ : ℝ) : ℂ)) := by
  have h : ∀ w : ℂ, w ≠ 0 → exp (I * (w.arg : ℂ)) = w / ‖w‖ := by
    intro w hw
    rw [eq_div_iff (by exact_mod_cast norm_ne_zero_iff.2 hw), mul_comm, mul_comm I]
    exact norm_mul_exp_arg_mul_I w
  have hv0 : v ≠ 0 := norm_ne_zero_iff.1 (by rw [hv]; exact one_ne_zero)
  rw [ofReal_add, ofReal_add, mul_add, mul_add, exp_add, exp_add, h _ hz, h _ (mul_ne_zero hv0 hz), norm_mul, hv,
    one_mul]
  ring

/-- `gauss_newton` for two related problems. -/
theorem gaussNewton_sym {M : Type*} [AddCommMonoid M] {weight weight' : Nat → Nat → Nat → ℝ} {tol : ℝ}
    {maxiter : Nat} {jones jones' : Arr5 ℂ} (o o' : ℂ →+ M)
    (π : Equiv.Perm Nat) (hπ : ∀ p, π p < e.nant ↔ p < e.nant)
    (u : Nat → Nat → Nat → Nat → ℂ) (hu : ∀ t nu s c, ‖u t nu s c‖ = 1)
    (f : Nat → ℂ → ℂ) (hf0 : ∀ r, f r 0 = 0) (κ : ℝ) (hκ : κ ≠ 0)
    (ho : ∀ z z', o' z' = o z → z'.re = κ * z.re)
    (hj0 : (∀ t nu s c, u t nu s c = 1) ∨ ∀ t p nu s c, jones t p nu s c ≠ 0)
    (hj : ∀ t p nu s c, jones' t (π p) nu s c = u t nu s c * jones t p nu s c)
    (hsub : ∀ j j' : Arr5 ℂ, (∀ t p nu s c, j' t (π p) nu s c = u t nu s c * j t p nu s c) → ∀ t r nu c,
      subtractDD e.ndir (j' t (ant1' r) nu) (fun c => vis' r nu c * (Real.sqrt (weight' r nu c) : ℂ))
          (j' t (ant2' r) nu) (fun s c => model' r nu s c * (Real.sqrt (weight' r nu c) : ℂ)) c =
        f r (subtractDD e.ndir (j t (ant1 r) nu) (fun c => vis r nu c * (Real.sqrt (weight r nu c) : ℂ))
          (j t (ant2 r) nu) (fun s c => model r nu s c * (Real.sqrt (weight r nu c) : ℂ)) c))
    (hg : ∀ j j' : Arr5 ℂ, (∀ t p nu s c, j' t (π p) nu s c = u t nu s c * j t p nu s c) →
      ∀ res t' a nu' s' c t row nu s,
      o' (gJhr ant1' ant2' j' (fun r nu c => f r (res r nu c))
          (fun r nu s c => model' r nu s c * (Real.sqrt (weight' r nu c) : ℂ)) t' (π a) nu' s' c t row nu s) =
        o (gJhr ant1 ant2 j res (fun r nu s c => model r nu s c * (Real.sqrt (weight r nu c) : ℂ))
          t' a nu' s' c t row nu s))
    (hgj : ∀ t' a nu' s' c t row nu s,
      gJhj ant1' ant2' jones' (fun r nu s c => model' r nu s c * (Real.sqrt (weight' r nu c) : ℂ)) t' (π a) nu'
          s' c t row nu s =
        κ * gJhj ant1 ant2 jones (fun r nu s c => model r nu s c * (Real.sqrt (weight r nu c) : ℂ))
          t' a nu' s' c t row nu s) :
    (∃ err, gaussNewton 5 3 e idx cnt ant1' ant2' jones' vis' flagged model' weight' tol maxiter = .error err ∧
      gaussNewton 5 3 e idx cnt ant1 ant2 jones vis flagged model weight tol maxiter = .error err) ∨
    ∃ g g' jhj jhj' r r' k,
      gaussNewton 5 3 e idx cnt ant1 ant2 jones vis flagged model weight tol maxiter = .ok (g, jhj, r, k) ∧
      gaussNewton 5 3 e idx cnt ant1' ant2' jones' vis' flagged model' weight' tol maxiter =
        .ok (g', jhj', r', k) ∧
      (∀ t p nu s c, g' t (π p) nu s c = u t nu s c * g t p nu s c) ∧
      (∀ t p nu s c, jhj' t (π p) nu s c = κ * jhj t p nu s c) ∧
      (∀ t p nu s c, o' (r' t (π p) nu s c) = o (r t p nu s c)) := by
  unfold gaussNewton
  simp only [checkType]
  simp only [if_true, ne_eq, not_true_eq_false, if_false]
  rcases computeJhj_sym (idx := idx) (cnt := cnt) (flagged := flagged) (ntim := e.ntim) (nchan := e.nchan)
      (ndir := e.ndir) κ π hgj with ⟨err, h1, h2⟩ | ⟨jhj, jhj', h1, h2, h3⟩
  · rw [h1, h2]
    exact .inl ⟨err, rfl, rfl⟩
  · rw [h1, h2]
    simp only
    let P : Arr5 ℂ → Arr5 ℂ → Prop := fun j j' =>
      (∀ t p nu s c, j' t (π p) nu s c = u t nu s c * j t p nu s c) ∧
        ((∀ t nu s c, u t nu s c = 1) ∨ ∀ t p nu s c, j t p nu s c ≠ 0)
    have hstep : ∀ j j', P j j' → _ := fun j j' hP => gnStep_sym (e := e) (idx := idx) (cnt := cnt)
      (flagged := flagged) (ant1 := ant1) (ant2 := ant2) (ant1' := ant1') (ant2' := ant2') (jhj := jhj) (jhj' := jhj')
      (vis := fun r nu c => vis r nu c * (Real.sqrt (weight r nu c) : ℂ))
      (vis' := fun r nu c => vis' r nu c * (Real.sqrt (weight' r nu c) : ℂ))
      (model := fun r nu s c => model r nu s c * (Real.sqrt (weight r nu c) : ℂ))
      (model' := fun r nu s c => model' r nu s c * (Real.sqrt (weight' r nu c) : ℂ))
      o o' π hπ u f hf0 (hsub j j' hP.1) (hg j j' hP.1)
      (by
        intro t p nu s c z z' hz
        rw [h3, div_ofReal_re, div_ofReal_re, ho z z' hz]
        exact mul_div_mul_left _ _ hκ)
      (by
        intro t p nu s c δ
        rw [hP.1]
        rcases hP.2 with h | h
        · rw [h, one_mul, one_mul]
        · exact exp_arg_mul (hu t nu s c) (h t p nu s c) δ)
    have hs : ∀ j j', P j j' → (∃ err, gnStep e idx cnt ant1' ant2'
          (fun r nu c => vis' r nu c * (Real.sqrt (weight' r nu c) : ℂ)) flagged
          (fun r nu s c => model' r nu s c * (Real.sqrt (weight' r nu c) : ℂ)) jhj' j' = .error err ∧
        gnStep e idx cnt ant1 ant2 (fun r nu c => vis r nu c * (Real.sqrt (weight r nu c) : ℂ)) flagged
          (fun r nu s c => model r nu s c * (Real.sqrt (weight r nu c) : ℂ)) jhj j = .error err) ∨
        ∃ g g' r r' eps, gnStep e idx cnt ant1 ant2
            (fun r nu c => vis r nu c * (Real.sqrt (weight r nu c) : ℂ)) flagged
            (fun r nu s c => model r nu s c * (Real.sqrt (weight r nu c) : ℂ)) jhj j = .ok (g, r, eps) ∧
          gnStep e idx cnt ant1' ant2' (fun r nu c => vis' r nu c * (Real.sqrt (weight' r nu c) : ℂ)) flagged
            (fun r nu s c => model' r nu s c * (Real.sqrt (weight' r nu c) : ℂ)) jhj' j' = .ok (g', r', eps) ∧
          P g g' ∧ (∀ t p nu s c, o' (r' t (π p) nu s c) = o (r t p nu s c)) := by
      intro j j' hP
      rcases hstep j j' hP with h | ⟨g, g', r, r', eps, h4, h5, h6, h7⟩
      · exact .inl h
      · refine .inr ⟨g, g', r, r', eps, h4, h5, ⟨h6, .inr fun t p nu s c => ?_⟩, h7⟩
        have := gnStep_unit h4 t p nu s c
        intro h0
        rw [h0, norm_zero] at this
        exact zero_ne_one this
    rcases gnWhile_sym (tol := tol) o o' π P hs maxiter 1 0 jones jones' ⟨hj, hj0⟩ none none
      (.inl ⟨rfl, rfl⟩) with ⟨err, h4, h5⟩ | ⟨g, g', r, r', k, h4, h5, h6, h7⟩
    · rw [h4, h5]
      exact .inl ⟨err, rfl, rfl⟩
    · rw [h4, h5]
      rcases h7 with ⟨rfl, rfl⟩ | ⟨x, x', rfl, rfl, h7⟩
      · exact .inl ⟨_, rfl, rfl⟩
      · exact .inr ⟨g, g', jhj, jhj', x, x', k, rfl, rfl, h6.1, h3, h7⟩

end

end Verif.Calibration
