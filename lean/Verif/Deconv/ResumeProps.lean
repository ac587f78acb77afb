/-
C153: CLEAN can be resumed.
-/
import Verif.Deconv.HogbomProps

set_option autoImplicit false

set_option linter.unusedSectionVars false

namespace Verif.Deconv

variable {K : Type*} [Field K] [LinearOrder K] [IsStrictOrderedRing K]

/-! ### Lemmas -/

/-- The position and the intensity in the state are those of the peak of the residuals. -/
private def AtPeak (n : Nat) (s : CleanState K) : Prop :=
  ∃ pk, findPeak n n s.residuals = .ok pk ∧ pk.maxx = s.p ∧ pk.maxy = s.q ∧ pk.intensity = s.intensity

private theorem atPeak_step {n : Nat} {psf : Nat → Nat → K} {gamma : K} {s s' : CleanState K}
    (h : cleanStep n psf gamma s = .ok s') : AtPeak n s' ∧ s'.i = s.i + 1 := by
  unfold cleanStep at h
  dsimp only at h
  split at h
  · cases h
  · rename_i pk hpk
    cases h
    exact ⟨⟨pk, hpk, rfl, rfl, rfl⟩, rfl⟩

private theorem atPeak_loop {n : Nat} {psf : Nat → Nat → K} {gamma threshold : K} {niter : Int} (fuel : Nat) :
    ∀ {s s' : CleanState K}, AtPeak n s → cleanLoop n psf gamma threshold niter fuel s = .ok s' → AtPeak n s' := by
  induction fuel with
  | zero => intro s s' h e; cases e; exact h
  | succ fuel ih =>
    intro s s' h e
    rw [cleanLoop] at e
    split at e
    · split at e
      · cases e
      · rename_i s1 h1
        exact ih (atPeak_step h1).1 e
    · cases e; exact h

/-- A loop that has stopped stays where it is. -/
private theorem loop_stopped {n : Nat} {psf : Nat → Nat → K} {gamma threshold : K} {niter : Int} (fuel : Nat) {s : CleanState K}
    (h : ¬ (|s.intensity| > threshold ∧ (s.i : Int) ≤ niter)) : cleanLoop n psf gamma threshold niter fuel s = .ok s := by
  cases fuel with
  | zero => rfl
  | succ fuel => rw [cleanLoop, if_neg h]

theorem loop_split {n : Nat} {psf : Nat → Nat → K} {gamma threshold : K} {niter : Int} (f1 f2 : Nat) :
    ∀ {s s' : CleanState K}, cleanLoop n psf gamma threshold niter f1 s = .ok s' →
      cleanLoop n psf gamma threshold niter (f1 + f2) s = cleanLoop n psf gamma threshold niter f2 s' := by
  induction f1 with
  | zero => intro s s' h; cases h; rw [Nat.zero_add]
  | succ f1 ih =>
    intro s s' h
    rw [cleanLoop] at h
    rw [show f1 + 1 + f2 = f1 + f2 + 1 by omega, cleanLoop]
    split at h
    · rename_i hc
      rw [if_pos hc]
      split at h
      · cases h
      · exact ih h
    · rename_i hc
      cases h
      rw [if_neg hc, loop_stopped f2 hc]

/-- While there is fuel for it only, a higher limit does not matter. -/
theorem loop_limit {n : Nat} {psf : Nat → Nat → K} {gamma threshold : K} {a b : Int} (hab : a ≤ b) (fuel : Nat) :
    ∀ (s : CleanState K), (s.i : Int) + fuel ≤ a + 1 →
      cleanLoop n psf gamma threshold a fuel s = cleanLoop n psf gamma threshold b fuel s := by
  induction fuel with
  | zero => intro s _; rfl
  | succ fuel ih =>
    intro s h
    rw [cleanLoop, cleanLoop]
    have e : (|s.intensity| > threshold ∧ (s.i : Int) ≤ a) ↔ (|s.intensity| > threshold ∧ (s.i : Int) ≤ b) := by
      constructor
      · intro h; exact ⟨h.1, by omega⟩
      · intro h'; exact ⟨h'.1, by push_cast at h; omega⟩
    by_cases hc : |s.intensity| > threshold ∧ (s.i : Int) ≤ a
    · rw [if_pos hc, if_pos (e.1 hc)]
      cases hs : cleanStep n psf gamma s with
      | error e => rfl
      | ok s' =>
        dsimp only
        apply ih
        rw [(atPeak_step hs).2]
        push_cast at h ⊢
        omega
    · rw [if_neg hc, if_neg (fun h' => hc (e.2 h'))]

/-- The same state, with a model that has `D` in addition and a counter that is ahead by `d`. -/
private def Ahead (D : Nat → Nat → K) (d : Nat) (s s' : CleanState K) : Prop :=
  (∀ x y, s'.clean x y = D x y + s.clean x y) ∧ s'.residuals = s.residuals ∧ s'.p = s.p ∧ s'.q = s.q ∧
    s'.intensity = s.intensity ∧ s'.i = s.i + d

private theorem loop_ahead {n : Nat} {psf : Nat → Nat → K} {gamma threshold : K} {niter : Int} {D : Nat → Nat → K} {d : Nat}
    (fuel : Nat) : ∀ {s s' r : CleanState K}, Ahead D d s s' → cleanLoop n psf gamma threshold niter fuel s = .ok r →
      ∃ r', cleanLoop n psf gamma threshold (niter + d) fuel s' = .ok r' ∧ Ahead D d r r' := by
  induction fuel with
  | zero => intro s s' r h e; cases e; exact ⟨s', rfl, h⟩
  | succ fuel ih =>
    intro s s' r h e
    obtain ⟨h1, h2, h3, h4, h5, h6⟩ := h
    rw [cleanLoop] at e
    rw [cleanLoop]
    have hiff : (|s'.intensity| > threshold ∧ (s'.i : Int) ≤ niter + d) ↔ (|s.intensity| > threshold ∧ (s.i : Int) ≤ niter) := by
      rw [h5, h6]
      push_cast
      constructor <;> intro h <;> exact ⟨h.1, by have := h.2; omega⟩
    split at e
    · rename_i hc
      rw [if_pos (hiff.2 hc)]
      cases hs : cleanStep n psf gamma s with
      | error e' => rw [hs] at e; cases e
      | ok s1 =>
        rw [hs] at e
        dsimp only at e
        unfold cleanStep at hs ⊢
        dsimp only at hs ⊢
        rw [h2, h3, h4, h5]
        split at hs
        · cases hs
        · rename_i pk hpk
          cases hs
          refine ih ?_ e
          refine ⟨fun x y => ?_, rfl, rfl, rfl, rfl, by dsimp only; omega⟩
          dsimp only [buildCleanmap]
          rw [h1]
          split <;> ring
    · rename_i hc
      rw [if_neg (fun h => hc (hiff.1 h))]
      cases e
      exact ⟨s', rfl, h1, h2, h3, h4, h5, h6⟩

private theorem hogbom_unfold {n : Nat} {psf dirty : Nat → Nat → K} {gamma : K} {t : K} {niter : Int} {pk : Peak K}
    (h : findPeak n n dirty = .ok pk) {s : CleanState K}
    (hs : cleanLoop n psf gamma (t * |pk.intensity|) niter (niter + 1).toNat
      ⟨fun _ _ => 0, dirty, pk.maxx, pk.maxy, pk.intensity, 0⟩ = .ok s) :
    hogbomClean n n (2 * n) (2 * n) dirty psf gamma (some t) (some niter) = .ok (s.clean, s.residuals) := by
  unfold hogbomClean
  dsimp only
  rw [if_neg (by omega), if_neg (by omega), h]
  dsimp only [Option.getD]
  rw [hs]

theorem hogbom_loop {n : Nat} {psf dirty : Nat → Nat → K} {gamma : K} {t : K} {niter : Int} {pk : Peak K}
    (h : findPeak n n dirty = .ok pk) {r : (Nat → Nat → K) × (Nat → Nat → K)}
    (hr : hogbomClean n n (2 * n) (2 * n) dirty psf gamma (some t) (some niter) = .ok r) :
    ∃ s, cleanLoop n psf gamma (t * |pk.intensity|) niter (niter + 1).toNat
      ⟨fun _ _ => 0, dirty, pk.maxx, pk.maxy, pk.intensity, 0⟩ = .ok s ∧ r = (s.clean, s.residuals) := by
  unfold hogbomClean at hr
  dsimp only at hr
  rw [if_neg (by omega), if_neg (by omega), h] at hr
  dsimp only [Option.getD] at hr
  split at hr
  · cases hr
  · rename_i s hs
    cases hr
    exact ⟨s, hs, rfl⟩

/-! ### C153 -/

/-- **C153.** Cleaning the residual of a first run and adding the models is one longer run: `niter` of `a` and then of `b` do the
rounds of `a + b + 1`, when the second threshold is the same intensity as the first. -/
theorem C153_resume (n : Nat) (hn : 0 < n) (dirty psf clean residual clean' residual' : Nat → Nat → K) (gamma t t' : K) (a b : Nat)
    (p q p' q' : Nat) (hp : IsLargestAt n n dirty p q) (hp' : IsLargestAt n n residual p' q')
    (ht : t' * |residual p' q'| = t * |dirty p q|)
    (h1 : hogbomClean n n (2 * n) (2 * n) dirty psf gamma (some t) (some (a : Int)) = .ok (clean, residual))
    (h2 : hogbomClean n n (2 * n) (2 * n) residual psf gamma (some t') (some (b : Int)) = .ok (clean', residual')) :
    ∃ clean'', hogbomClean n n (2 * n) (2 * n) dirty psf gamma (some t) (some ((a : Int) + b + 1)) = .ok (clean'', residual') ∧
      ∀ x y, clean'' x y = clean x y + clean' x y := by
  obtain ⟨pk, e1, e2, _, e3, _⟩ := findPeak_spec n n dirty hn hn
  obtain ⟨pk', f1, f2, _, f3, _⟩ := findPeak_spec n n residual hn hn
  have v1 : dirty p q = pk.intensity := by
    rw [e3]
    exact le_antisymm (e2.2.2 p hp.1 q hp.2.1) (hp.2.2 _ e2.1 _ e2.2.1)
  have v2 : residual p' q' = pk'.intensity := by
    rw [f3]
    exact le_antisymm (f2.2.2 p' hp'.1 q' hp'.2.1) (hp'.2.2 _ f2.1 _ f2.2.1)
  rw [v1, v2] at ht
  obtain ⟨s, hs, es⟩ := hogbom_loop e1 h1
  obtain ⟨s', hs', es'⟩ := hogbom_loop f1 h2
  simp only [Prod.mk.injEq] at es es'
  obtain ⟨rfl, rfl⟩ := es
  obtain ⟨rfl, rfl⟩ := es'
  rw [ht] at hs'
  have hat : AtPeak n s := atPeak_loop _ ⟨pk, e1, rfl, rfl, rfl⟩ hs
  obtain ⟨pk2, g1, g2, g3, g4⟩ := hat
  rw [f1] at g1
  cases g1
  -- the long run starts with the first one
  have l1 := loop_limit (n := n) (psf := psf) (gamma := gamma) (threshold := t * |pk.intensity|) (a := (a : Int))
    (b := (a : Int) + b + 1) (by omega) ((a : Int) + 1).toNat ⟨fun _ _ => 0, dirty, pk.maxx, pk.maxy, pk.intensity, 0⟩
    (by push_cast; omega)
  rw [hs] at l1
  have l2 := loop_split (niter := (a : Int) + b + 1) ((a : Int) + 1).toNat ((b : Int) + 1).toNat l1.symm
  rw [show ((a : Int) + 1).toNat + ((b : Int) + 1).toNat = ((a : Int) + b + 1 + 1).toNat by omega] at l2
  -- and goes on with the second
  by_cases hstop : |s.intensity| > t * |pk.intensity|
  · have hi : s.i = a + 1 := by
      -- the loop used all its rounds
      have : ∀ (fuel : Nat) (u v : CleanState K), cleanLoop n psf gamma (t * |pk.intensity|) a fuel u = .ok v →
          (u.i : Int) + fuel = a + 1 → |v.intensity| > t * |pk.intensity| → v.i = a + 1 := by
        intro fuel
        induction fuel with
        | zero => intro u v h hu _; cases h; push_cast at hu; omega
        | succ fuel ih =>
          intro u v h hu hv
          rw [cleanLoop] at h
          split at h
          · cases hu' : cleanStep n psf gamma u with
            | error e => rw [hu'] at h; cases h
            | ok u' =>
              rw [hu'] at h
              exact ih u' v h (by rw [(atPeak_step hu').2]; push_cast at hu ⊢; omega) hv
          · rename_i hc
            cases h
            exact absurd ⟨hv, by push_cast at hu; omega⟩ hc
      exact this _ _ _ hs (by dsimp only; omega) hstop
    obtain ⟨r', hr', ha1, ha2, _⟩ := loop_ahead (niter := (b : Int)) (D := s.clean) (d := a + 1) ((b : Int) + 1).toNat
      (s := ⟨fun _ _ => 0, s.residuals, pk'.maxx, pk'.maxy, pk'.intensity, 0⟩) (s' := s)
      ⟨fun x y => by simp, rfl, g2.symm, g3.symm, g4.symm, by rw [hi]; simp⟩ hs'
    rw [show (b : Int) + ((a + 1 : Nat) : Int) = (a : Int) + b + 1 by push_cast; omega] at hr'
    rw [hr'] at l2
    refine ⟨r'.clean, ?_, ha1⟩
    rw [hogbom_unfold e1 l2, ha2]
  · have hn' : ¬ (|s.intensity| > t * |pk.intensity| ∧ (s.i : Int) ≤ (a : Int) + b + 1) := fun h => hstop h.1
    rw [loop_stopped _ hn'] at l2
    rw [loop_stopped _ (s := ⟨fun _ _ => 0, s.residuals, pk'.maxx, pk'.maxy, pk'.intensity, 0⟩)
      (fun h => hstop (by rw [← g4]; exact h.1))] at hs'
    cases hs'
    exact ⟨s.clean, hogbom_unfold e1 l2, fun x y => by simp⟩

/-- **C153.** Without a threshold every split of the rounds gives the same result. -/
theorem C153_splits (n : Nat) (hn : 0 < n) (dirty psf : Nat → Nat → K) (gamma : K) (a b : Nat) :
    ∃ clean residual clean' residual' clean'', hogbomClean n n (2 * n) (2 * n) dirty psf gamma (some 0) (some (a : Int)) = .ok (clean, residual) ∧
      hogbomClean n n (2 * n) (2 * n) residual psf gamma (some 0) (some (b : Int)) = .ok (clean', residual') ∧
      hogbomClean n n (2 * n) (2 * n) dirty psf gamma (some 0) (some ((a : Int) + b + 1)) = .ok (clean'', residual') ∧
      ∀ x y, clean'' x y = clean x y + clean' x y := by
  obtain ⟨clean, residual, _, p, q, h1, hp, _⟩ := hogbom_spec n hn dirty psf gamma (some 0) (some (a : Int))
  obtain ⟨clean', residual', _, p', q', h2, hp', _⟩ := hogbom_spec n hn residual psf gamma (some 0) (some (b : Int))
  obtain ⟨clean'', h3, h4⟩ := C153_resume n hn dirty psf clean residual clean' residual' gamma 0 0 a b p q p' q' hp hp' (by simp) h1 h2
  exact ⟨clean, residual, clean', residual', clean'', h1, h2, h3, h4⟩

/-- **C153.** A run that reached its threshold is finished: the same threshold does nothing to its residual. -/
theorem C153_finished (n : Nat) (hn : 0 < n) (dirty psf : Nat → Nat → K) (gamma t : K) (p q : Nat) (hp : IsLargestAt n n dirty p q)
    (ht : |dirty p q| ≤ t * |dirty p q|) (niter : Int) :
    ∃ clean, hogbomClean n n (2 * n) (2 * n) dirty psf gamma (some t) (some niter) = .ok (clean, dirty) ∧
      ∀ x y, clean x y = 0 := by
  obtain ⟨pk, e1, e2, _, e3, _⟩ := findPeak_spec n n dirty hn hn
  have v1 : dirty p q = pk.intensity := by
    rw [e3]
    exact le_antisymm (e2.2.2 p hp.1 q hp.2.1) (hp.2.2 _ e2.1 _ e2.2.1)
  rw [v1] at ht
  refine ⟨fun _ _ => 0, ?_, fun _ _ => rfl⟩
  exact hogbom_unfold e1 (loop_stopped _ (fun h => absurd h.1 (not_lt.2 ht)))

/-- A single pixel of 4, cleaned with gain 1/2 twice for one round: 2 and then 1 are moved to the model. -/
example : ∃ clean residual clean' residual' clean'' : Nat → Nat → ℚ,
    hogbomClean 1 1 2 2 (fun _ _ => 4) (fun _ _ => 1) (1 / 2) (some 0) (some (0 : Nat)) = .ok (clean, residual) ∧
    hogbomClean 1 1 2 2 residual (fun _ _ => 1) (1 / 2) (some 0) (some (0 : Nat)) = .ok (clean', residual') ∧
    hogbomClean 1 1 2 2 (fun _ _ => 4) (fun _ _ => 1) (1 / 2) (some 0) (some (((0 : Nat) : Int) + (0 : Nat) + 1)) = .ok (clean'', residual') ∧
    ∀ x y, clean'' x y = clean x y + clean' x y :=
  C153_splits 1 (by omega) (fun _ _ => (4 : ℚ)) (fun _ _ => 1) (1 / 2) 0 0

end Verif.Deconv
