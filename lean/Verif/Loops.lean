/-
Facts about `for` loops that accumulate sums, shared by the numerical kernels.
-/
import Verif.Basic
import Mathlib.Algebra.BigOperators.Group.Finset.Basic
import Mathlib.Algebra.BigOperators.Intervals

set_option autoImplicit false

namespace Verif

/-- If every iteration adds `g i` to an observation of the state, the loop adds the sum. -/
theorem forRange_sum {σ M : Type*} [AddCommMonoid M] {n : Nat} {init : σ} {f : Nat → σ → σ}
    (obs : σ → M) (g : Nat → M) (h : ∀ i < n, ∀ s, obs (f i s) = obs s + g i) :
    obs (forRange n init f) = obs init + ∑ i ∈ Finset.range n, g i := by
  refine forRange_inv (P := fun k s => obs s = obs init + ∑ i ∈ Finset.range k, g i) (by simp) ?_
  intro i s hi hP
  rw [h i hi, hP, Finset.sum_range_succ, add_assoc]

/-- If every iteration before `n` leaves an observation alone, so does the loop. -/
theorem forRange_const {σ M : Type*} {n : Nat} {init : σ} {f : Nat → σ → σ}
    (obs : σ → M) (h : ∀ i < n, ∀ s, obs (f i s) = obs s) :
    obs (forRange n init f) = obs init :=
  forRange_inv (P := fun _ s => obs s = obs init) rfl fun i s hi hP => by rw [h i hi, hP]

/-- If exactly iteration `k` acts on an observation, by `F`, the loop acts on it by `F`. -/
theorem forRange_single {σ M : Type*} {n : Nat} {init : σ} {f : Nat → σ → σ}
    (obs : σ → M) (k : Nat) (hk : k < n) (F : M → M) (hF : ∀ s, obs (f k s) = F (obs s))
    (h : ∀ i < n, i ≠ k → ∀ s, obs (f i s) = obs s) :
    obs (forRange n init f) = F (obs init) := by
  have := forRange_inv (n := n) (init := init) (f := f)
    (P := fun j s => obs s = if k < j then F (obs init) else obs init) (by simp) (by
      intro i s hi hP
      by_cases hik : i = k
      · subst hik
        rw [hF, hP]
        simp
      · rw [h i hi hik, hP]
        have : k < i ↔ k < i + 1 := by omega
        simp [this])
  rw [this, if_pos hk]

/-- Two loops with pointwise related bodies stay related. -/
theorem forRange_rel {σ τ : Type*} {n : Nat} {s : σ} {t : τ} {f : Nat → σ → σ} {g : Nat → τ → τ}
    (R : σ → τ → Prop) (h0 : R s t) (h : ∀ i < n, ∀ s t, R s t → R (f i s) (g i t)) :
    R (forRange n s f) (forRange n t g) := by
  have : ∀ k ≤ n, R (forRange k s f) (forRange k t g) := by
    intro k
    induction k with
    | zero => intro _; simpa using h0
    | succ k ih =>
      intro hk
      rw [forRange_succ, forRange_succ]
      exact h k (by omega) _ _ (ih (by omega))
  exact this n le_rfl

/-- Two loops with bodies that agree below the bound agree. -/
theorem forRange_congr {σ : Type*} {n : Nat} {s : σ} {f g : Nat → σ → σ}
    (h : ∀ i < n, ∀ s, f i s = g i s) : forRange n s f = forRange n s g :=
  forRange_rel Eq rfl fun i hi s t hst => by rw [hst, h i hi]

/-- Loop-invariant rule for two nested loops; `P x y` holds before iteration `y` of the inner loop of iteration `x`. -/
theorem forRange2_inv {σ : Type*} {nx ny : Nat} {init : σ} {f : Nat → Nat → σ → σ} (P : Nat → Nat → σ → Prop)
    (h0 : P 0 0 init) (hs : ∀ x y s, x < nx → y < ny → P x y s → P x (y + 1) (f x y s))
    (hr : ∀ x s, x < nx → P x ny s → P (x + 1) 0 s) :
    P nx 0 (forRange nx init fun x s => forRange ny s fun y s => f x y s) := by
  refine forRange_inv (P := fun x s => P x 0 s) h0 ?_
  intro x s hx h
  exact hr x _ hx (forRange_inv (P := fun y s => P x y s) h fun y s hy hP => hs x y s hx hy hP)

end Verif
