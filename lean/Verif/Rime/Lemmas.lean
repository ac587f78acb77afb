/-
Kernel laws and the pointwise value of predict_vis.
-/
import Verif.Rime.Model
import Verif.Rime.Spec
import Verif.Loops
import Mathlib.LinearAlgebra.Matrix.ConjTranspose

set_option autoImplicit false
set_option linter.unusedSectionVars false

namespace Verif.Rime

open Function

theorem upd2_same {V : Type*} (a : Nat → Nat → V) (r f : Nat) (x : V) : upd2 a r f x r f = x := by
  simp [upd2]

theorem upd2_ne {V : Type*} (a : Nat → Nat → V) (r f r' f' : Nat) (x : V) (h : r' ≠ r ∨ f' ≠ f) :
    upd2 a r f x r' f' = a r' f' := by
  unfold upd2
  by_cases hr : r' = r
  · subst hr
    rcases h with h | h
    · exact absurd rfl h
    · simp [h]
  · simp [hr]

/-- A loop over rows and channels that rewrites each cell once. -/
theorem grid_loop {V : Type*} {nrow nchan : Nat} {out : Nat → Nat → V} {F : Nat → Nat → V → V}
    {r f : Nat} (hr : r < nrow) (hf : f < nchan) :
    forRange nrow out (fun r out => forRange nchan out fun f out => upd2 out r f (F r f (out r f))) r f =
      F r f (out r f) := by
  refine forRange_single (fun o : Nat → Nat → V => o r f) r hr (F r f) ?_ ?_
  · intro s
    refine forRange_single (fun o : Nat → Nat → V => o r f) f hf (F r f) ?_ ?_
    · intro s; exact upd2_same _ _ _ _
    · intro i _ hi s; exact upd2_ne _ _ _ _ _ _ (Or.inr (Ne.symm hi))
  · intro i _ hi s
    refine forRange_const (fun o : Nat → Nat → V => o r f) ?_
    intro j _ s; exact upd2_ne _ _ _ _ _ _ (Or.inl (Ne.symm hi))

/-- What an observation `φ` of a cell must satisfy for the kernel to compute the RIME. -/
structure Laws {V R : Type*} [Ring R] [StarRing R] (k : Kernel V) (φ : V → R) : Prop where
  zero : φ k.zero = 0
  ddeCoh : ∀ a b c o, φ (k.ddeCoh a b c o) = φ o + φ a * φ b * star (φ c)
  dde : ∀ a c o, φ (k.dde a c o) = φ o + φ a * star (φ c)
  coh : ∀ b o, φ (k.coh b o) = φ o + φ b
  addVis : ∀ b o, φ (k.addVis b o) = φ o + φ b
  dies : ∀ a c o, φ (k.dies a c o) = φ a * φ o * star (φ c)

section laws
variable {K : Type*} [CommRing K] [StarRing K]

theorem update_loop {ncorr c : Nat} (hc : c < ncorr) (out : Nat → K) (F : Nat → K → K) :
    forRange ncorr out (fun c out => update out c (F c (out c))) c = F c (out c) := by
  refine forRange_single (fun o : Nat → K => o c) c hc (F c) ?_ ?_
  · intro s; simp
  · intro i _ hi s; simp [Ne.symm hi]

theorem diag_laws {ncorr c : Nat} (hc : c < ncorr) :
    Laws (diagKernel (K := K) ncorr) (fun v => v c) where
  zero := rfl
  ddeCoh a b d o := update_loop hc o fun c x => x + a c * b c * star (d c)
  dde a d o := update_loop hc o fun c x => x + a c * star (d c)
  coh b o := update_loop hc o fun c x => x + b c
  addVis _ _ := rfl
  dies a d o := update_loop hc o fun c x => a c * x * star (d c)

set_option maxHeartbeats 2000000 in
theorem full_laws : Laws (fullKernel (K := K)) (fun v : M2 K => v) where
  zero := rfl
  ddeCoh a b d o := by
    ext i j
    simp only [fullKernel, fullDdeCoh, fullRhs, Matrix.star_eq_conjTranspose, Matrix.add_apply,
      Matrix.mul_apply, Fin.sum_univ_two, Matrix.conjTranspose_apply]
    fin_cases i <;> fin_cases j <;> simp <;> ring
  dde a d o := by
    ext i j
    simp only [fullKernel, fullDde, Matrix.star_eq_conjTranspose, Matrix.add_apply,
      Matrix.mul_apply, Fin.sum_univ_two, Matrix.conjTranspose_apply]
    fin_cases i <;> fin_cases j <;> simp
  coh b o := by
    ext i j
    fin_cases i <;> fin_cases j <;> rfl
  addVis _ _ := rfl
  dies a d o := by
    ext i j
    simp only [fullKernel, fullDies, fullRhs, Matrix.star_eq_conjTranspose,
      Matrix.mul_apply, Fin.sum_univ_two, Matrix.conjTranspose_apply]
    fin_cases i <;> fin_cases j <;> simp <;> ring

end laws

theorem timeMin_spec {n : Nat} {time : Nat → Nat} {m : Nat} (hm : IsMin n time m) :
    timeMin n time = .ok m := by
  obtain ⟨⟨r, hr, hrm⟩, hle⟩ := hm
  cases n with
  | zero => omega
  | succ n =>
    refine congrArg Except.ok ?_
    have := forRange_inv (n := n) (init := time 0) (f := fun i a => min a (time (i + 1)))
      (P := fun k a => (∃ r ≤ k, time r = a) ∧ ∀ r ≤ k, a ≤ time r)
      ⟨⟨0, le_rfl, rfl⟩, fun r hr => by rw [Nat.le_zero.1 hr]⟩ (by
        intro i a hi ⟨⟨r, hr, h1⟩, h2⟩
        constructor
        · rcases le_total a (time (i + 1)) with h | h
          · exact ⟨r, by omega, by rw [min_eq_left h, h1]⟩
          · exact ⟨i + 1, le_rfl, by rw [min_eq_right h]⟩
        · intro r' hr'
          rcases Nat.lt_or_ge i r' with h | h
          · have : r' = i + 1 := by omega
            subst this
            exact min_le_right _ _
          · exact le_trans (min_le_left _ _) (h2 r' h))
    obtain ⟨⟨r', hr', h1⟩, h2⟩ := this
    apply le_antisymm
    · rw [← hrm]; exact h2 r (by omega)
    · rw [← h1]; exact hle r' (by omega)

theorem exists_min {n : Nat} (time : Nat → Nat) (hn : 0 < n) : ∃ m, IsMin n time m := by
  induction n with
  | zero => omega
  | succ n ih =>
    rcases Nat.eq_zero_or_pos n with h0 | h0
    · subst h0
      exact ⟨time 0, ⟨0, by omega, rfl⟩, fun r hr => by rw [show r = 0 by omega]⟩
    · obtain ⟨m, ⟨r, hr, h1⟩, h2⟩ := ih h0
      rcases le_total m (time n) with h | h
      · refine ⟨m, ⟨r, by omega, h1⟩, fun r' hr' => ?_⟩
        rcases Nat.lt_or_ge r' n with h' | h'
        · exact h2 r' h'
        · rwa [show r' = n by omega]
      · refine ⟨time n, ⟨n, by omega, rfl⟩, fun r' hr' => ?_⟩
        rcases Nat.lt_or_ge r' n with h' | h'
        · exact le_trans h (h2 r' h')
        · rw [show r' = n by omega]

section value
variable {V R : Type*} [Ring R] [StarRing R] {k : Kernel V} {φ : V → R}

/-- The terms seen by one row and channel. -/
def Terms.ddeAt (x : Terms V) (φ : V → R) (ti p q f : Nat) : Option ((Nat → R) × (Nat → R)) :=
  x.dde.map fun e => (fun s => φ (e.1 s ti p f), fun s => φ (e.2 s ti q f))

/-- The coherencies seen by one row and channel. -/
def Terms.cohAt (x : Terms V) (φ : V → R) (r f : Nat) : Option (Nat → R) :=
  x.coh.map fun b s => φ (b s r f)

/-- The base visibility seen by one row and channel. -/
def Terms.bvisAt (x : Terms V) (φ : V → R) (r f : Nat) : Option R := x.bvis.map fun b => φ (b r f)

/-- The DIEs seen by one row and channel. -/
def Terms.dieAt (x : Terms V) (φ : V → R) (ti p q f : Nat) : Option (R × R) :=
  x.die.map fun g => (φ (g.1 ti p f), φ (g.2 ti q f))

theorem sumCoh_value (h : Laws k φ) {nsrc nrow nchan : Nat} {time ant1 ant2 : Nat → Nat} {tmin : Nat}
    {x : Terms V} {out : Nat → Nat → V} {r f : Nat} (hr : r < nrow) (hf : f < nchan) :
    φ (sumCoh k nsrc nrow nchan time ant1 ant2 tmin x out r f) = φ (out r f) +
      (if (x.ddeAt φ (time r - tmin) (ant1 r) (ant2 r) f).isNone ∧ (x.cohAt φ r f).isNone then 0 else
        ∑ s ∈ Finset.range nsrc,
          ((x.ddeAt φ (time r - tmin) (ant1 r) (ant2 r) f).elim 1 fun e => e.1 s) *
          ((x.cohAt φ r f).elim 1 fun x => x s) *
          star ((x.ddeAt φ (time r - tmin) (ant1 r) (ant2 r) f).elim 1 fun e => e.2 s)) := by
  obtain ⟨dde, coh, die, bvis⟩ := x
  unfold sumCoh Terms.ddeAt Terms.cohAt
  rcases dde with _ | ⟨a1j, a2j⟩ <;> rcases coh with _ | blj
  · simp
  · simp only [Option.map_none, Option.map_some, Option.isNone_none, Option.isNone_some,
      Bool.false_eq_true, and_false, if_false, Option.elim_none, Option.elim_some, one_mul, star_one, mul_one]
    refine forRange_sum (fun o : Nat → Nat → V => φ (o r f)) _ fun s _ o => ?_
    rw [grid_loop (F := fun r f v => k.coh (blj s r f) v) hr hf, h.coh]
  · simp only [Option.map_none, Option.map_some, Option.isNone_none, Option.isNone_some,
      Bool.false_eq_true, false_and, if_false, Option.elim_none, Option.elim_some, mul_one]
    refine forRange_sum (fun o : Nat → Nat → V => φ (o r f)) _ fun s _ o => ?_
    rw [grid_loop (F := fun r f v => k.dde (a1j s (time r - tmin) (ant1 r) f)
      (a2j s (time r - tmin) (ant2 r) f) v) hr hf, h.dde]
  · simp only [Option.map_some, Option.isNone_some,
      Bool.false_eq_true, and_false, if_false, Option.elim_some]
    refine forRange_sum (fun o : Nat → Nat → V => φ (o r f)) _ fun s _ o => ?_
    rw [grid_loop (F := fun r f v => k.ddeCoh (a1j s (time r - tmin) (ant1 r) f) (blj s r f)
      (a2j s (time r - tmin) (ant2 r) f) v) hr hf, h.ddeCoh]

/-- Something is supplied. -/
def Terms.nonempty (x : Terms V) : Prop :=
  x.dde.isSome ∨ x.coh.isSome ∨ x.die.isSome ∨ x.bvis.isSome

theorem predict_value (h : Laws k φ) {nsrc nrow nchan : Nat} {time ant1 ant2 : Nat → Nat} {tmin : Nat}
    (hm : IsMin nrow time tmin) {x : Terms V} (hx : x.nonempty) :
    ∃ out, predictVis k nsrc nrow nchan time ant1 ant2 x = .ok out ∧
      ∀ r < nrow, ∀ f < nchan, φ (out r f) =
        rime nsrc (x.ddeAt φ (time r - tmin) (ant1 r) (ant2 r) f) (x.cohAt φ r f) (x.bvisAt φ r f)
          (x.dieAt φ (time r - tmin) (ant1 r) (ant2 r) f) := by
  unfold predictVis
  rw [timeMin_spec hm, if_neg]
  · refine ⟨_, rfl, ?_⟩
    intro r hr f hf
    unfold rime
    have hs := sumCoh_value h (nsrc := nsrc) (time := time) (ant1 := ant1) (ant2 := ant2) (tmin := tmin)
      (x := x) (out := fun _ _ => k.zero) hr hf
    rw [h.zero, zero_add] at hs
    have ha : φ (addCoh k x (sumCoh k nsrc nrow nchan time ant1 ant2 tmin x fun _ _ => k.zero) r f) =
        (x.bvisAt φ r f).getD 0 +
          φ (sumCoh k nsrc nrow nchan time ant1 ant2 tmin x (fun _ _ => k.zero) r f) := by
      unfold addCoh Terms.bvisAt
      cases x.bvis with
      | none => simp
      | some b =>
        simp only [Option.map_some, Option.getD_some]
        rw [h.addVis, add_comm]
    simp only
    rw [← hs, ← ha]
    unfold applyDies Terms.dieAt
    rcases x.die with _ | ⟨g1, g2⟩
    · simp
    · simp only [Option.map_some, Option.elim_some]
      rw [grid_loop (F := fun r f v => k.dies (g1 (time r - tmin) (ant1 r) f)
        (g2 (time r - tmin) (ant2 r) f) v) hr hf, h.dies]
  · obtain ⟨dde, coh, die, bvis⟩ := x
    unfold Terms.nonempty at hx
    cases dde <;> cases coh <;> cases die <;> cases bvis <;> simp_all

end value

end Verif.Rime
