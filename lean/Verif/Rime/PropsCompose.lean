/-
C143: how calls of predict_vis and apply_gains compose.
-/
import Verif.Rime.Props
import Mathlib.Algebra.Algebra.Pi
import Mathlib.Data.Matrix.Basic
import Mathlib.Algebra.BigOperators.Intervals
import Mathlib.Tactic.IntervalCases
import Mathlib.Logic.Equiv.Basic

set_option autoImplicit false

namespace Verif.Rime

section lemmas
variable {V : Type*} {k : Kernel V}

theorem predict_ok {nsrc nrow nchan : Nat} {time ant1 ant2 : Nat → Nat} {tmin : Nat}
    (hm : IsMin nrow time tmin) {x : Terms V} (hx : x.nonempty) :
    ∃ out, predictVis k nsrc nrow nchan time ant1 ant2 x = .ok out := by
  unfold predictVis
  rw [timeMin_spec hm, if_neg]
  · exact ⟨_, rfl⟩
  · unfold Terms.nonempty at hx
    cases h1 : x.dde <;> cases h2 : x.coh <;> cases h3 : x.die <;> cases h4 : x.bvis <;> simp_all

theorem predict_eq {R : Type*} [Ring R] [StarRing R] {φ : V → R} (h : Laws k φ) {nsrc nrow nchan : Nat}
    {time ant1 ant2 : Nat → Nat} {tmin : Nat} (hm : IsMin nrow time tmin) {x : Terms V} (hx : x.nonempty)
    {out : Nat → Nat → V} (ho : predictVis k nsrc nrow nchan time ant1 ant2 x = .ok out) {r f : Nat} (hr : r < nrow)
    (hf : f < nchan) : φ (out r f) =
        rime nsrc (x.ddeAt φ (time r - tmin) (ant1 r) (ant2 r) f) (x.cohAt φ r f) (x.bvisAt φ r f)
          (x.dieAt φ (time r - tmin) (ant1 r) (ant2 r) f) := by
  obtain ⟨out', h1, h2⟩ := predict_value h (nsrc := nsrc) (nchan := nchan) (ant1 := ant1) (ant2 := ant2) hm hx
  rw [ho] at h1
  cases h1
  exact h2 r hr f hf

end lemmas

/-- The sources from `a` on. -/
def Terms.drop {V : Type*} (x : Terms V) (a : Nat) : Terms V :=
  { x with dde := x.dde.map fun e => (fun s => e.1 (a + s), fun s => e.2 (a + s)), coh := x.coh.map fun b s => b (a + s) }

/-- The sources in another order. -/
def Terms.reorder {V : Type*} (x : Terms V) (σ : Nat → Nat) : Terms V :=
  { x with dde := x.dde.map fun e => (fun s => e.1 (σ s), fun s => e.2 (σ s)), coh := x.coh.map fun b s => b (σ s) }

/-- The arrays by row for the rows `ρ 0, ρ 1, ...`. -/
def Terms.rows {V : Type*} (x : Terms V) (ρ : Nat → Nat) : Terms V :=
  { x with coh := x.coh.map fun b s r => b s (ρ r), bvis := x.bvis.map fun b r => b (ρ r) }

/-- With other base visibilities. -/
def Terms.withBase {V : Type*} (x : Terms V) (v : Nat → Nat → V) : Terms V := { x with bvis := some v }

/-- Without DIEs. -/
def Terms.noDie {V : Type*} (x : Terms V) : Terms V := { x with die := none }

section algebra
variable {R : Type*} [Ring R] [StarRing R]

theorem rime_split (a b : Nat) (E : Option ((Nat → R) × (Nat → R))) (X : Option (Nat → R)) (B : Option R) (G : Option (R × R)) :
    rime (a + b) E X B G = rime b (E.map fun e => (fun s => e.1 (a + s), fun s => e.2 (a + s))) (X.map fun x s => x (a + s))
      (some (rime a E X B none)) G := by
  unfold rime
  cases E <;> cases X <;> simp [Finset.sum_range_add, add_assoc]

theorem rime_die (n : Nat) (E : Option ((Nat → R) × (Nat → R))) (X : Option (Nat → R)) (B : Option R) (g : R × R) :
    rime n E X B (some g) = rime 0 none none (some (rime n E X B none)) (some g) := by
  unfold rime
  cases E <;> cases X <;> simp

theorem rime_die_dde (n : Nat) (e : (Nat → R) × (Nat → R)) (X : Option (Nat → R)) (g : R × R) :
    rime n (some e) X none (some g) = rime n (some (fun s => g.1 * e.1 s, fun s => g.2 * e.2 s)) X none none := by
  unfold rime
  cases X <;> simp [Finset.mul_sum, Finset.sum_mul, mul_assoc]

theorem rime_die_coh (n : Nat) (X : Nat → R) (g : R × R) :
    rime n none (some X) none (some g) = rime n (some (fun _ => g.1, fun _ => g.2)) (some X) none none := by
  unfold rime
  simp [Finset.mul_sum, Finset.sum_mul, mul_assoc]

theorem rime_perm (n : Nat) (σ : Equiv.Perm Nat) (hσ : ∀ s, σ s < n ↔ s < n) (E : Option ((Nat → R) × (Nat → R)))
    (X : Option (Nat → R)) (B : Option R) (G : Option (R × R)) :
    rime n (E.map fun e => (fun s => e.1 (σ s), fun s => e.2 (σ s))) (X.map fun x s => x (σ s)) B G = rime n E X B G := by
  have h : ∀ F : Nat → R, ∑ s ∈ Finset.range n, F (σ s) = ∑ s ∈ Finset.range n, F s := by
    intro F
    refine Finset.sum_equiv σ (fun s => ?_) (fun _ _ => rfl)
    simp [hσ]
  unfold rime
  cases E with
  | none =>
    cases X with
    | none => rfl
    | some x => simp only [Option.map_some, Option.map_none, Option.isNone_some, Option.isNone_none, Option.elim_some,
        Option.elim_none, h (fun s => 1 * x s * star 1)]
  | some e =>
    cases X with
    | none => simp only [Option.map_some, Option.map_none, Option.isNone_some, Option.isNone_none, Option.elim_some,
        Option.elim_none, h (fun s => e.1 s * 1 * star (e.2 s))]
    | some x => simp only [Option.map_some, Option.isNone_some, Option.elim_some, h (fun s => e.1 s * x s * star (e.2 s))]

variable {K : Type*} [CommRing K] [Algebra K R]

theorem rime_linear (n : Nat) (E : Option ((Nat → R) × (Nat → R))) (X X' : Nat → R) (B B' : R) (G : Option (R × R)) (a b : K) :
    rime n E (some fun s => a • X s + b • X' s) (some (a • B + b • B')) G =
      a • rime n E (some X) (some B) G + b • rime n E (some X') (some B') G := by
  unfold rime
  cases E <;> cases G <;>
    simp [mul_add, add_mul, Finset.sum_add_distrib, ← Finset.smul_sum, smul_add, add_add_add_comm]

end algebra

section obs
universe u
variable {K : Type u} {V : Type*} [CommRing K] {k : Kernel V}
variable {nsrc nrow nchan : Nat} {time ant1 ant2 : Nat → Nat} {tmin : Nat} (hm : IsMin nrow time tmin)

include hm

theorem split_obs (a b : Nat) (x : Terms V) (hx : x.dde.isSome ∨ x.coh.isSome ∨ x.bvis.isSome) :
    ∃ v v1 v2, predictVis k (a + b) nrow nchan time ant1 ant2 x = .ok v ∧
      predictVis k a nrow nchan time ant1 ant2 x.noDie = .ok v1 ∧
      predictVis k b nrow nchan time ant1 ant2 ((x.drop a).withBase v1) = .ok v2 ∧
      ∀ {R : Type u} [Ring R] [StarRing R] (φ : V → R), Laws k φ → ∀ r < nrow, ∀ f < nchan, φ (v r f) = φ (v2 r f) := by
  have n0 : x.nonempty := by unfold Terms.nonempty; tauto
  have n1 : x.noDie.nonempty := by unfold Terms.nonempty Terms.noDie; simp only; tauto
  obtain ⟨v, h⟩ := predict_ok (k := k) (nsrc := a + b) (nchan := nchan) (ant1 := ant1) (ant2 := ant2) hm n0
  obtain ⟨v1, h1⟩ := predict_ok (k := k) (nsrc := a) (nchan := nchan) (ant1 := ant1) (ant2 := ant2) hm n1
  have n2 : ((x.drop a).withBase v1).nonempty := by unfold Terms.nonempty Terms.withBase; simp
  obtain ⟨v2, h2⟩ := predict_ok (k := k) (nsrc := b) (nchan := nchan) (ant1 := ant1) (ant2 := ant2) hm n2
  refine ⟨v, v1, v2, h, h1, h2, fun φ hφ r hr f hf => ?_⟩
  rw [predict_eq hφ hm n0 h hr hf, predict_eq hφ hm n2 h2 hr hf, rime_split]
  simp only [Terms.ddeAt, Terms.cohAt, Terms.bvisAt, Terms.dieAt, Terms.withBase, Terms.drop, Option.map_map, Option.map_some]
  rw [predict_eq hφ hm n1 h1 hr hf]
  rfl

theorem die_obs (x : Terms V) (g : (Nat → Nat → Nat → V) × (Nat → Nat → Nat → V)) (hg : x.die = some g)
    (hx : x.dde.isSome ∨ x.coh.isSome ∨ x.bvis.isSome) :
    ∃ v v1 v2, predictVis k nsrc nrow nchan time ant1 ant2 x = .ok v ∧
      predictVis k nsrc nrow nchan time ant1 ant2 x.noDie = .ok v1 ∧
      applyGains k nrow nchan time ant1 ant2 g.1 v1 g.2 = .ok v2 ∧
      ∀ {R : Type u} [Ring R] [StarRing R] (φ : V → R), Laws k φ → ∀ r < nrow, ∀ f < nchan, φ (v r f) = φ (v2 r f) := by
  have n0 : x.nonempty := by unfold Terms.nonempty; tauto
  have n1 : x.noDie.nonempty := by unfold Terms.nonempty Terms.noDie; simp only; tauto
  obtain ⟨v, h⟩ := predict_ok (k := k) (nsrc := nsrc) (nchan := nchan) (ant1 := ant1) (ant2 := ant2) hm n0
  obtain ⟨v1, h1⟩ := predict_ok (k := k) (nsrc := nsrc) (nchan := nchan) (ant1 := ant1) (ant2 := ant2) hm n1
  have n2 : (Terms.mk none none (some (g.1, g.2)) (some v1) : Terms V).nonempty := by unfold Terms.nonempty; simp
  obtain ⟨v2, h2⟩ := predict_ok (k := k) (nsrc := 0) (nchan := nchan) (ant1 := ant1) (ant2 := ant2) hm n2
  refine ⟨v, v1, v2, h, h1, h2, fun φ hφ r hr f hf => ?_⟩
  rw [predict_eq hφ hm n0 h hr hf, predict_eq hφ hm n2 h2 hr hf]
  simp only [Terms.dieAt, hg, Option.map_some]
  rw [rime_die]
  simp only [Terms.ddeAt, Terms.cohAt, Terms.bvisAt, Option.map_none, Option.map_some]
  rw [predict_eq hφ hm n1 h1 hr hf]
  rfl

theorem perm_obs (x : Terms V) (hx : x.nonempty) (σ : Equiv.Perm Nat) (hσ : ∀ s, σ s < nsrc ↔ s < nsrc) :
    ∃ v v', predictVis k nsrc nrow nchan time ant1 ant2 x = .ok v ∧
      predictVis k nsrc nrow nchan time ant1 ant2 (x.reorder σ) = .ok v' ∧
      ∀ {R : Type u} [Ring R] [StarRing R] (φ : V → R), Laws k φ → ∀ r < nrow, ∀ f < nchan, φ (v' r f) = φ (v r f) := by
  have n1 : (x.reorder σ).nonempty := by unfold Terms.nonempty Terms.reorder at *; simpa using hx
  obtain ⟨v, h⟩ := predict_ok (k := k) (nsrc := nsrc) (nchan := nchan) (ant1 := ant1) (ant2 := ant2) hm hx
  obtain ⟨v', h'⟩ := predict_ok (k := k) (nsrc := nsrc) (nchan := nchan) (ant1 := ant1) (ant2 := ant2) hm n1
  refine ⟨v, v', h, h', fun φ hφ r hr f hf => ?_⟩
  rw [predict_eq hφ hm hx h hr hf, ← rime_perm nsrc σ hσ, predict_eq hφ hm n1 h' hr hf]
  simp only [Terms.ddeAt, Terms.cohAt, Terms.bvisAt, Terms.dieAt, Terms.reorder, Option.map_map]
  rfl

theorem rows_obs (x : Terms V) (hx : x.nonempty) (m : Nat) (ρ : Nat → Nat) (hρ : ∀ r < m, ρ r < nrow)
    (hmin : IsMin m (fun r => time (ρ r)) tmin) :
    ∃ v v', predictVis k nsrc nrow nchan time ant1 ant2 x = .ok v ∧
      predictVis k nsrc m nchan (fun r => time (ρ r)) (fun r => ant1 (ρ r)) (fun r => ant2 (ρ r)) (x.rows ρ) = .ok v' ∧
      ∀ {R : Type u} [Ring R] [StarRing R] (φ : V → R), Laws k φ → ∀ r < m, ∀ f < nchan, φ (v' r f) = φ (v (ρ r) f) := by
  have n1 : (x.rows ρ).nonempty := by unfold Terms.nonempty Terms.rows at *; simpa using hx
  obtain ⟨v, h⟩ := predict_ok (k := k) (nsrc := nsrc) (nchan := nchan) (ant1 := ant1) (ant2 := ant2) hm hx
  obtain ⟨v', h'⟩ := predict_ok (k := k) (nsrc := nsrc) (nchan := nchan) (ant1 := fun r => ant1 (ρ r))
    (ant2 := fun r => ant2 (ρ r)) hmin n1
  refine ⟨v, v', h, h', fun φ hφ r hr f hf => ?_⟩
  rw [predict_eq hφ hm hx h (hρ r hr) hf, predict_eq hφ hmin n1 h' hr hf]
  simp only [Terms.ddeAt, Terms.cohAt, Terms.bvisAt, Terms.dieAt, Terms.rows, Option.map_map]
  rfl

theorem dde_obs [Mul V] (e g1 : (Nat → Nat → Nat → Nat → V) × (Nat → Nat → Nat → Nat → V))
    (coh : Option (Nat → Nat → Nat → V)) (g : (Nat → Nat → Nat → V) × (Nat → Nat → Nat → V)) (hg : g1 = (fun s t a f => g.1 t a f * e.1 s t a f, fun s t a f => g.2 t a f * e.2 s t a f)) :
    ∃ v v', predictVis k nsrc nrow nchan time ant1 ant2 ⟨some e, coh, some g, none⟩ = .ok v ∧
      predictVis k nsrc nrow nchan time ant1 ant2 ⟨some g1, coh, none, none⟩ = .ok v' ∧
      ∀ {R : Type u} [Ring R] [StarRing R] (φ : V → R), Laws k φ → (∀ a b, φ (a * b) = φ a * φ b) →
        ∀ r < nrow, ∀ f < nchan, φ (v' r f) = φ (v r f) := by
  subst hg
  have n0 : (Terms.mk (some e) coh (some g) none : Terms V).nonempty := by unfold Terms.nonempty; simp
  have n1 : (Terms.mk (some (fun s t a f => g.1 t a f * e.1 s t a f, fun s t a f => g.2 t a f * e.2 s t a f)) coh none none :
    Terms V).nonempty := by unfold Terms.nonempty; simp
  obtain ⟨v, h⟩ := predict_ok (k := k) (nsrc := nsrc) (nchan := nchan) (ant1 := ant1) (ant2 := ant2) hm n0
  obtain ⟨v', h'⟩ := predict_ok (k := k) (nsrc := nsrc) (nchan := nchan) (ant1 := ant1) (ant2 := ant2) hm n1
  refine ⟨v, v', h, h', fun φ hφ hmul r hr f hf => ?_⟩
  rw [predict_eq hφ hm n0 h hr hf, predict_eq hφ hm n1 h' hr hf]
  simp only [Terms.ddeAt, Terms.cohAt, Terms.bvisAt, Terms.dieAt, Option.map_some, Option.map_none]
  rw [rime_die_dde]
  simp only [hmul]

theorem coh_obs (coh : Nat → Nat → Nat → V) (g : (Nat → Nat → Nat → V) × (Nat → Nat → Nat → V)) :
    ∃ v v', predictVis k nsrc nrow nchan time ant1 ant2 ⟨none, some coh, some g, none⟩ = .ok v ∧
      predictVis k nsrc nrow nchan time ant1 ant2 ⟨some (fun _ => g.1, fun _ => g.2), some coh, none, none⟩ = .ok v' ∧
      ∀ {R : Type u} [Ring R] [StarRing R] (φ : V → R), Laws k φ →
        ∀ r < nrow, ∀ f < nchan, φ (v' r f) = φ (v r f) := by
  have n0 : (Terms.mk none (some coh) (some g) none : Terms V).nonempty := by unfold Terms.nonempty; simp
  have n1 : (Terms.mk (some (fun _ => g.1, fun _ => g.2)) (some coh) none none :
    Terms V).nonempty := by unfold Terms.nonempty; simp
  obtain ⟨v, h⟩ := predict_ok (k := k) (nsrc := nsrc) (nchan := nchan) (ant1 := ant1) (ant2 := ant2) hm n0
  obtain ⟨v', h'⟩ := predict_ok (k := k) (nsrc := nsrc) (nchan := nchan) (ant1 := ant1) (ant2 := ant2) hm n1
  refine ⟨v, v', h, h', fun φ hφ r hr f hf => ?_⟩
  rw [predict_eq hφ hm n0 h hr hf, predict_eq hφ hm n1 h' hr hf]
  simp only [Terms.ddeAt, Terms.cohAt, Terms.bvisAt, Terms.dieAt, Option.map_some, Option.map_none]
  rw [rime_die_coh]

theorem linear_obs [Ring V] [Algebra K V] (dde : Option ((Nat → Nat → Nat → Nat → V) × (Nat → Nat → Nat → Nat → V)))
    (die : Option ((Nat → Nat → Nat → V) × (Nat → Nat → Nat → V))) (X X' : Nat → Nat → Nat → V) (B B' : Nat → Nat → V) (a b : K) :
    ∃ v v1 v2,
      predictVis k nsrc nrow nchan time ant1 ant2
        ⟨dde, some fun s r f => a • X s r f + b • X' s r f, die, some fun r f => a • B r f + b • B' r f⟩ = .ok v ∧
      predictVis k nsrc nrow nchan time ant1 ant2 ⟨dde, some X, die, some B⟩ = .ok v1 ∧
      predictVis k nsrc nrow nchan time ant1 ant2 ⟨dde, some X', die, some B'⟩ = .ok v2 ∧
      ∀ {R : Type u} [Ring R] [StarRing R] [Algebra K R] (φ : V →ₐ[K] R), Laws k φ →
        ∀ r < nrow, ∀ f < nchan, φ (v r f) = a • φ (v1 r f) + b • φ (v2 r f) := by
  have n0 : ∀ Y C, (Terms.mk dde (some Y) die (some C) : Terms V).nonempty := by intro Y C; unfold Terms.nonempty; simp
  obtain ⟨v, h⟩ := predict_ok (k := k) (nsrc := nsrc) (nchan := nchan) (ant1 := ant1) (ant2 := ant2) hm
    (n0 (fun s r f => a • X s r f + b • X' s r f) (fun r f => a • B r f + b • B' r f))
  obtain ⟨v1, h1⟩ := predict_ok (k := k) (nsrc := nsrc) (nchan := nchan) (ant1 := ant1) (ant2 := ant2) hm (n0 X B)
  obtain ⟨v2, h2⟩ := predict_ok (k := k) (nsrc := nsrc) (nchan := nchan) (ant1 := ant1) (ant2 := ant2) hm (n0 X' B')
  refine ⟨v, v1, v2, h, h1, h2, fun φ hφ r hr f hf => ?_⟩
  rw [predict_eq hφ hm (n0 _ _) h hr hf, predict_eq hφ hm (n0 _ _) h1 hr hf, predict_eq hφ hm (n0 _ _) h2 hr hf]
  simp only [Terms.ddeAt, Terms.cohAt, Terms.bvisAt, Terms.dieAt, Option.map_some, map_add, map_smul]
  rw [rime_linear]

end obs

/-! ## C143 -/

section C143
variable {K : Type*} [CommRing K] [StarRing K]
variable (nsrc nrow nchan : Nat) (time ant1 ant2 : Nat → Nat)

/-- C143 (2x2). The sources may be predicted in two parts: first some of them, without gains, then the others with the
first prediction as base visibilities. -/
theorem C143_split_full (hn : 0 < nrow) (a b : Nat) (x : Terms (M2 K)) (hx : x.dde.isSome ∨ x.coh.isSome ∨ x.bvis.isSome) :
    ∃ v v1 v2, predictVis fullKernel (a + b) nrow nchan time ant1 ant2 x = .ok v ∧
      predictVis fullKernel a nrow nchan time ant1 ant2 x.noDie = .ok v1 ∧
      predictVis fullKernel b nrow nchan time ant1 ant2 ((x.drop a).withBase v1) = .ok v2 ∧
      ∀ r < nrow, ∀ f < nchan, v r f = v2 r f := by
  obtain ⟨tmin, hm⟩ := exists_min time hn
  obtain ⟨v, v1, v2, h, h1, h2, e⟩ := split_obs (k := fullKernel (K := K)) hm a b x hx
  exact ⟨v, v1, v2, h, h1, h2, e (fun v => v) full_laws⟩

/-- C143 (one or two correlations). -/
theorem C143_split_diag (ncorr : Nat) (hn : 0 < nrow) (a b : Nat) (x : Terms (Nat → K))
    (hx : x.dde.isSome ∨ x.coh.isSome ∨ x.bvis.isSome) :
    ∃ v v1 v2, predictVis (diagKernel ncorr) (a + b) nrow nchan time ant1 ant2 x = .ok v ∧
      predictVis (diagKernel ncorr) a nrow nchan time ant1 ant2 x.noDie = .ok v1 ∧
      predictVis (diagKernel ncorr) b nrow nchan time ant1 ant2 ((x.drop a).withBase v1) = .ok v2 ∧
      ∀ r < nrow, ∀ f < nchan, ∀ c < ncorr, v r f c = v2 r f c := by
  obtain ⟨tmin, hm⟩ := exists_min time hn
  obtain ⟨v, v1, v2, h, h1, h2, e⟩ := split_obs (k := diagKernel (K := K) ncorr) hm a b x hx
  exact ⟨v, v1, v2, h, h1, h2, fun r hr f hf c hc => e (fun v => v c) (diag_laws hc) r hr f hf⟩

/-- C143 (2x2). Predicting with direction independent gains is predicting without them and then applying the gains. -/
theorem C143_gains_last_full (hn : 0 < nrow) (x : Terms (M2 K)) (g : (Nat → Nat → Nat → M2 K) × (Nat → Nat → Nat → M2 K))
    (hg : x.die = some g) (hx : x.dde.isSome ∨ x.coh.isSome ∨ x.bvis.isSome) :
    ∃ v v1 v2, predictVis fullKernel nsrc nrow nchan time ant1 ant2 x = .ok v ∧
      predictVis fullKernel nsrc nrow nchan time ant1 ant2 x.noDie = .ok v1 ∧
      applyGains fullKernel nrow nchan time ant1 ant2 g.1 v1 g.2 = .ok v2 ∧
      ∀ r < nrow, ∀ f < nchan, v r f = v2 r f := by
  obtain ⟨tmin, hm⟩ := exists_min time hn
  obtain ⟨v, v1, v2, h, h1, h2, e⟩ := die_obs (k := fullKernel (K := K)) hm x g hg hx
  exact ⟨v, v1, v2, h, h1, h2, e (fun v => v) full_laws⟩

/-- C143 (one or two correlations). -/
theorem C143_gains_last_diag (ncorr : Nat) (hn : 0 < nrow) (x : Terms (Nat → K))
    (g : (Nat → Nat → Nat → Nat → K) × (Nat → Nat → Nat → Nat → K))
    (hg : x.die = some g) (hx : x.dde.isSome ∨ x.coh.isSome ∨ x.bvis.isSome) :
    ∃ v v1 v2, predictVis (diagKernel ncorr) nsrc nrow nchan time ant1 ant2 x = .ok v ∧
      predictVis (diagKernel ncorr) nsrc nrow nchan time ant1 ant2 x.noDie = .ok v1 ∧
      applyGains (diagKernel ncorr) nrow nchan time ant1 ant2 g.1 v1 g.2 = .ok v2 ∧
      ∀ r < nrow, ∀ f < nchan, ∀ c < ncorr, v r f c = v2 r f c := by
  obtain ⟨tmin, hm⟩ := exists_min time hn
  obtain ⟨v, v1, v2, h, h1, h2, e⟩ := die_obs (k := diagKernel (K := K) ncorr) hm x g hg hx
  exact ⟨v, v1, v2, h, h1, h2, fun r hr f hf c hc => e (fun v => v c) (diag_laws hc) r hr f hf⟩

/-- C143 (2x2). Without base visibilities, direction independent gains may be multiplied into the direction dependent ones, or,
if there are none, be given as such, the same for all sources. -/
theorem C143_gains_in_dde_full (hn : 0 < nrow) (e : (Nat → Nat → Nat → Nat → M2 K) × (Nat → Nat → Nat → Nat → M2 K))
    (coh : Option (Nat → Nat → Nat → M2 K)) (X : Nat → Nat → Nat → M2 K)
    (g : (Nat → Nat → Nat → M2 K) × (Nat → Nat → Nat → M2 K)) :
    (∃ v v', predictVis fullKernel nsrc nrow nchan time ant1 ant2 ⟨some e, coh, some g, none⟩ = .ok v ∧
      predictVis fullKernel nsrc nrow nchan time ant1 ant2 ⟨some (fun s t a f => g.1 t a f * e.1 s t a f,
        fun s t a f => g.2 t a f * e.2 s t a f), coh, none, none⟩ = .ok v' ∧
      ∀ r < nrow, ∀ f < nchan, v' r f = v r f) ∧
    (∃ v v', predictVis fullKernel nsrc nrow nchan time ant1 ant2 ⟨none, some X, some g, none⟩ = .ok v ∧
      predictVis fullKernel nsrc nrow nchan time ant1 ant2 ⟨some (fun _ => g.1, fun _ => g.2), some X, none, none⟩ = .ok v' ∧
      ∀ r < nrow, ∀ f < nchan, v' r f = v r f) := by
  obtain ⟨tmin, hm⟩ := exists_min time hn
  constructor
  · obtain ⟨v, v', h, h', q⟩ := dde_obs (k := fullKernel (K := K)) hm e _ coh g rfl
    exact ⟨v, v', h, h', q (fun v => v) full_laws (fun _ _ => rfl)⟩
  · obtain ⟨v, v', h, h', q⟩ := coh_obs (k := fullKernel (K := K)) hm X g
    exact ⟨v, v', h, h', q (fun v => v) full_laws⟩

/-- C143 (one or two correlations). -/
theorem C143_gains_in_dde_diag (ncorr : Nat) (hn : 0 < nrow)
    (e : (Nat → Nat → Nat → Nat → Nat → K) × (Nat → Nat → Nat → Nat → Nat → K))
    (coh : Option (Nat → Nat → Nat → Nat → K)) (X : Nat → Nat → Nat → Nat → K)
    (g : (Nat → Nat → Nat → Nat → K) × (Nat → Nat → Nat → Nat → K)) :
    (∃ v v', predictVis (diagKernel ncorr) nsrc nrow nchan time ant1 ant2 ⟨some e, coh, some g, none⟩ = .ok v ∧
      predictVis (diagKernel ncorr) nsrc nrow nchan time ant1 ant2 ⟨some (fun s t a f c => g.1 t a f c * e.1 s t a f c,
        fun s t a f c => g.2 t a f c * e.2 s t a f c), coh, none, none⟩ = .ok v' ∧
      ∀ r < nrow, ∀ f < nchan, ∀ c < ncorr, v' r f c = v r f c) ∧
    (∃ v v', predictVis (diagKernel ncorr) nsrc nrow nchan time ant1 ant2 ⟨none, some X, some g, none⟩ = .ok v ∧
      predictVis (diagKernel ncorr) nsrc nrow nchan time ant1 ant2 ⟨some (fun _ => g.1, fun _ => g.2), some X, none, none⟩ = .ok v' ∧
      ∀ r < nrow, ∀ f < nchan, ∀ c < ncorr, v' r f c = v r f c) := by
  obtain ⟨tmin, hm⟩ := exists_min time hn
  constructor
  · obtain ⟨v, v', h, h', q⟩ := dde_obs (k := diagKernel (K := K) ncorr) hm e
      (fun s t a f c => g.1 t a f c * e.1 s t a f c, fun s t a f c => g.2 t a f c * e.2 s t a f c) coh g rfl
    exact ⟨v, v', h, h', fun r hr f hf c hc => q (fun v => v c) (diag_laws hc) (fun _ _ => rfl) r hr f hf⟩
  · obtain ⟨v, v', h, h', q⟩ := coh_obs (k := diagKernel (K := K) ncorr) hm X g
    exact ⟨v, v', h, h', fun r hr f hf c hc => q (fun v => v c) (diag_laws hc) r hr f hf⟩

/-- C143 (2x2). The order of the sources does not matter. -/
theorem C143_sources_full (hn : 0 < nrow) (x : Terms (M2 K)) (hx : x.dde.isSome ∨ x.coh.isSome ∨ x.die.isSome ∨ x.bvis.isSome)
    (σ : Equiv.Perm Nat) (hσ : ∀ s, σ s < nsrc ↔ s < nsrc) :
    ∃ v v', predictVis fullKernel nsrc nrow nchan time ant1 ant2 x = .ok v ∧
      predictVis fullKernel nsrc nrow nchan time ant1 ant2 (x.reorder σ) = .ok v' ∧
      ∀ r < nrow, ∀ f < nchan, v' r f = v r f := by
  obtain ⟨tmin, hm⟩ := exists_min time hn
  obtain ⟨v, v', h, h', e⟩ := perm_obs (k := fullKernel (K := K)) hm x hx σ hσ
  exact ⟨v, v', h, h', e (fun v => v) full_laws⟩

/-- C143 (one or two correlations). -/
theorem C143_sources_diag (ncorr : Nat) (hn : 0 < nrow) (x : Terms (Nat → K))
    (hx : x.dde.isSome ∨ x.coh.isSome ∨ x.die.isSome ∨ x.bvis.isSome)
    (σ : Equiv.Perm Nat) (hσ : ∀ s, σ s < nsrc ↔ s < nsrc) :
    ∃ v v', predictVis (diagKernel ncorr) nsrc nrow nchan time ant1 ant2 x = .ok v ∧
      predictVis (diagKernel ncorr) nsrc nrow nchan time ant1 ant2 (x.reorder σ) = .ok v' ∧
      ∀ r < nrow, ∀ f < nchan, ∀ c < ncorr, v' r f c = v r f c := by
  obtain ⟨tmin, hm⟩ := exists_min time hn
  obtain ⟨v, v', h, h', e⟩ := perm_obs (k := diagKernel (K := K) ncorr) hm x hx σ hσ
  exact ⟨v, v', h, h', fun r hr f hf c hc => e (fun v => v c) (diag_laws hc) r hr f hf⟩

/-- C143 (2x2). Rows are independent: predicting any selection of rows, in any order, gives the selected rows, as long as the
first time index is among them. -/
theorem C143_rows_full (tmin : Nat) (hm : IsMin nrow time tmin) (x : Terms (M2 K))
    (hx : x.dde.isSome ∨ x.coh.isSome ∨ x.die.isSome ∨ x.bvis.isSome) (m : Nat) (ρ : Nat → Nat) (hρ : ∀ r < m, ρ r < nrow)
    (hmin : ∃ r < m, time (ρ r) = tmin) :
    ∃ v v', predictVis fullKernel nsrc nrow nchan time ant1 ant2 x = .ok v ∧
      predictVis fullKernel nsrc m nchan (fun r => time (ρ r)) (fun r => ant1 (ρ r)) (fun r => ant2 (ρ r)) (x.rows ρ) = .ok v' ∧
      ∀ r < m, ∀ f < nchan, v' r f = v (ρ r) f := by
  obtain ⟨v, v', h, h', e⟩ := rows_obs (k := fullKernel (K := K)) hm x hx m ρ hρ ⟨hmin, fun r hr => hm.2 _ (hρ r hr)⟩
  exact ⟨v, v', h, h', e (fun v => v) full_laws⟩

/-- C143 (one or two correlations). -/
theorem C143_rows_diag (ncorr : Nat) (tmin : Nat) (hm : IsMin nrow time tmin) (x : Terms (Nat → K))
    (hx : x.dde.isSome ∨ x.coh.isSome ∨ x.die.isSome ∨ x.bvis.isSome) (m : Nat) (ρ : Nat → Nat) (hρ : ∀ r < m, ρ r < nrow)
    (hmin : ∃ r < m, time (ρ r) = tmin) :
    ∃ v v', predictVis (diagKernel ncorr) nsrc nrow nchan time ant1 ant2 x = .ok v ∧
      predictVis (diagKernel ncorr) nsrc m nchan (fun r => time (ρ r)) (fun r => ant1 (ρ r)) (fun r => ant2 (ρ r)) (x.rows ρ) =
        .ok v' ∧
      ∀ r < m, ∀ f < nchan, ∀ c < ncorr, v' r f c = v (ρ r) f c := by
  obtain ⟨v, v', h, h', e⟩ := rows_obs (k := diagKernel (K := K) ncorr) hm x hx m ρ hρ ⟨hmin, fun r hr => hm.2 _ (hρ r hr)⟩
  exact ⟨v, v', h, h', fun r hr f hf c hc => e (fun v => v c) (diag_laws hc) r hr f hf⟩

/-- C143: without the first time index the rows of the selection are predicted with the gains of other times: the second of two
rows with gains 1 and 2 is multiplied by 4, but by 1 when predicted alone. -/
theorem C143_rows_first_needed : ∃ (x : Terms (Nat → ℚ)) (v v' : Nat → Nat → Nat → ℚ),
    predictVis (diagKernel 1) 0 2 1 (fun r => r) (fun _ => 0) (fun _ => 1) x = .ok v ∧
    predictVis (diagKernel 1) 0 1 1 (fun r => r + 1) (fun _ => 0) (fun _ => 1) (x.rows (· + 1)) = .ok v' ∧
    v 1 0 0 = 4 ∧ v' 0 0 0 = 1 := by
  refine ⟨⟨none, none, some (fun t _ _ _ => t + 1, fun t _ _ _ => t + 1), some fun _ _ _ => 1⟩, _, _, rfl, rfl, ?_, ?_⟩
  · decide +kernel
  · decide +kernel

/-- C143 (2x2). Predictions are linear in coherencies and base visibilities. -/
theorem C143_linear_full (hn : 0 < nrow) (dde : Option ((Nat → Nat → Nat → Nat → M2 K) × (Nat → Nat → Nat → Nat → M2 K)))
    (die : Option ((Nat → Nat → Nat → M2 K) × (Nat → Nat → Nat → M2 K))) (X X' : Nat → Nat → Nat → M2 K) (B B' : Nat → Nat → M2 K)
    (a b : K) :
    ∃ v v1 v2,
      predictVis fullKernel nsrc nrow nchan time ant1 ant2
        ⟨dde, some fun s r f => a • X s r f + b • X' s r f, die, some fun r f => a • B r f + b • B' r f⟩ = .ok v ∧
      predictVis fullKernel nsrc nrow nchan time ant1 ant2 ⟨dde, some X, die, some B⟩ = .ok v1 ∧
      predictVis fullKernel nsrc nrow nchan time ant1 ant2 ⟨dde, some X', die, some B'⟩ = .ok v2 ∧
      ∀ r < nrow, ∀ f < nchan, v r f = a • v1 r f + b • v2 r f := by
  obtain ⟨tmin, hm⟩ := exists_min time hn
  obtain ⟨v, v1, v2, h, h1, h2, e⟩ := linear_obs (k := fullKernel (K := K)) hm dde die X X' B B' a b
  exact ⟨v, v1, v2, h, h1, h2, e (AlgHom.id K (M2 K)) full_laws⟩

/-- C143 (one or two correlations). -/
theorem C143_linear_diag (ncorr : Nat) (hn : 0 < nrow)
    (dde : Option ((Nat → Nat → Nat → Nat → Nat → K) × (Nat → Nat → Nat → Nat → Nat → K)))
    (die : Option ((Nat → Nat → Nat → Nat → K) × (Nat → Nat → Nat → Nat → K))) (X X' : Nat → Nat → Nat → Nat → K)
    (B B' : Nat → Nat → Nat → K) (a b : K) :
    ∃ v v1 v2,
      predictVis (diagKernel ncorr) nsrc nrow nchan time ant1 ant2
        ⟨dde, some fun s r f => a • X s r f + b • X' s r f, die, some fun r f => a • B r f + b • B' r f⟩ = .ok v ∧
      predictVis (diagKernel ncorr) nsrc nrow nchan time ant1 ant2 ⟨dde, some X, die, some B⟩ = .ok v1 ∧
      predictVis (diagKernel ncorr) nsrc nrow nchan time ant1 ant2 ⟨dde, some X', die, some B'⟩ = .ok v2 ∧
      ∀ r < nrow, ∀ f < nchan, ∀ c < ncorr, v r f c = a * v1 r f c + b * v2 r f c := by
  obtain ⟨tmin, hm⟩ := exists_min time hn
  obtain ⟨v, v1, v2, h, h1, h2, e⟩ := linear_obs (k := diagKernel (K := K) ncorr) hm dde die X X' B B' a b
  exact ⟨v, v1, v2, h, h1, h2, fun r hr f hf c hc => e (Pi.evalAlgHom K (fun _ => K) c) (diag_laws hc) r hr f hf⟩

/-- C143 (2x2). Applying gains twice is applying their product. -/
theorem C143_gains_twice_full (hn : 0 < nrow) (g1 g2 h1 h2 : Nat → Nat → Nat → M2 K) (vis : Nat → Nat → M2 K) :
    ∃ mid out out', applyGains fullKernel nrow nchan time ant1 ant2 g1 vis g2 = .ok mid ∧
      applyGains fullKernel nrow nchan time ant1 ant2 h1 mid h2 = .ok out ∧
      applyGains fullKernel nrow nchan time ant1 ant2 (fun t a f => h1 t a f * g1 t a f) vis
        (fun t a f => h2 t a f * g2 t a f) = .ok out' ∧
      ∀ r < nrow, ∀ f < nchan, out r f = out' r f := by
  obtain ⟨tmin, hm⟩ := exists_min time hn
  obtain ⟨mid, e1, e2⟩ := C39_apply_full nrow nchan time ant1 ant2 tmin hm g1 g2 vis
  obtain ⟨out, e3, e4⟩ := C39_apply_full nrow nchan time ant1 ant2 tmin hm h1 h2 mid
  obtain ⟨out', e5, e6⟩ := C39_apply_full nrow nchan time ant1 ant2 tmin hm (fun t a f => h1 t a f * g1 t a f)
    (fun t a f => h2 t a f * g2 t a f) vis
  refine ⟨mid, out, out', e1, e3, e5, fun r hr f hf => ?_⟩
  rw [e4 r hr f hf, e2 r hr f hf, e6 r hr f hf, Matrix.conjTranspose_mul]
  simp only [Matrix.mul_assoc]

/-- C143 (one or two correlations). -/
theorem C143_gains_twice_diag (ncorr : Nat) (hn : 0 < nrow) (g1 g2 h1 h2 : Nat → Nat → Nat → Nat → K) (vis : Nat → Nat → Nat → K) :
    ∃ mid out out', applyGains (diagKernel ncorr) nrow nchan time ant1 ant2 g1 vis g2 = .ok mid ∧
      applyGains (diagKernel ncorr) nrow nchan time ant1 ant2 h1 mid h2 = .ok out ∧
      applyGains (diagKernel ncorr) nrow nchan time ant1 ant2 (fun t a f c => h1 t a f c * g1 t a f c) vis
        (fun t a f c => h2 t a f c * g2 t a f c) = .ok out' ∧
      ∀ r < nrow, ∀ f < nchan, ∀ c < ncorr, out r f c = out' r f c := by
  obtain ⟨tmin, hm⟩ := exists_min time hn
  obtain ⟨mid, e1, e2⟩ := C39_apply_diag ncorr nrow nchan time ant1 ant2 tmin hm g1 g2 vis
  obtain ⟨out, e3, e4⟩ := C39_apply_diag ncorr nrow nchan time ant1 ant2 tmin hm h1 h2 mid
  obtain ⟨out', e5, e6⟩ := C39_apply_diag ncorr nrow nchan time ant1 ant2 tmin hm (fun t a f c => h1 t a f c * g1 t a f c)
    (fun t a f c => h2 t a f c * g2 t a f c) vis
  refine ⟨mid, out, out', e1, e3, e5, fun r hr f hf c hc => ?_⟩
  rw [e4 r hr f hf c hc, e2 r hr f hf c hc, e6 r hr f hf c hc, star_mul]
  ring

/-- Swapping the first two of three sources, and taking the last and the first of three rows, meet the hypotheses. -/
example : (∀ s, Equiv.swap 0 1 s < 3 ↔ s < 3) ∧ IsMin 3 (fun r => 5 + r) 5 ∧ (∀ r < 2, (if r = 0 then 2 else 0) < 3) ∧
    ∃ r < 2, 5 + (if r = 0 then 2 else 0) = 5 := by
  refine ⟨fun s => ?_, ⟨⟨0, by decide, rfl⟩, fun r _ => Nat.le_add_right 5 r⟩, fun r _ => by split <;> omega, ⟨1, by decide, rfl⟩⟩
  rcases Nat.lt_or_ge s 2 with h | h
  · interval_cases s <;> decide
  · rw [Equiv.swap_apply_of_ne_of_ne (by omega) (by omega)]

end C143

end Verif.Rime
