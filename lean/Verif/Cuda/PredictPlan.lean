/-
Lemmas about the CUDA version of predict_vis before its launch, and congruence of the measurement equation.
-/
import Verif.Cuda.PredictLemmas
import Verif.Rime.Props

set_option autoImplicit false

namespace Verif.Cuda

open Verif.Rime

/-! ### before the launch -/

/-- The extents are those of the arguments (rime/cuda/predict.cu.j2:40-61). -/
structure ExtentsOk (nsrc ntime na nchan : Nat) (x : GTerms) (e : Extents) : Prop where
  nsrc : x.dde.isSome ∨ x.coh.isSome → e.nsrc = nsrc
  ntime : x.dde.isSome ∨ x.die.isSome → e.ntime = ntime
  na : x.dde.isSome ∨ x.die.isSome → e.na = na
  nchan : e.nchan = nchan

/-- The extents that are found (rime/cuda/predict.cu.j2:40-61). -/
def extentsFor (nsrc ntime na nchan : Nat) (x : GTerms) : Extents :=
  ⟨bif x.dde.isSome || x.coh.isSome then nsrc else 0, bif x.dde.isSome || x.die.isSome then ntime else 0,
    bif x.dde.isSome || x.die.isSome then na else 0, nchan⟩

theorem extentsFor_ok (nsrc ntime na nchan : Nat) (x : GTerms) :
    ExtentsOk nsrc ntime na nchan x (extentsFor nsrc ntime na nchan x) := by
  constructor
  · intro h
    simp only [extentsFor, Bool.cond_eq_ite]
    rw [if_pos (by simpa using h)]
  · intro h
    simp only [extentsFor, Bool.cond_eq_ite]
    rw [if_pos (by simpa using h)]
  · intro h
    simp only [extentsFor, Bool.cond_eq_ite]
    rw [if_pos (by simpa using h)]
  · rfl

/-- The arguments with one axis of correlations (rime/cuda/predict.py:105-170). -/
def flat4 (x : GTerms) : GTerms :=
  ⟨x.dde.map fun d => (flattenCorrs 4 d.1, flattenCorrs 4 d.2), x.coh.map (flattenCorrs 4),
    x.die.map fun g => (flattenCorrs 4 g.1, flattenCorrs 4 g.2), x.bvis.map (flattenCorrs 4)⟩

theorem plan_full {nsrc ntime na nrow nchan tmin : Nat} {time : Nat → Nat} {x : GTerms}
    (hs : HasShapes nsrc ntime na nrow nchan [2, 2] x) (hm : IsMin nrow time tmin)
    (hx : x.dde.isSome ∨ x.coh.isSome ∨ x.die.isSome) :
    ∃ e, ExtentsOk nsrc ntime na nchan x e ∧ predictPlan true nrow time x = .ok ⟨nchan, 4, e, flat4 x, tmin⟩ := by
  have ht := timeMin_spec hm
  obtain ⟨h1, h2, h3, h4⟩ := hs
  obtain ⟨dde, coh, die, bvis⟩ := x
  rcases dde with _ | ⟨⟨s1, st1, b1, m1⟩, ⟨s2, st2, b2, m2⟩⟩ <;> rcases coh with _ | ⟨s3, st3, b3, m3⟩ <;>
    rcases die with _ | ⟨⟨s4, st4, b4, m4⟩, ⟨s5, st5, b5, m5⟩⟩ <;> rcases bvis with _ | ⟨s6, st6, b6, m6⟩ <;>
    simp at h1 h2 h3 h4 hx <;> (try obtain ⟨rfl, rfl⟩ := h1) <;> (try subst h2) <;> (try obtain ⟨rfl, rfl⟩ := h3) <;>
    (try subst h4) <;>
    (refine ⟨extentsFor nsrc ntime na nchan _, extentsFor_ok _ _ _ _ _, ?_⟩
     show (do let tmin ← timeMin nrow time; pure _ : Except PyErr Plan) = _
     rw [ht]
     rfl)

/-- With one axis of correlations. -/
theorem plan_diag {nsrc ntime na nrow nchan ncorr tmin : Nat} {time : Nat → Nat} {x : GTerms}
    (hs : HasShapes nsrc ntime na nrow nchan [ncorr] x) (hm : IsMin nrow time tmin) (hc : ncorr = 1 ∨ ncorr = 2)
    (hx : x.dde.isSome ∨ x.coh.isSome ∨ x.die.isSome) :
    ∃ e, ExtentsOk nsrc ntime na nchan x e ∧ predictPlan true nrow time x = .ok ⟨nchan, ncorr, e, x, tmin⟩ := by
  have ht := timeMin_spec hm
  obtain ⟨h1, h2, h3, h4⟩ := hs
  obtain ⟨dde, coh, die, bvis⟩ := x
  rcases hc with rfl | rfl <;>
  rcases dde with _ | ⟨⟨s1, st1, b1, m1⟩, ⟨s2, st2, b2, m2⟩⟩ <;> rcases coh with _ | ⟨s3, st3, b3, m3⟩ <;>
    rcases die with _ | ⟨⟨s4, st4, b4, m4⟩, ⟨s5, st5, b5, m5⟩⟩ <;> rcases bvis with _ | ⟨s6, st6, b6, m6⟩ <;>
    simp at h1 h2 h3 h4 hx <;> (try obtain ⟨rfl, rfl⟩ := h1) <;> (try subst h2) <;> (try obtain ⟨rfl, rfl⟩ := h3) <;>
    (try subst h4) <;>
    (refine ⟨extentsFor nsrc ntime na nchan _, extentsFor_ok _ _ _ _ _, ?_⟩
     show (do let tmin ← timeMin nrow time; pure _ : Except PyErr Plan) = _
     rw [ht]
     rfl)

/-! ### the measurement equation -/

theorem rime_congr {R A B : Type*} [Ring R] [StarRing R] {n n' : Nat} {dde : Option A} {coh : Option B}
    {E E' : A → (Nat → R) × (Nat → R)} {X X' : B → Nat → R} {V V' : Option R} {G G' : Option (R × R)}
    (hn : dde.isSome ∨ coh.isSome → n = n')
    (hE : ∀ d ∈ dde, ∀ s < n', (E d).1 s = (E' d).1 s ∧ (E d).2 s = (E' d).2 s) (hX : ∀ c ∈ coh, ∀ s < n', X c s = X' c s)
    (hV : V = V') (hG : G = G') :
    rime n (dde.map E) (coh.map X) V G = rime n' (dde.map E') (coh.map X') V' G' := by
  subst hV hG
  unfold rime
  dsimp only
  congr 2
  rcases dde with _ | d <;> rcases coh with _ | c
  · rfl
  all_goals
    obtain rfl := hn (by simp)
    simp only [Option.map_some, Option.map_none, Option.isNone_some, Option.isNone_none, Option.elim_some, Option.elim_none,
      reduceCtorEq, and_false, false_and, and_true, if_false, Bool.false_eq_true]
    congr 1
    apply Finset.sum_congr rfl
    intro s hs
    rw [Finset.mem_range] at hs
    first
    | rw [(hE d rfl s hs).1, (hE d rfl s hs).2, hX c rfl s hs]
    | rw [(hE d rfl s hs).1, (hE d rfl s hs).2]
    | rw [hX c rfl s hs]

end Verif.Cuda
