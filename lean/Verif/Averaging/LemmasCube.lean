/-
Lemmas about `row_chan_average`, `chan_average` and `merge_flags`.
-/
import Verif.Averaging.LemmasAvg

set_option autoImplicit false
set_option linter.unusedSectionVars false

namespace Verif.Averaging

open Function

variable {K : Type*} [Field K] [DecidableEq K]

section
variable (cols : CubeCols K) (ro fo ri fi c : Nat) (s : CubeAcc K)

theorem cubeAdd_counts : (cubeAdd cols ro fo ri fi c s).counts = add3 s.counts ro fo c 1 := by
  obtain ⟨w, v, fl, ws, ss⟩ := cols
  cases w <;> cases v <;> cases ws <;> cases ss <;> rfl

theorem cubeAdd_vis (v : Nat → Nat → Nat → K) (hv : cols.vis = some v) :
    (cubeAdd cols ro fo ri fi c s).vis =
        add3 s.vis ro fo c (v ri fi c * sampleWt cols.weightSpectrum cols.weight ri fi c) ∧
      (cubeAdd cols ro fo ri fi c s).visW = add3 s.visW ro fo c (sampleWt cols.weightSpectrum cols.weight ri fi c) := by
  obtain ⟨w, v', fl, ws, ss⟩ := cols
  simp only at hv
  subst hv
  cases w <;> cases ws <;> cases ss <;>
    simp [cubeAdd, visAdd, wsAdd, sigmaSpecAdd, sampleWt]

theorem cubeAdd_ws (w : Nat → Nat → Nat → K) (hw : cols.weightSpectrum = some w) :
    (cubeAdd cols ro fo ri fi c s).ws = add3 s.ws ro fo c (w ri fi c) := by
  obtain ⟨w', v, fl, ws, ss⟩ := cols
  simp only at hw
  subst hw
  cases w' <;> cases v <;> cases ss <;> rfl

theorem cubeAdd_sigma (sg : Nat → Nat → Nat → K) (hs : cols.sigmaSpectrum = some sg) :
    (cubeAdd cols ro fo ri fi c s).sigma =
        add3 s.sigma ro fo c (sg ri fi c ^ 2 * sampleWt cols.weightSpectrum cols.weight ri fi c ^ 2) ∧
      (cubeAdd cols ro fo ri fi c s).sigmaW = add3 s.sigmaW ro fo c (sampleWt cols.weightSpectrum cols.weight ri fi c) := by
  obtain ⟨w, v, fl, ws, ss⟩ := cols
  simp only at hs
  subst hs
  cases w <;> cases ws <;> cases v <;>
    simp [cubeAdd, visAdd, wsAdd, sigmaSpecAdd, sampleWt]

end

/-- The samples of rows that may contribute to output `(o, fo)`, as (row, channel) pairs. -/
def samples (n nchan : Nat) (rm : RowMapOutput) (flagRow : Option (Nat → Nat)) (chanMap : Nat → Nat)
    (o fo : Nat) : Finset (Nat × Nat) :=
  ((Finset.range n).filter fun r => hits rm flagRow r o) ×ˢ fibre nchan chanMap fo

section
variable {n nchan ncorr : Nat} {rm : RowMapOutput} {flagRow : Option (Nat → Nat)}
  {chanMap : Nat → Nat} {cols : CubeCols K}

/-- What the accumulation loops add to a cell of an observation `obs` to which each sample
`(r, f, c)` adds `x r f` in its own cell. -/
theorem cubeLoop_obs {M : Type*} [AddCommMonoid M] (obs : CubeState K → M) (x : Nat → Nat → M)
    (o fo co : Nat) (hco : co < ncorr) (init : CubeState K)
    (h : ∀ r f c s, obs (cubeStep cols (rm.map r) (chanMap f) r f c s) =
      obs s + if o = rm.map r ∧ fo = chanMap f ∧ co = c then x r f else 0) :
    obs (cubeLoop n nchan ncorr rm flagRow chanMap cols init) =
      obs init + ∑ p ∈ samples n nchan rm flagRow chanMap o fo, x p.1 p.2 := by
  unfold cubeLoop
  have key : ∀ r s, obs (if flagsMatch flagRow r rm.flagRow (rm.map r) then
      forRange nchan s fun fi s =>
        forRange ncorr s fun c s => cubeStep cols (rm.map r) (chanMap fi) r fi c s else s) =
      obs s + if hits rm flagRow r o then ∑ f ∈ fibre nchan chanMap fo, x r f else 0 := by
    intro r s
    by_cases hm : flagsMatch flagRow r rm.flagRow (rm.map r) = true
    · rw [if_pos hm, forRange_obs obs (fun f => if o = rm.map r ∧ fo = chanMap f then x r f else 0)]
      · congr 1
        by_cases ho : o = rm.map r
        · subst ho
          rw [if_pos ⟨rfl, hm⟩, fibre, Finset.sum_filter]
          exact Finset.sum_congr rfl fun f _ => by simp [eq_comm]
        · rw [if_neg (fun hh => ho hh.1.symm)]
          exact Finset.sum_eq_zero fun f _ => if_neg fun hh => ho hh.1
      · intro f s _
        rw [forRange_obs obs (fun c => if o = rm.map r ∧ fo = chanMap f ∧ co = c then x r f else 0)
          _ _ _ (fun c s _ => h r f c s)]
        congr 1
        by_cases hp : o = rm.map r ∧ fo = chanMap f
        · simp [hp.1, hp.2, hco]
        · rw [if_neg hp]
          exact Finset.sum_eq_zero fun c _ => if_neg fun hh => hp ⟨hh.1, hh.2.1⟩
    · rw [if_neg hm, if_neg, add_zero]
      rintro ⟨rfl, hh⟩; exact hm hh
  rw [forRange_obs obs _ _ _ _ (fun r s _ => key r s), samples, Finset.sum_product, Finset.sum_filter]

/-- Observations of the flagged / unflagged family. -/
def CubeState.pick (s : CubeState K) (b : Bool) : CubeAcc K := if b then s.flagged else s.unflagged

/-- The samples of an output cell with flag state `b`. -/
def famSamples (n nchan : Nat) (rm : RowMapOutput) (flagRow : Option (Nat → Nat))
    (chanMap : Nat → Nat) (flag : Option (Nat → Nat → Nat → Nat)) (b : Bool) (o fo co : Nat) :
    Finset (Nat × Nat) :=
  (samples n nchan rm flagRow chanMap o fo).filter fun p => isChanFlagged flag p.1 p.2 co = b

theorem cubeLoop_fam {M : Type*} [AddCommMonoid M] (b : Bool) (obs : CubeAcc K → M)
    (x : Nat → Nat → M) (o fo co : Nat) (hco : co < ncorr) (init : CubeState K)
    (h : ∀ r f c s, obs (cubeAdd cols (rm.map r) (chanMap f) r f c s) =
      obs s + if o = rm.map r ∧ fo = chanMap f ∧ co = c then x r f else 0) :
    obs ((cubeLoop n nchan ncorr rm flagRow chanMap cols init).pick b) =
      obs (init.pick b) +
        ∑ p ∈ famSamples n nchan rm flagRow chanMap cols.flag b o fo co, x p.1 p.2 := by
  rw [cubeLoop_obs (obs := fun s => obs (s.pick b))
    (fun r f => if isChanFlagged cols.flag r f co = b then x r f else 0) o fo co hco, famSamples,
    Finset.sum_filter]
  intro r f c s
  unfold cubeStep CubeState.pick
  by_cases hc : isChanFlagged cols.flag r f c = true
  · rw [if_pos hc]
    cases b
    · simp only [Bool.false_eq_true, if_false]
      rw [show (if o = rm.map r ∧ fo = chanMap f ∧ co = c then
        if isChanFlagged cols.flag r f co = false then x r f else 0 else 0) = 0 from ?_, add_zero]
      by_cases hh : co = c
      · subst hh; simp [hc]
      · simp [hh]
    · simp only [if_true]
      rw [h]
      congr 1
      by_cases hh : co = c
      · subst hh; simp [hc]
      · simp [hh]
  · rw [if_neg hc]
    have hc' : isChanFlagged cols.flag r f c = false := by simpa using hc
    cases b
    · simp only [Bool.false_eq_true, if_false]
      rw [h]
      congr 1
      by_cases hh : co = c
      · subst hh; simp [hc']
      · simp [hh]
    · simp only [if_true]
      rw [show (if o = rm.map r ∧ fo = chanMap f ∧ co = c then
        if isChanFlagged cols.flag r f co = true then x r f else 0 else 0) = 0 from ?_, add_zero]
      by_cases hh : co = c
      · subst hh; simp [hc']
      · simp [hh]

/-- All accumulators of the family `b` after the loops. -/
theorem cubeLoop_vals (b : Bool) (o fo co : Nat) (hco : co < ncorr) :
    let s := (cubeLoop n nchan ncorr rm flagRow chanMap cols ⟨CubeAcc.zero, CubeAcc.zero⟩).pick b
    let S := famSamples n nchan rm flagRow chanMap cols.flag b o fo co
    s.counts o fo co = S.card ∧
    (∀ v, cols.vis = some v →
      s.vis o fo co = ∑ p ∈ S, v p.1 p.2 co * sampleWt cols.weightSpectrum cols.weight p.1 p.2 co ∧
      s.visW o fo co = ∑ p ∈ S, sampleWt cols.weightSpectrum cols.weight p.1 p.2 co) ∧
    (∀ w, cols.weightSpectrum = some w → s.ws o fo co = ∑ p ∈ S, w p.1 p.2 co) ∧
    (∀ sg, cols.sigmaSpectrum = some sg →
      s.sigma o fo co = ∑ p ∈ S, sg p.1 p.2 co ^ 2 * sampleWt cols.weightSpectrum cols.weight p.1 p.2 co ^ 2 ∧
      s.sigmaW o fo co = ∑ p ∈ S, sampleWt cols.weightSpectrum cols.weight p.1 p.2 co) := by
  have hz : (CubeState.mk CubeAcc.zero CubeAcc.zero : CubeState K).pick b = CubeAcc.zero := by
    cases b <;> rfl
  have fix : ∀ {M : Type _} [AddCommMonoid M] (x : Nat → Nat → Nat → M) (r f c : Nat),
      (if o = rm.map r ∧ fo = chanMap f ∧ co = c then x r f c else 0) =
      if o = rm.map r ∧ fo = chanMap f ∧ co = c then x r f co else 0 := by
    intro M _ x r f c
    by_cases hh : co = c
    · rw [hh]
    · simp [hh]
  refine ⟨?_, ?_, ?_, ?_⟩
  · rw [cubeLoop_fam b (fun s => s.counts o fo co) (fun _ _ => 1) o fo co hco, hz]
    · simp [CubeAcc.zero]
    · intro r f c s; rw [cubeAdd_counts, add3_apply]
  · intro v hv
    constructor
    · rw [cubeLoop_fam b (fun s => s.vis o fo co)
        (fun r f => v r f co * sampleWt cols.weightSpectrum cols.weight r f co) o fo co hco, hz]
      · simp [CubeAcc.zero]
      · intro r f c s
        rw [(cubeAdd_vis cols _ _ _ _ _ _ v hv).1, add3_apply,
          fix fun r f c => v r f c * sampleWt cols.weightSpectrum cols.weight r f c]
    · rw [cubeLoop_fam b (fun s => s.visW o fo co)
        (fun r f => sampleWt cols.weightSpectrum cols.weight r f co) o fo co hco, hz]
      · simp [CubeAcc.zero]
      · intro r f c s
        rw [(cubeAdd_vis cols _ _ _ _ _ _ v hv).2, add3_apply, fix fun r f c => sampleWt cols.weightSpectrum cols.weight r f c]
  · intro w hw
    rw [cubeLoop_fam b (fun s => s.ws o fo co) (fun r f => w r f co) o fo co hco, hz]
    · simp [CubeAcc.zero]
    · intro r f c s
      rw [cubeAdd_ws cols _ _ _ _ _ _ w hw, add3_apply, fix fun r f c => w r f c]
  · intro sg hs
    constructor
    · rw [cubeLoop_fam b (fun s => s.sigma o fo co)
        (fun r f => sg r f co ^ 2 * sampleWt cols.weightSpectrum cols.weight r f co ^ 2) o fo co hco, hz]
      · simp [CubeAcc.zero]
      · intro r f c s
        rw [(cubeAdd_sigma cols _ _ _ _ _ _ sg hs).1, add3_apply,
          fix fun r f c => sg r f c ^ 2 * sampleWt cols.weightSpectrum cols.weight r f c ^ 2]
    · rw [cubeLoop_fam b (fun s => s.sigmaW o fo co)
        (fun r f => sampleWt cols.weightSpectrum cols.weight r f co) o fo co hco, hz]
      · simp [CubeAcc.zero]
      · intro r f c s
        rw [(cubeAdd_sigma cols _ _ _ _ _ _ sg hs).2, add3_apply,
          fix fun r f c => sampleWt cols.weightSpectrum cols.weight r f c]

end

end Verif.Averaging
