/-
Lemmas about `row_average`.
-/
import Verif.Averaging.Model2
import Verif.Averaging.LemmasChan
import Mathlib.Algebra.BigOperators.Ring.Finset
import Mathlib.Algebra.BigOperators.Group.Finset.Piecewise

set_option autoImplicit false
set_option linter.unusedSectionVars false

namespace Verif.Averaging

open Function

/-- If every iteration adds `δ i` to the observation `obs`, the loop adds their sum. -/
theorem forRange_obs {σ M : Type*} [AddCommMonoid M] (obs : σ → M) (δ : Nat → M)
    (n : Nat) (init : σ) (f : Nat → σ → σ) (h : ∀ i s, i < n → obs (f i s) = obs s + δ i) :
    obs (forRange n init f) = obs init + ∑ i ∈ Finset.range n, δ i := by
  induction n with
  | zero => simp
  | succ n ih =>
    rw [forRange_succ, h n _ (by omega), ih (fun i s hi => h i s (by omega)), Finset.sum_range_succ,
      add_assoc]

section
variable {K : Type*} [AddCommMonoid K]

theorem add1_apply (a : Nat → K) (o : Nat) (x : K) (o' : Nat) :
    add1 a o x o' = a o' + if o' = o then x else 0 := by
  unfold add1
  rw [update_apply]
  split
  · rename_i h; rw [h]
  · simp

theorem add2_apply (a : Nat → Nat → K) (o c : Nat) (x : K) (o' c' : Nat) :
    add2 a o c x o' c' = a o' c' + if o' = o ∧ c' = c then x else 0 := by
  unfold add2
  rw [update_apply]
  split
  · rename_i h; subst h; rw [add1_apply]; simp
  · rename_i h; simp [h]

theorem add3_apply (a : Nat → Nat → Nat → K) (o f c : Nat) (x : K) (o' f' c' : Nat) :
    add3 a o f c x o' f' c' = a o' f' c' + if o' = o ∧ f' = f ∧ c' = c then x else 0 := by
  unfold add3
  rw [update_apply]
  split
  · rename_i h; subst h; rw [add2_apply]; simp
  · rename_i h; simp [h]

end

variable {K : Type*} [Field K] [DecidableEq K]

theorem sum_corr (ncorr co : Nat) (P : Prop) [Decidable P] (x : Nat → K) :
    ∑ c ∈ Finset.range ncorr, (if P ∧ co = c then x c else 0) =
      if P ∧ co < ncorr then x co else 0 := by
  by_cases hP : P
  · by_cases hc : co < ncorr
    · simp [hP, hc]
    · simp [hP, hc]
  · simp [hP]

section row
variable (rm : RowMapOutput) (flagRow : Option (Nat → Nat)) (ant1 ant2 : Nat → Int)
  (cols : RowCols K) (ncorr : Nat)

/-- Row `r` contributes to output row `o` in the code. -/
abbrev hits (r o : Nat) : Prop := rm.map r = o ∧ flagsMatch flagRow r rm.flagRow o = true

theorem rowAdd_counts (ri ro : Nat) (s : RowAcc K) :
    (rowAdd cols ncorr ri ro s).counts = add1 s.counts ro 1 := by
  unfold rowAdd
  cases cols.uvw <;> cases cols.timeCentroid <;> cases cols.exposure <;> cases cols.weight <;>
    cases cols.sigma <;> rfl

theorem rowStep_counts (r : Nat) (s : RowAcc K) (o : Nat) :
    (rowStep rm flagRow ant1 ant2 cols ncorr r s).counts o =
      s.counts o + if hits rm flagRow r o then 1 else 0 := by
  unfold rowStep
  simp only
  by_cases hm : flagsMatch flagRow r rm.flagRow (rm.map r) = true
  · rw [if_pos hm]
    rw [rowAdd_counts, add1_apply]
    have : (if o = rm.map r then 1 else 0) =
        if rm.map r = o ∧ flagsMatch flagRow r rm.flagRow o = true then 1 else 0 := by
      by_cases h : o = rm.map r
      · subst h; simp [hm]
      · simp [h, Ne.symm h]
    rw [this]
  · rw [if_neg hm, if_neg, add_zero]
    rintro ⟨rfl, h⟩
    exact hm h

theorem rowStep_uvw (r : Nat) (s : RowAcc K) (o k : Nat) (u : Nat → Nat → K) (hu : cols.uvw = some u)
    (hk : k < 3) :
    (rowStep rm flagRow ant1 ant2 cols ncorr r s).uvw o k =
      s.uvw o k + if hits rm flagRow r o then u r k else 0 := by
  unfold rowStep
  simp only
  by_cases hm : flagsMatch flagRow r rm.flagRow (rm.map r) = true
  · rw [if_pos hm]
    unfold rowAdd
    rw [hu]
    have : ∀ s' : RowAcc K, s'.uvw = add2 (add2 (add2 s.uvw (rm.map r) 0 (u r 0)) (rm.map r) 1 (u r 1))
        (rm.map r) 2 (u r 2) → s'.uvw o k = s.uvw o k +
        if rm.map r = o ∧ flagsMatch flagRow r rm.flagRow o = true then u r k else 0 := by
      intro s' h
      rw [h]
      simp only [add2_apply]
      by_cases h : o = rm.map r
      · subst h
        rcases (by omega : k = 0 ∨ k = 1 ∨ k = 2) with rfl | rfl | rfl <;> simp [hm]
      · simp [h, Ne.symm h]
    apply this
    cases cols.timeCentroid <;> cases cols.exposure <;> cases cols.weight <;>
      cases cols.sigma <;> rfl
  · rw [if_neg hm, if_neg, add_zero]
    rintro ⟨rfl, h⟩
    exact hm h

theorem rowStep_tc (r : Nat) (s : RowAcc K) (o : Nat) (u : Nat → K) (hu : cols.timeCentroid = some u) :
    (rowStep rm flagRow ant1 ant2 cols ncorr r s).timeCentroid o =
      s.timeCentroid o + if hits rm flagRow r o then u r else 0 := by
  unfold rowStep
  simp only
  by_cases hm : flagsMatch flagRow r rm.flagRow (rm.map r) = true
  · rw [if_pos hm]
    unfold rowAdd
    rw [hu]
    have : ∀ s' : RowAcc K, s'.timeCentroid = add1 s.timeCentroid (rm.map r) (u r) →
        s'.timeCentroid o = s.timeCentroid o +
        if rm.map r = o ∧ flagsMatch flagRow r rm.flagRow o = true then u r else 0 := by
      intro s' h
      rw [h]
      simp only [add1_apply]
      by_cases h : o = rm.map r
      · subst h; simp [hm]
      · simp [h, Ne.symm h]
    apply this
    cases cols.uvw <;> cases cols.exposure <;> cases cols.weight <;>
      cases cols.sigma <;> rfl
  · rw [if_neg hm, if_neg, add_zero]
    rintro ⟨rfl, h⟩
    exact hm h

theorem rowStep_exposure (r : Nat) (s : RowAcc K) (o : Nat) (u : Nat → K)
    (hu : cols.exposure = some u) :
    (rowStep rm flagRow ant1 ant2 cols ncorr r s).exposure o =
      s.exposure o + if hits rm flagRow r o then u r else 0 := by
  unfold rowStep
  simp only
  by_cases hm : flagsMatch flagRow r rm.flagRow (rm.map r) = true
  · rw [if_pos hm]
    unfold rowAdd
    rw [hu]
    have : ∀ s' : RowAcc K, s'.exposure = add1 s.exposure (rm.map r) (u r) →
        s'.exposure o = s.exposure o +
        if rm.map r = o ∧ flagsMatch flagRow r rm.flagRow o = true then u r else 0 := by
      intro s' h
      rw [h]
      simp only [add1_apply]
      by_cases h : o = rm.map r
      · subst h; simp [hm]
      · simp [h, Ne.symm h]
    apply this
    cases cols.uvw <;> cases cols.timeCentroid <;> cases cols.weight <;>
      cases cols.sigma <;> rfl
  · rw [if_neg hm, if_neg, add_zero]
    rintro ⟨rfl, h⟩
    exact hm h

theorem hits_corr (r o co : Nat) (hm : flagsMatch flagRow r rm.flagRow (rm.map r) = true) (x : K)
    (hco : co < ncorr) :
    (if o = rm.map r ∧ co < ncorr then x else 0) =
      if rm.map r = o ∧ flagsMatch flagRow r rm.flagRow o = true then x else 0 := by
  by_cases h : o = rm.map r
  · subst h; simp [hm, hco]
  · simp [h, Ne.symm h]

theorem rowStep_weight (r : Nat) (s : RowAcc K) (o co : Nat) (w : Nat → Nat → K)
    (hw : cols.weight = some w) (hco : co < ncorr) :
    (rowStep rm flagRow ant1 ant2 cols ncorr r s).weight o co =
      s.weight o co + if hits rm flagRow r o then w r co else 0 := by
  unfold rowStep
  simp only
  by_cases hm : flagsMatch flagRow r rm.flagRow (rm.map r) = true
  · rw [if_pos hm]
    unfold rowAdd
    rw [hw]
    have : ∀ s' : RowAcc K, s'.weight = (forRange ncorr s.weight fun co a =>
        add2 a (rm.map r) co (w r co)) →
        s'.weight o co = s.weight o co +
        if rm.map r = o ∧ flagsMatch flagRow r rm.flagRow o = true then w r co else 0 := by
      intro s' h
      rw [h, forRange_obs (fun a : Nat → Nat → K => a o co)
        (fun c => if o = rm.map r ∧ co = c then w r c else 0) _ _ _
        (fun c a _ => add2_apply a (rm.map r) c (w r c) o co), sum_corr,
        hits_corr rm flagRow ncorr r o co hm _ hco]
    apply this
    cases cols.uvw <;> cases cols.timeCentroid <;> cases cols.exposure <;>
      cases cols.sigma <;> rfl
  · rw [if_neg hm, if_neg, add_zero]
    rintro ⟨rfl, h⟩
    exact hm h

theorem sigmaAdd_eq (weight : Option (Nat → Nat → K)) (sg : Nat → Nat → K) (r ro c : Nat)
    (p : (Nat → Nat → K) × (Nat → Nat → K)) :
    sigmaAdd weight sg r ro c p =
      (add2 p.1 ro c (sg r c ^ 2 * rowWt weight r c ^ 2), add2 p.2 ro c (rowWt weight r c)) := by
  unfold sigmaAdd rowWt
  cases weight <;> simp

theorem rowStep_sigma (r : Nat) (s : RowAcc K) (o co : Nat) (sg : Nat → Nat → K)
    (hs : cols.sigma = some sg) (hco : co < ncorr) :
    (rowStep rm flagRow ant1 ant2 cols ncorr r s).sigma o co =
      s.sigma o co + (if hits rm flagRow r o then sg r co ^ 2 * rowWt cols.weight r co ^ 2 else 0) ∧
    (rowStep rm flagRow ant1 ant2 cols ncorr r s).sigmaW o co =
      s.sigmaW o co + (if hits rm flagRow r o then rowWt cols.weight r co else 0) := by
  unfold rowStep
  simp only
  by_cases hm : flagsMatch flagRow r rm.flagRow (rm.map r) = true
  · rw [if_pos hm]
    unfold rowAdd
    rw [hs]
    have : ∀ s' : RowAcc K, (s'.sigma, s'.sigmaW) = (forRange ncorr (s.sigma, s.sigmaW) fun co a =>
        sigmaAdd cols.weight sg r (rm.map r) co a) →
        s'.sigma o co = s.sigma o co +
          (if rm.map r = o ∧ flagsMatch flagRow r rm.flagRow o = true then
            sg r co ^ 2 * rowWt cols.weight r co ^ 2 else 0) ∧
        s'.sigmaW o co = s.sigmaW o co +
          (if rm.map r = o ∧ flagsMatch flagRow r rm.flagRow o = true then
            rowWt cols.weight r co else 0) := by
      intro s' h
      have h1 : s'.sigma = _ := congrArg Prod.fst h
      have h2 : s'.sigmaW = _ := congrArg Prod.snd h
      rw [h1, h2]
      constructor
      · rw [forRange_obs (fun a : (Nat → Nat → K) × (Nat → Nat → K) => a.1 o co)
          (fun c => if o = rm.map r ∧ co = c then sg r c ^ 2 * rowWt cols.weight r c ^ 2 else 0)
          _ _ _ (fun c a _ => by rw [sigmaAdd_eq]; exact add2_apply _ _ _ _ _ _),
          sum_corr ncorr co (o = rm.map r) fun c => sg r c ^ 2 * rowWt cols.weight r c ^ 2,
          hits_corr rm flagRow ncorr r o co hm _ hco]
      · rw [forRange_obs (fun a : (Nat → Nat → K) × (Nat → Nat → K) => a.2 o co)
          (fun c => if o = rm.map r ∧ co = c then rowWt cols.weight r c else 0)
          _ _ _ (fun c a _ => by rw [sigmaAdd_eq]; exact add2_apply _ _ _ _ _ _),
          sum_corr ncorr co (o = rm.map r) fun c => rowWt cols.weight r c,
          hits_corr rm flagRow ncorr r o co hm _ hco]
    apply this
    cases cols.uvw <;> cases cols.timeCentroid <;> cases cols.exposure <;>
      cases cols.weight <;> rfl
  · rw [if_neg hm, if_neg, if_neg, add_zero, add_zero]
    · exact ⟨rfl, rfl⟩
    all_goals
      rintro ⟨rfl, h⟩
      exact hm h

theorem rowStep_ant (r : Nat) (s : RowAcc K) :
    (rowStep rm flagRow ant1 ant2 cols ncorr r s).ant1 = update s.ant1 (rm.map r) (ant1 r) ∧
    (rowStep rm flagRow ant1 ant2 cols ncorr r s).ant2 = update s.ant2 (rm.map r) (ant2 r) := by
  unfold rowStep
  simp only
  split
  · unfold rowAdd
    constructor <;> congr 1 <;>
      cases cols.uvw <;> cases cols.timeCentroid <;> cases cols.exposure <;>
      cases cols.weight <;> cases cols.sigma <;> rfl
  · exact ⟨rfl, rfl⟩

end row

/-- With 0/1 flags, the rows that the code lets contribute are the specified ones. -/
theorem hits_filter {n : Nat} {time interval : Nat → ℚ} {ant1 ant2 : Nat → Int}
    {flagRow : Option (Nat → Nat)} {secs sentinel : ℚ} {rm : RowMapOutput}
    (hok : RowMapOK n time interval ant1 ant2 flagRow secs sentinel rm)
    (h01 : ZeroOne n flagRow) {o : Nat} (ho : o < rm.outRows) :
    (Finset.range n).filter (fun r => hits rm flagRow r o) = contributors n rm.map flagRow o ∧
      (contributors n rm.map flagRow o).Nonempty := by
  obtain ⟨r0, hr0, hm0⟩ := hok.onto o ho
  have hmem0 : r0 ∈ fibre n rm.map o := by simp [fibre, hr0, hm0]
  cases hf : flagRow with
  | none =>
    have hg := hok.flag_none hf
    have hc : contributors n rm.map none o = fibre n rm.map o := by
      unfold contributors
      rw [if_neg]
      · simp [rowFlagged]
      · intro h; exact h r0 hmem0
    rw [hc]
    refine ⟨?_, r0, hmem0⟩
    ext r
    simp [fibre, flagsMatch]
  | some f =>
    obtain ⟨g, hg, hgo⟩ := hok.flag_ok f hf
    obtain ⟨g1, g0⟩ := hgo o ho
    unfold contributors
    split
    · rename_i hall
      have hgo1 := g1 fun r hr hm => hall r (by simp [fibre, hr, hm])
      refine ⟨?_, r0, hmem0⟩
      ext r
      simp only [fibre, hits, flagsMatch, hg, Finset.mem_filter, Finset.mem_range, hgo1]
      constructor
      · rintro ⟨h1, h2, _⟩; exact ⟨h1, h2⟩
      · rintro ⟨h1, h2⟩
        refine ⟨h1, h2, ?_⟩
        have := hall r (by simp [fibre, h1, h2])
        simp only [rowFlagged] at this
        rcases h01 f hf r h1 with h | h
        · exact absurd h this
        · simp [h]
    · rename_i hall
      push Not at hall
      obtain ⟨r1, hr1, hn1⟩ := hall
      have hr1' := hr1
      simp only [fibre, Finset.mem_filter, Finset.mem_range] at hr1'
      have hgo0 := g0 ⟨r1, hr1'.1, hr1'.2, by simpa [rowFlagged] using hn1⟩
      refine ⟨?_, r1, by simp [hr1, hn1]⟩
      ext r
      simp [fibre, flagsMatch, hg, hgo0, rowFlagged, and_assoc]

end Verif.Averaging
