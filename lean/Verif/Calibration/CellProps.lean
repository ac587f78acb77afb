/-
C182: what the gains of one time bin, channel and correlation depend on.
-/
import Verif.Calibration.DescentProps
import Verif.Calibration.SymLemmas
import Mathlib.Data.Set.Function

set_option autoImplicit false

noncomputable section

namespace Verif.Calibration

open Complex

/-! ### Specification -/

/-- The arrays passed to `gauss_newton`. -/
structure Solve where
  ext : Ext5
  idx : Nat → Nat
  cnt : Nat → Nat
  ant1 : Nat → Nat
  ant2 : Nat → Nat
  jones : Arr5 ℂ
  vis : Nat → Nat → Nat → ℂ
  flagged : Nat → Nat → Bool
  model : Nat → Nat → Nat → Nat → ℂ
  weight : Nat → Nat → Nat → ℝ

/-- The call. -/
def Solve.run (p : Solve) (tol : ℝ) (maxiter : Nat) : Except PyErr (Arr5 ℂ × Arr5 ℝ × Arr5 ℂ × Nat) :=
  gaussNewton 5 3 p.ext p.idx p.cnt p.ant1 p.ant2 p.jones p.vis p.flagged p.model p.weight tol maxiter

/-- Time bins that share no row, the smallest index being `m`. -/
structure Solve.Binned (p : Solve) (m : Nat) : Prop where
  first : IsMin p.ext.ntim p.idx m
  bins : Disjoint' p.ext.ntim p.idx p.cnt

/-- The rows of time bin `t` that are not flagged in channel `nu`. -/
def Solve.used (p : Solve) (m t nu : Nat) : Set Nat :=
  {r | p.idx t - m ≤ r ∧ r < p.idx t - m + p.cnt t ∧ p.flagged r nu = false}

/-- The unflagged data of cell `(t, nu, c)` of one call are those of cell `(t', nu', c')` of another, in any
order, and the initial gains are the same. -/
structure SameCell (p : Solve) (m t nu c : Nat) (q : Solve) (m' t' nu' c' : Nat) (σ : Nat → Nat) : Prop where
  rows : Set.BijOn σ (p.used m t nu) (q.used m' t' nu')
  ant1 : ∀ r ∈ p.used m t nu, q.ant1 (σ r) = p.ant1 r
  ant2 : ∀ r ∈ p.used m t nu, q.ant2 (σ r) = p.ant2 r
  vis : ∀ r ∈ p.used m t nu, q.vis (σ r) nu' c' = p.vis r nu c
  model : ∀ r ∈ p.used m t nu, ∀ s < p.ext.ndir, q.model (σ r) nu' s c' = p.model r nu s c
  weight : ∀ r ∈ p.used m t nu, q.weight (σ r) nu' c' = p.weight r nu c
  gains : ∀ a s, s < p.ext.ndir → q.jones t' a nu' s c' = p.jones t a nu s c

/-! ### Lemmas -/

/-- The rows of `used` as a finite set. -/
def Solve.usedF (p : Solve) (m t nu : Nat) : Finset Nat :=
  (Finset.Ico (p.idx t - m) (p.idx t - m + p.cnt t)).filter fun r => p.flagged r nu = false

theorem Solve.mem_usedF {p : Solve} {m t nu r : Nat} : r ∈ p.usedF m t nu ↔ r ∈ p.used m t nu := by
  unfold usedF used
  simp only [Finset.mem_filter, Finset.mem_Ico, Set.mem_ofPred_eq]
  tauto

theorem Solve.sum_usedF {M : Type*} [AddCommMonoid M] (p : Solve) (m t nu : Nat) (f : Nat → M) :
    (∑ k ∈ Finset.range (p.cnt t), if p.flagged (binRow p.idx m t k) nu then 0 else f (binRow p.idx m t k)) =
      ∑ r ∈ p.usedF m t nu, f r := by
  unfold usedF binRow
  rw [Finset.sum_filter, Finset.sum_Ico_eq_sum_range, Nat.add_sub_cancel_left]
  refine Finset.sum_congr rfl fun k _ => ?_
  cases p.flagged (p.idx t - m + k) nu <;> simp

theorem SameCell.sum {M : Type*} [AddCommMonoid M] {p q : Solve} {m t nu c m' t' nu' c' : Nat} {σ : Nat → Nat}
    (h : SameCell p m t nu c q m' t' nu' c' σ) (f g : Nat → M) (hfg : ∀ r ∈ p.used m t nu, g (σ r) = f r) :
    ∑ r ∈ q.usedF m' t' nu', g r = ∑ r ∈ p.usedF m t nu, f r := by
  symm
  refine Finset.sum_nbij σ (fun r hr => ?_) ?_ ?_ fun r hr => (hfg r (Solve.mem_usedF.1 hr)).symm
  · exact Solve.mem_usedF.2 (h.rows.mapsTo (Solve.mem_usedF.1 hr))
  · intro a ha b hb hab
    exact h.rows.injOn (Solve.mem_usedF.1 ha) (Solve.mem_usedF.1 hb) hab
  · intro b hb
    obtain ⟨a, ha, rfl⟩ := h.rows.surjOn (Solve.mem_usedF.1 hb)
    exact ⟨a, Solve.mem_usedF.2 ha, rfl⟩

/-- What one iteration adds to `jhr`. -/
def Solve.jhrTerm (p : Solve) (j : Arr5 ℂ) (t a nu s c r : Nat) : ℂ :=
  (starRingEnd ℂ) (((if p.ant1 r = a then I else 0) - (if p.ant2 r = a then I else 0)) *
      (j t (p.ant1 r) nu s c * (p.model r nu s c * (Real.sqrt (p.weight r nu c) : ℂ)) *
        (starRingEnd ℂ) (j t (p.ant2 r) nu s c))) *
    (p.vis r nu c * (Real.sqrt (p.weight r nu c) : ℂ) - ∑ s ∈ Finset.range p.ext.ndir,
      j t (p.ant1 r) nu s c * (p.model r nu s c * (Real.sqrt (p.weight r nu c) : ℂ)) *
        (starRingEnd ℂ) (j t (p.ant2 r) nu s c))

def Solve.jhjTerm (p : Solve) (j : Arr5 ℂ) (t a nu s c r : Nat) : ℝ :=
  ((if p.ant1 r = a then 1 else 0) + (if p.ant2 r = a then 1 else 0)) *
    normSq (j t (p.ant1 r) nu s c * (p.model r nu s c * (Real.sqrt (p.weight r nu c) : ℂ)) *
      (starRingEnd ℂ) (j t (p.ant2 r) nu s c))

def Solve.step (p : Solve) (jhj : Arr5 ℝ) : Arr5 ℂ → Except PyErr (Arr5 ℂ × Arr5 ℂ × ℝ) :=
  gnStep p.ext p.idx p.cnt p.ant1 p.ant2 (fun r nu c => p.vis r nu c * (Real.sqrt (p.weight r nu c) : ℂ)) p.flagged
    (fun r nu s c => p.model r nu s c * (Real.sqrt (p.weight r nu c) : ℂ)) jhj

theorem Solve.step_form {p : Solve} {m : Nat} (hp : p.Binned m) (jhj : Arr5 ℝ) (j : Arr5 ℂ) :
    ∃ jhr : Arr5 ℂ,
      (∀ t < p.ext.ntim, ∀ a, ∀ nu < p.ext.nchan, ∀ s < p.ext.ndir, ∀ c,
        jhr t a nu s c = ∑ r ∈ p.usedF m t nu, p.jhrTerm j t a nu s c r) ∧
      p.step jhj j = match npMax (elems p.ext fun t a nu s c => |0.5 * (jhr t a nu s c / (jhj t a nu s c : ℂ)).re|) with
        | .error err => .error err
        | .ok eps => .ok (fun t a nu s c => exp (I * (((j t a nu s c).arg +
            0.5 * (jhr t a nu s c / (jhj t a nu s c : ℂ)).re : ℝ) : ℂ)), jhr, eps) := by
  obtain ⟨res, v, hres, hv, hrel⟩ := C23_residual_diag_diag (K := ℂ) p.ant1 p.ant2 p.ext.nchan p.ext.ndir j
    (fun r nu c => p.vis r nu c * (Real.sqrt (p.weight r nu c) : ℂ)) p.flagged
    (fun r nu s c => p.model r nu s c * (Real.sqrt (p.weight r nu c) : ℂ)) hp.first hp.bins
  obtain ⟨_, jhr, _, hjhr, hent⟩ := C27_entries (residual := res) (cnt := p.cnt) (ant1 := p.ant1)
    (ant2 := p.ant2) (nchan := p.ext.nchan) (ndir := p.ext.ndir) (jones := j)
    (model := fun r nu s c => p.model r nu s c * (Real.sqrt (p.weight r nu c) : ℂ))
    (flagged := p.flagged) m hp.first
  refine ⟨jhr, fun t ht a nu hnu s hs c => ?_, ?_⟩
  · rw [(hent t ht a nu hnu s hs c).2, p.sum_usedF m t nu (fun r => (starRingEnd ℂ) (((if p.ant1 r = a then I else 0) -
      (if p.ant2 r = a then I else 0)) * (j t (p.ant1 r) nu s c * (p.model r nu s c * (Real.sqrt (p.weight r nu c) : ℂ)) *
        (starRingEnd ℂ) (j t (p.ant2 r) nu s c))) * res r nu c)]
    refine Finset.sum_congr rfl fun r hr => ?_
    rw [Solve.mem_usedF] at hr
    have hbin : InBin p.idx p.cnt t (m + r) := by
      have := hp.first.2 t ht
      have := hr.1
      have := hr.2.1
      unfold InBin
      omega
    unfold jhrTerm
    congr 1
    rw [(hrel t ht r hbin nu hnu c).2 hr.2.2]
    congr 1
    have hv' := hv
    unfold corruptVis at hv'
    rw [shiftIdx_ok hp.first] at hv'
    cases hv'
    rw [binLoop_bin (disjoint_shift hp.first hp.bins) ht ((inBin_shift hp.first ht).2 hbin) hnu, jonesMulDD_eq, zero_add]
    rfl
  · unfold step gnStep
    simp only
    rw [hres]
    simp only
    rw [hjhr]
    simp only [add_sub_cancel_left] <;> rfl

theorem SameCell.jhr {p q : Solve} {m t nu c m' t' nu' c' : Nat} {σ : Nat → Nat}
    (h : SameCell p m t nu c q m' t' nu' c' σ) (hd : q.ext.ndir = p.ext.ndir) (j j' : Arr5 ℂ)
    (hj : ∀ a s, s < p.ext.ndir → j' t' a nu' s c' = j t a nu s c) (a s : Nat) (hs : s < p.ext.ndir) :
    ∑ r ∈ q.usedF m' t' nu', q.jhrTerm j' t' a nu' s c' r = ∑ r ∈ p.usedF m t nu, p.jhrTerm j t a nu s c r := by
  refine h.sum _ _ fun r hr => ?_
  unfold Solve.jhrTerm
  rw [h.ant1 r hr, h.ant2 r hr, h.vis r hr, h.model r hr s hs, h.weight r hr, hj _ s hs, hj _ s hs, hd]
  congr 2
  refine Finset.sum_congr rfl fun s' hs' => ?_
  rw [Finset.mem_range] at hs'
  rw [h.model r hr s' hs', hj _ s' hs', hj _ s' hs']

theorem SameCell.jhj {p q : Solve} {m t nu c m' t' nu' c' : Nat} {σ : Nat → Nat}
    (h : SameCell p m t nu c q m' t' nu' c' σ) (a s : Nat) (hs : s < p.ext.ndir) :
    ∑ r ∈ q.usedF m' t' nu', q.jhjTerm q.jones t' a nu' s c' r =
      ∑ r ∈ p.usedF m t nu, p.jhjTerm p.jones t a nu s c r := by
  refine h.sum _ _ fun r hr => ?_
  unfold Solve.jhjTerm
  rw [h.ant1 r hr, h.ant2 r hr, h.model r hr s hs, h.weight r hr, h.gains _ s hs, h.gains _ s hs]

theorem Solve.jhj_form {p : Solve} {m : Nat} (hp : p.Binned m) :
    ∃ jhj : Arr5 ℝ,
      (∀ t < p.ext.ntim, ∀ a, ∀ nu < p.ext.nchan, ∀ s < p.ext.ndir, ∀ c,
        jhj t a nu s c = ∑ r ∈ p.usedF m t nu, p.jhjTerm p.jones t a nu s c r) ∧
      ∀ tol maxiter, p.run tol maxiter = match gnWhile (p.step jhj) tol maxiter 1 0 p.jones none with
        | .error err => .error err
        | .ok (_, none, _) => .error .unboundLocalError
        | .ok (g, some jhr, k) => .ok (g, jhj, jhr, k) := by
  obtain ⟨jhj, _, hjhj, _, hent⟩ := C27_entries (residual := fun _ _ _ => 0) (cnt := p.cnt) (ant1 := p.ant1)
    (ant2 := p.ant2) (nchan := p.ext.nchan) (ndir := p.ext.ndir) (jones := p.jones)
    (model := fun r nu s c => p.model r nu s c * (Real.sqrt (p.weight r nu c) : ℂ))
    (flagged := p.flagged) m hp.first
  refine ⟨jhj, fun t ht a nu hnu s hs c => ?_, fun tol maxiter => ?_⟩
  · rw [(hent t ht a nu hnu s hs c).1]
    exact p.sum_usedF m t nu fun r => p.jhjTerm p.jones t a nu s c r
  · unfold run gaussNewton
    simp only [checkType]
    simp only [if_true, ne_eq, not_true_eq_false, if_false]
    rw [hjhj]
    rfl

/-- `n` iterations from `j` give `g` and the last `jhr`. -/
inductive Steps (step : Arr5 ℂ → Except PyErr (Arr5 ℂ × Arr5 ℂ × ℝ)) :
    Nat → Arr5 ℂ → Option (Arr5 ℂ) → Arr5 ℂ → Option (Arr5 ℂ) → Prop
  | zero (j : Arr5 ℂ) (r : Option (Arr5 ℂ)) : Steps step 0 j r j r
  | succ {n : Nat} {j g1 r1 g : Arr5 ℂ} {eps : ℝ} {r0 r : Option (Arr5 ℂ)} (h : step j = .ok (g1, r1, eps))
      (hs : Steps step n g1 (some r1) g r) : Steps step (n + 1) j r0 g r

theorem steps_of_gnWhile {step : Arr5 ℂ → Except PyErr (Arr5 ℂ × Arr5 ℂ × ℝ)} {tol : ℝ} (fuel : Nat) (eps : ℝ)
    (k : Nat) (j : Arr5 ℂ) (r0 : Option (Arr5 ℂ)) (g : Arr5 ℂ) (r : Option (Arr5 ℂ)) (k' : Nat)
    (h : gnWhile step tol fuel eps k j r0 = .ok (g, r, k')) : ∃ n, k' = k + n ∧ Steps step n j r0 g r := by
  induction fuel generalizing eps k j r0 with
  | zero => simp only [gnWhile] at h; cases h; exact ⟨0, rfl, .zero _ _⟩
  | succ fuel ih =>
    simp only [gnWhile] at h
    split at h
    · cases hs : step j with
      | error err => rw [hs] at h; cases h
      | ok x =>
        obtain ⟨g1, r1, eps1⟩ := x
        rw [hs] at h
        obtain ⟨n, hn, hst⟩ := ih eps1 (k + 1) g1 (some r1) h
        exact ⟨n + 1, by omega, .succ hs hst⟩
    · cases h; exact ⟨0, rfl, .zero _ _⟩

theorem Solve.step_ok {p : Solve} {m : Nat} (hp : p.Binned m) {jhj : Arr5 ℝ} {j g r : Arr5 ℂ} {eps : ℝ}
    (h : p.step jhj j = .ok (g, r, eps)) :
    (∀ t < p.ext.ntim, ∀ a, ∀ nu < p.ext.nchan, ∀ s < p.ext.ndir, ∀ c,
        r t a nu s c = ∑ x ∈ p.usedF m t nu, p.jhrTerm j t a nu s c x) ∧
      (∀ t a nu s c, g t a nu s c = exp (I * (((j t a nu s c).arg +
        0.5 * (r t a nu s c / (jhj t a nu s c : ℂ)).re : ℝ) : ℂ))) ∧
      npMax (elems p.ext fun t a nu s c => |0.5 * (r t a nu s c / (jhj t a nu s c : ℂ)).re|) = .ok eps := by
  obtain ⟨jhr, h1, h2⟩ := Solve.step_form hp jhj j
  rw [h] at h2
  split at h2
  · cases h2
  · rename_i e he
    cases h2
    exact ⟨h1, fun _ _ _ _ _ => rfl, he⟩

theorem SameCell.steps {p q : Solve} {m t nu c m' t' nu' c' : Nat} {σ : Nat → Nat}
    (h : SameCell p m t nu c q m' t' nu' c' σ) (hd : q.ext.ndir = p.ext.ndir) (hp : p.Binned m) (hq : q.Binned m')
    (ht : t < p.ext.ntim) (hnu : nu < p.ext.nchan) (ht' : t' < q.ext.ntim) (hnu' : nu' < q.ext.nchan)
    (jhj jhj' : Arr5 ℝ) (hjj : ∀ a s, s < p.ext.ndir → jhj' t' a nu' s c' = jhj t a nu s c)
    (n : Nat) (j g : Arr5 ℂ) (r0 r : Option (Arr5 ℂ)) (hs : Steps (p.step jhj) n j r0 g r) :
    ∀ (j' g' : Arr5 ℂ) (r0' r' : Option (Arr5 ℂ)), Steps (q.step jhj') n j' r0' g' r' →
    (∀ a s, s < p.ext.ndir → j' t' a nu' s c' = j t a nu s c) →
    (∀ x x', r0 = some x → r0' = some x' → ∀ a s, s < p.ext.ndir → x' t' a nu' s c' = x t a nu s c) →
    (∀ a s, s < p.ext.ndir → g' t' a nu' s c' = g t a nu s c) ∧
    (∀ x x', r = some x → r' = some x' → ∀ a s, s < p.ext.ndir → x' t' a nu' s c' = x t a nu s c) := by
  induction hs with
  | zero j r =>
    intro j' g' r0' r' hs' hj hr
    cases hs'
    exact ⟨hj, hr⟩
  | succ hst _ ih =>
    rename_i n j g1 r1 g eps r0 r hrest
    intro j' g' r0' r' hs' hj hr
    cases hs' with
    | succ hst' hs'' =>
      rename_i g1' r1' eps'
      obtain ⟨a1, a2, _⟩ := Solve.step_ok hp hst
      obtain ⟨b1, b2, _⟩ := Solve.step_ok hq hst'
      have hr1 : ∀ a s, s < p.ext.ndir → r1' t' a nu' s c' = r1 t a nu s c := by
        intro a s hs
        rw [a1 t ht a nu hnu s hs c, b1 t' ht' a nu' hnu' s (by omega) c']
        exact h.jhr hd j j' hj a s hs
      refine ih _ _ _ _ hs'' (fun a s hs => ?_) fun x x' hx hx' => ?_
      · rw [a2, b2, hj a s hs, hr1 a s hs, hjj a s hs]
      · cases hx; cases hx'
        exact hr1

/-! ### Theorems -/

/-- C182. After the same number of iterations, cells with the same data have the same results: the gains of a
time bin, channel and correlation depend on the unflagged data and initial gains of that cell, not on the order
of its rows nor on any other cell, tolerance or limit, except through the number of iterations. -/
theorem C182_cells_partial (p q : Solve) (m m' t t' nu nu' c c' : Nat) (σ : Nat → Nat) (tol tol' : ℝ)
    (maxiter maxiter' k : Nat) (g g' jhr jhr' : Arr5 ℂ) (jhj jhj' : Arr5 ℝ)
    (hp : p.Binned m) (hq : q.Binned m') (hd : q.ext.ndir = p.ext.ndir)
    (ht : t < p.ext.ntim) (hnu : nu < p.ext.nchan) (ht' : t' < q.ext.ntim) (hnu' : nu' < q.ext.nchan)
    (h : SameCell p m t nu c q m' t' nu' c' σ)
    (h1 : p.run tol maxiter = .ok (g, jhj, jhr, k)) (h2 : q.run tol' maxiter' = .ok (g', jhj', jhr', k)) :
    ∀ a, ∀ s < p.ext.ndir, g' t' a nu' s c' = g t a nu s c ∧ jhj' t' a nu' s c' = jhj t a nu s c ∧
      jhr' t' a nu' s c' = jhr t a nu s c := by
  obtain ⟨J, hJ, e1⟩ := Solve.jhj_form hp
  obtain ⟨J', hJ', e2⟩ := Solve.jhj_form hq
  rw [e1] at h1
  rw [e2] at h2
  split at h1
  · cases h1
  · cases h1
  rename_i x1 hx1
  cases h1
  split at h2
  · cases h2
  · cases h2
  rename_i x2 hx2
  cases h2
  obtain ⟨n, hn, s1⟩ := steps_of_gnWhile _ _ _ _ _ _ _ _ hx1
  obtain ⟨n', hn', s2⟩ := steps_of_gnWhile _ _ _ _ _ _ _ _ hx2
  obtain rfl : n = n' := by omega
  have hjj : ∀ a s, s < p.ext.ndir → jhj' t' a nu' s c' = jhj t a nu s c := by
    intro a s hs
    rw [hJ t ht a nu hnu s hs c, hJ' t' ht' a nu' hnu' s (by omega) c']
    exact h.jhj a s hs
  obtain ⟨r1, r2⟩ := h.steps hd hp hq ht hnu ht' hnu' jhj jhj' hjj n _ _ _ _ s1 _ _ _ _ s2 h.gains
    (fun x x' hx _ => by cases hx)
  exact fun a s hs => ⟨r1 a s hs, hjj a s hs, r2 _ _ rfl rfl a s hs⟩

/-- C182. Reordering rows inside time bins, time bins, channels and correlations reorders the results in the
same way: the number of iterations stays what it was. -/
theorem C182_order (p q : Solve) (m m' : Nat) (θ ρ χ : Nat → Nat) (σ : Nat → Nat → Nat → Nat) (tol : ℝ)
    (maxiter k : Nat) (g jhr : Arr5 ℂ) (jhj : Arr5 ℝ)
    (hp : p.Binned m) (hq : q.Binned m') (he : q.ext = p.ext)
    (hθ : Set.BijOn θ (Set.Iio p.ext.ntim) (Set.Iio p.ext.ntim))
    (hρ : Set.BijOn ρ (Set.Iio p.ext.nchan) (Set.Iio p.ext.nchan))
    (hχ : Set.BijOn χ (Set.Iio p.ext.ncorr) (Set.Iio p.ext.ncorr))
    (h : ∀ t < p.ext.ntim, ∀ nu < p.ext.nchan, ∀ c < p.ext.ncorr,
      SameCell p m t nu c q m' (θ t) (ρ nu) (χ c) (σ t nu))
    (h1 : p.run tol maxiter = .ok (g, jhj, jhr, k)) :
    ∃ g' jhj' jhr', q.run tol maxiter = .ok (g', jhj', jhr', k) ∧
      ∀ t < p.ext.ntim, ∀ a, ∀ nu < p.ext.nchan, ∀ s < p.ext.ndir, ∀ c < p.ext.ncorr,
        g' (θ t) a (ρ nu) s (χ c) = g t a nu s c ∧ jhj' (θ t) a (ρ nu) s (χ c) = jhj t a nu s c ∧
          jhr' (θ t) a (ρ nu) s (χ c) = jhr t a nu s c := by
  obtain ⟨J, hJ, e1⟩ := Solve.jhj_form hp
  obtain ⟨J', hJ', e2⟩ := Solve.jhj_form hq
  rw [he] at hJ'
  rw [e1] at h1
  split at h1
  · cases h1
  · cases h1
  rename_i x1 hx1
  cases h1
  have hθ1 : ∀ t < p.ext.ntim, θ t < p.ext.ntim := fun t ht => hθ.mapsTo ht
  have hρ1 : ∀ t < p.ext.nchan, ρ t < p.ext.nchan := fun t ht => hρ.mapsTo ht
  have hχ1 : ∀ t < p.ext.ncorr, χ t < p.ext.ncorr := fun t ht => hχ.mapsTo ht
  let R : {M : Type} → Arr5 M → Arr5 M → Prop := fun x x' => ∀ t < p.ext.ntim, ∀ a, ∀ nu < p.ext.nchan,
    ∀ s < p.ext.ndir, ∀ c < p.ext.ncorr, x' (θ t) a (ρ nu) s (χ c) = x t a nu s c
  have hjj : R jhj J' := by
    intro t ht a nu hnu s hs c hc
    rw [hJ t ht a nu hnu s hs c, hJ' _ (hθ1 t ht) a _ (hρ1 nu hnu) s hs]
    exact (h t ht nu hnu c hc).jhj a s hs
  have hstep : ∀ j j' g r eps, R j j' → p.step jhj j = .ok (g, r, eps) →
      ∃ g' r', q.step J' j' = .ok (g', r', eps) ∧ R g g' ∧ R r r' := by
    intro j j' g r eps hj hs
    obtain ⟨a1, a2, a3⟩ := Solve.step_ok hp hs
    obtain ⟨r', b1, b2⟩ := Solve.step_form hq J' j'
    rw [he] at b1
    have hr : R r r' := by
      intro t ht a nu hnu s hs c hc
      rw [a1 t ht a nu hnu s hs c, b1 _ (hθ1 t ht) a _ (hρ1 nu hnu) s hs]
      exact (h t ht nu hnu c hc).jhr (by rw [he]) j j' (fun a s hs => hj t ht a nu hnu s hs c hc) a s hs
    have hmax : npMax (elems q.ext fun t a nu s c => |0.5 * (r' t a nu s c / (J' t a nu s c : ℂ)).re|) = .ok eps := by
      rw [← a3, he]
      refine npMax_mem fun x => ?_
      simp only [mem_elems]
      constructor
      · rintro ⟨t, ht, a, ha, nu, hnu, s, hs, c, hc, rfl⟩
        obtain ⟨t0, ht0, rfl⟩ := hθ.surjOn ht
        obtain ⟨nu0, hnu0, rfl⟩ := hρ.surjOn hnu
        obtain ⟨c0, hc0, rfl⟩ := hχ.surjOn hc
        refine ⟨t0, ht0, a, ha, nu0, hnu0, s, hs, c0, hc0, ?_⟩
        rw [hr t0 ht0 a nu0 hnu0 s hs c0 hc0, hjj t0 ht0 a nu0 hnu0 s hs c0 hc0]
      · rintro ⟨t, ht, a, ha, nu, hnu, s, hs, c, hc, rfl⟩
        refine ⟨_, hθ1 t ht, a, ha, _, hρ1 nu hnu, s, hs, _, hχ1 c hc, ?_⟩
        rw [hr t ht a nu hnu s hs c hc, hjj t ht a nu hnu s hs c hc]
    rw [hmax] at b2
    refine ⟨_, r', b2, fun t ht a nu hnu s hs c hc => ?_, hr⟩
    rw [a2]
    show exp (I * (((j' (θ t) a (ρ nu) s (χ c)).arg + 0.5 * (r' (θ t) a (ρ nu) s (χ c) /
      (J' (θ t) a (ρ nu) s (χ c) : ℂ)).re : ℝ) : ℂ)) = _
    rw [hj t ht a nu hnu s hs c hc, hr t ht a nu hnu s hs c hc, hjj t ht a nu hnu s hs c hc]
  have hloop : ∀ (fuel : Nat) (eps : ℝ) (k : Nat) (j j' : Arr5 ℂ) (r0 r0' : Option (Arr5 ℂ)) (g jhr : Arr5 ℂ)
      (k1 : Nat), R j j' → (r0.isSome = r0'.isSome) →
      (∀ x x', r0 = some x → r0' = some x' → R x x') →
      gnWhile (p.step jhj) tol fuel eps k j r0 = .ok (g, some jhr, k1) →
      ∃ g' jhr', gnWhile (q.step J') tol fuel eps k j' r0' = .ok (g', some jhr', k1) ∧ R g g' ∧ R jhr jhr' := by
    intro fuel
    induction fuel with
    | zero =>
      intro eps k j j' r0 r0' g jhr k1 hj hsome hr hw
      simp only [gnWhile] at hw ⊢
      cases hw
      obtain ⟨x', rfl⟩ := Option.isSome_iff_exists.1 hsome.symm
      exact ⟨j', x', rfl, hj, hr _ _ rfl rfl⟩
    | succ fuel ih =>
      intro eps k j j' r0 r0' g jhr k1 hj hsome hr hw
      simp only [gnWhile] at hw ⊢
      split at hw
      · rename_i hgt
        rw [if_pos hgt]
        cases hs : p.step jhj j with
        | error err => rw [hs] at hw; cases hw
        | ok x =>
          obtain ⟨g1, r1, eps1⟩ := x
          rw [hs] at hw
          obtain ⟨g1', r1', hs', hg1, hr1⟩ := hstep j j' g1 r1 eps1 hj hs
          rw [hs']
          exact ih eps1 (k + 1) g1 g1' (some r1) (some r1') g jhr k1 hg1 rfl
            (fun x x' hx hx' => by cases hx; cases hx'; exact hr1) hw
      · rename_i hgt
        rw [if_neg hgt]
        cases hw
        obtain ⟨x', rfl⟩ := Option.isSome_iff_exists.1 hsome.symm
        exact ⟨j', x', rfl, hj, hr _ _ rfl rfl⟩
  have hj0 : R p.jones q.jones := fun t ht a nu hnu s hs c hc => (h t ht nu hnu c hc).gains a s hs
  obtain ⟨g', jhr', hw, hg, hr⟩ := hloop maxiter 1 0 p.jones q.jones none none _ _ _ hj0 rfl
    (fun x x' hx _ => by cases hx) hx1
  refine ⟨g', J', jhr', ?_, fun t ht a nu hnu s hs c hc =>
    ⟨hg t ht a nu hnu s hs c hc, hjj t ht a nu hnu s hs c hc, hr t ht a nu hnu s hs c hc⟩⟩
  rw [e2, hw]

/-! ### The number of iterations is common to all cells -/

/-- One baseline, model 1, unit gains and `n` channels: the data are `i/2` in the first channel and `2i` in the
others. -/
def pairSolve (n : Nat) : Solve where
  ext := ⟨1, 2, n, 1, 1⟩
  idx := fun _ => 0
  cnt := fun _ => 1
  ant1 := fun _ => 0
  ant2 := fun _ => 1
  jones := fun _ _ _ _ _ => 1
  vis := fun _ nu _ => if nu = 0 then (I / 2 : ℂ) else 2 * I
  flagged := fun _ _ => false
  model := fun _ _ _ _ => 1
  weight := fun _ _ _ => 1

theorem pairSolve_binned (n : Nat) : (pairSolve n).Binned 0 :=
  ⟨⟨⟨0, Nat.one_pos, rfl⟩, fun _ _ => le_rfl⟩, by
    intro t ht t' ht' _ _ _
    have h1 : t < 1 := ht
    have h2 : t' < 1 := ht'
    omega⟩

theorem pairSolve_usedF (n t nu : Nat) : (pairSolve n).usedF 0 t nu = {0} := by
  ext r
  simp [Solve.usedF, pairSolve]

theorem pairSolve_jhr (n : Nat) (j : Arr5 ℂ) (nu : Nat) (x : ℝ) (h0 : j 0 0 nu 0 0 = exp (I * x))
    (h1 : j 0 1 nu 0 0 = exp (I * (-x : ℝ))) :
    ((pairSolve n).jhrTerm j 0 0 nu 0 0 0).re = (if nu = 0 then 1 / 2 else 2) * Real.cos (2 * x) ∧
      ((pairSolve n).jhrTerm j 0 1 nu 0 0 0).re = -((if nu = 0 then 1 / 2 else 2) * Real.cos (2 * x)) := by
  have hV : exp (I * x) * (1 * ((Real.sqrt 1 : ℝ) : ℂ)) * (starRingEnd ℂ) (exp (I * (-x : ℝ))) =
      ⟨Real.cos (2 * x), Real.sin (2 * x)⟩ := by
    have : exp (I * x) * (1 * ((Real.sqrt 1 : ℝ) : ℂ)) * (starRingEnd ℂ) (exp (I * (-x : ℝ))) =
        exp ((2 * x : ℝ) * I) := by
      rw [← exp_conj, Real.sqrt_one, ofReal_one, mul_one, mul_one, ← exp_add]
      congr 1
      simp only [map_mul, conj_I, conj_ofReal]
      push_cast
      ring
    rw [this]
    exact Complex.ext (exp_ofReal_mul_I_re _) (exp_ofReal_mul_I_im _)
  have hv : (if nu = 0 then (I / 2 : ℂ) else 2 * I) * ((Real.sqrt 1 : ℝ) : ℂ) =
      ⟨0, if nu = 0 then 1 / 2 else 2⟩ := by
    split <;> apply Complex.ext <;> simp
  unfold Solve.jhrTerm
  simp only [pairSolve, h0, h1, Finset.sum_range_one]
  rw [hV, hv]
  generalize (if nu = 0 then (1 : ℝ) / 2 else 2) = b
  constructor
  · simp
    ring
  · simp
    ring

theorem pairSolve_jhj (n : Nat) (a nu : Nat) (ha : a < 2) : (pairSolve n).jhjTerm (pairSolve n).jones 0 a nu 0 0 0 = 1 := by
  unfold Solve.jhjTerm
  have : a = 0 ∨ a = 1 := by omega
  rcases this with rfl | rfl <;> simp [pairSolve]

/-- C182 is violated. One baseline, model 1, unit gains, data `i/2`, `tol = 1/2` and `maxiter = 2`: calibrated
alone, the channel is finished after one iteration with phases `1/4` and `-1/4`. Together with a channel whose data
are `2i`, its phases are `1/4 + cos(1/2)/4` and the negative. -/
theorem C182_violated :
    SameCell (pairSolve 1) 0 0 0 0 (pairSolve 2) 0 0 0 0 id ∧
    ∃ g jhj jhr g' jhj' jhr',
      (pairSolve 1).run (1 / 2) 2 = .ok (g, jhj, jhr, 1) ∧
      (pairSolve 2).run (1 / 2) 2 = .ok (g', jhj', jhr', 2) ∧
      g 0 0 0 0 0 = exp (I * (1 / 4 : ℝ)) ∧
      g' 0 0 0 0 0 = exp (I * (1 / 4 + Real.cos (1 / 2) / 4 : ℝ)) ∧
      g' 0 0 0 0 0 ≠ g 0 0 0 0 0 := by
  have hmax : ∀ (n : Nat) (hn : 0 < n) (f : Arr5 ℝ), ∃ eps, npMax (elems (pairSolve n).ext f) = .ok eps ∧
      (∃ a < 2, ∃ nu < n, eps = f 0 a nu 0 0) ∧ ∀ nu < n, f 0 0 nu 0 0 ≤ eps := by
    intro n hn f
    cases hl : elems (pairSolve n).ext f with
    | nil =>
      have : f 0 0 0 0 0 ∈ elems (pairSolve n).ext f :=
        mem_elems.2 ⟨0, Nat.one_pos, 0, Nat.two_pos, 0, hn, 0, Nat.one_pos, 0, Nat.one_pos, rfl⟩
      rw [hl] at this
      cases this
    | cons x xs =>
      refine ⟨_, rfl, ?_, fun nu hnu => ?_⟩
      · have h1 : xs.foldl max x ∈ elems (pairSolve n).ext f := by
          rw [hl]
          exact npMax_attained (l := x :: xs) rfl
        obtain ⟨t, ht, a, ha, nu, hnu, s, hs, c, hc, he⟩ := mem_elems.1 h1
        have ht : t < 1 := ht
        have hs : s < 1 := hs
        have hc : c < 1 := hc
        obtain rfl : t = 0 := by omega
        obtain rfl : s = 0 := by omega
        obtain rfl : c = 0 := by omega
        exact ⟨a, ha, nu, hnu, he.symm⟩
      · have h1 : f 0 0 nu 0 0 ∈ x :: xs := by
          rw [← hl]
          exact mem_elems.2 ⟨0, Nat.one_pos, 0, Nat.two_pos, nu, hnu, 0, Nat.one_pos, 0, Nat.one_pos, rfl⟩
        have hle : ∀ (ys : List ℝ) (y : ℝ), ∀ z ∈ y :: ys, z ≤ ys.foldl max y := by
          intro ys
          induction ys with
          | nil => intro y z hz; simp only [List.mem_singleton] at hz; exact hz.le
          | cons w ws ih =>
            intro y z hz
            rw [List.foldl_cons]
            have hm := ih (max y w) (max y w) (by simp)
            rcases List.mem_cons.1 hz with rfl | hz
            · exact (le_max_left _ _).trans hm
            · rcases List.mem_cons.1 hz with rfl | hz
              · exact (le_max_right _ _).trans hm
              · exact ih _ z (by simp [hz])
        exact hle xs x _ h1
  have hfirst : ∀ n, 0 < n → ∃ J : Arr5 ℝ, (∀ tol maxiter, (pairSolve n).run tol maxiter =
        match gnWhile ((pairSolve n).step J) tol maxiter 1 0 (pairSolve n).jones none with
        | .error err => .error err
        | .ok (_, none, _) => .error .unboundLocalError
        | .ok (g, some jhr, k) => .ok (g, J, jhr, k)) ∧
      (∀ a < 2, ∀ nu < n, J 0 a nu 0 0 = 1) ∧
      ∀ (j : Arr5 ℂ) (x : Nat → ℝ), (∀ nu < n, j 0 0 nu 0 0 = exp (I * (x nu : ℝ)) ∧
          j 0 1 nu 0 0 = exp (I * (-x nu : ℝ))) →
        ∃ g r eps, (pairSolve n).step J j = .ok (g, r, eps) ∧
          (∀ nu < n, g 0 0 nu 0 0 = exp (I * (((j 0 0 nu 0 0).arg +
              (if nu = 0 then 1 / 4 else 1) * Real.cos (2 * x nu) : ℝ) : ℂ)) ∧
            g 0 1 nu 0 0 = exp (I * (((j 0 1 nu 0 0).arg -
              (if nu = 0 then 1 / 4 else 1) * Real.cos (2 * x nu) : ℝ) : ℂ))) ∧
          (∃ nu < n, eps = |(if nu = 0 then 1 / 4 else 1) * Real.cos (2 * x nu)|) ∧
          ∀ nu < n, |(if nu = 0 then 1 / 4 else 1) * Real.cos (2 * x nu)| ≤ eps := by
    intro n hn
    obtain ⟨J, hJ, hrun⟩ := Solve.jhj_form (pairSolve_binned n)
    have hJ1 : ∀ a < 2, ∀ nu < n, J 0 a nu 0 0 = 1 := by
      intro a ha nu hnu
      rw [hJ 0 Nat.one_pos a nu hnu 0 Nat.one_pos 0, pairSolve_usedF, Finset.sum_singleton, pairSolve_jhj n a nu ha]
    refine ⟨J, hrun, hJ1, fun j x hj => ?_⟩
    obtain ⟨r, hr, hst⟩ := Solve.step_form (pairSolve_binned n) J j
    have hr1 : ∀ nu < n, (0.5 : ℝ) * (r 0 0 nu 0 0 / (J 0 0 nu 0 0 : ℂ)).re = (if nu = 0 then 1 / 4 else 1) * Real.cos (2 * x nu) ∧
        (0.5 : ℝ) * (r 0 1 nu 0 0 / (J 0 1 nu 0 0 : ℂ)).re = -((if nu = 0 then 1 / 4 else 1) * Real.cos (2 * x nu)) := by
      intro nu hnu
      have h := pairSolve_jhr n j nu (x nu) (hj nu hnu).1 (hj nu hnu).2
      rw [hr 0 Nat.one_pos 0 nu hnu 0 Nat.one_pos 0, hr 0 Nat.one_pos 1 nu hnu 0 Nat.one_pos 0, pairSolve_usedF,
        Finset.sum_singleton, Finset.sum_singleton, hJ1 0 (by omega) nu hnu, hJ1 1 (by omega) nu hnu, ofReal_one, div_one,
        div_one, h.1, h.2]
      split <;> constructor <;> ring
    obtain ⟨eps, he, ⟨a, ha, nu, hnu, hea⟩, hle⟩ := hmax n hn fun t a nu s c =>
      |0.5 * (r t a nu s c / (J t a nu s c : ℂ)).re|
    rw [he] at hst
    refine ⟨_, r, eps, hst, fun nu hnu => ⟨?_, ?_⟩, ⟨nu, hnu, ?_⟩, fun nu hnu => ?_⟩
    · show exp (I * (((j 0 0 nu 0 0).arg + 0.5 * (r 0 0 nu 0 0 / (J 0 0 nu 0 0 : ℂ)).re : ℝ) : ℂ)) = _
      rw [(hr1 nu hnu).1]
    · show exp (I * (((j 0 1 nu 0 0).arg + 0.5 * (r 0 1 nu 0 0 / (J 0 1 nu 0 0 : ℂ)).re : ℝ) : ℂ)) = _
      rw [(hr1 nu hnu).2, ← sub_eq_add_neg]
    · rw [hea]
      have : a = 0 ∨ a = 1 := by omega
      rcases this with rfl | rfl
      · rw [(hr1 nu hnu).1]
      · rw [(hr1 nu hnu).2, abs_neg]
    · rw [← (hr1 nu hnu).1]
      exact hle nu hnu
  have hone : ∀ n nu, nu < n → (pairSolve n).jones 0 0 nu 0 0 = exp (I * ((fun _ => 0 : Nat → ℝ) nu : ℝ)) ∧
      (pairSolve n).jones 0 1 nu 0 0 = exp (I * (-(fun _ => 0 : Nat → ℝ) nu : ℝ)) := by
    intro n nu _
    simp [pairSolve]
  refine ⟨⟨⟨fun r hr => hr, fun a _ b _ h => h, fun r hr => ⟨r, hr, rfl⟩⟩, fun _ _ => rfl, fun _ _ => rfl,
    fun _ _ => rfl, fun _ _ _ _ => rfl, fun _ _ => rfl, fun _ _ _ => rfl⟩, ?_⟩
  obtain ⟨J, hrun, _, hstep⟩ := hfirst 1 (by omega)
  obtain ⟨J', hrun', _, hstep'⟩ := hfirst 2 (by omega)
  obtain ⟨g, r, eps, e1, e2, ⟨nu, hnu, e3⟩, _⟩ := hstep _ (fun _ => 0) (hone 1)
  obtain rfl : nu = 0 := by omega
  obtain ⟨f, r', eps', f1, f2, _, f4⟩ := hstep' _ (fun _ => 0) (hone 2)
  have hf : ∀ nu < 2, f 0 0 nu 0 0 = exp (I * ((fun nu => if nu = 0 then 1 / 4 else 1 : Nat → ℝ) nu : ℝ)) ∧
      f 0 1 nu 0 0 = exp (I * (-(fun nu => if nu = 0 then 1 / 4 else 1 : Nat → ℝ) nu : ℝ)) := by
    intro nu hnu
    obtain ⟨a, b⟩ := f2 nu hnu
    rw [a, b]
    simp [pairSolve]
  obtain ⟨g', r'', eps'', k1, k2, _, _⟩ := hstep' f _ hf
  have hg : g 0 0 0 0 0 = exp (I * (1 / 4 : ℝ)) := by
    rw [(e2 0 (by omega)).1]
    simp [pairSolve]
  have harg : (f 0 0 0 0 0).arg = 1 / 4 := by
    rw [(hf 0 (by omega)).1, mul_comm, arg_exp_mul_I]
    simp only [if_true]
    rw [toIocMod_eq_self]
    constructor <;> linarith [Real.pi_gt_three]
  have hg' : g' 0 0 0 0 0 = exp (I * (1 / 4 + Real.cos (1 / 2) / 4 : ℝ)) := by
    rw [(k2 0 (by omega)).1, harg]
    simp only [if_true]
    congr 3
    rw [show (2 : ℝ) * (1 / 4) = 1 / 2 by norm_num]
    ring
  refine ⟨g, J, r, g', J', r'', ?_, ?_, hg, hg', ?_⟩
  · rw [hrun]
    have : gnWhile ((pairSolve 1).step J) (1 / 2) 2 1 0 (pairSolve 1).jones none = .ok (g, some r, 1) := by
      simp only [gnWhile]
      rw [if_pos (by norm_num), e1]
      simp only
      rw [if_neg]
      rw [e3]
      simp only [if_true, mul_zero, Real.cos_zero, mul_one]
      norm_num [abs_of_pos]
    rw [this]
  · rw [hrun']
    have : gnWhile ((pairSolve 2).step J') (1 / 2) 2 1 0 (pairSolve 2).jones none = .ok (g', some r'', 2) := by
      simp only [gnWhile]
      rw [if_pos (by norm_num), f1]
      simp only
      rw [if_pos, k1]
      have := f4 1 (by omega)
      simp at this
      show (1 / 2 : ℝ) < eps'
      linarith
    rw [this]
  · rw [hg, hg']
    intro h
    have h1 := congrArg arg h
    have hc : 0 < Real.cos (1 / 2) := Real.cos_pos_of_mem_Ioo ⟨by linarith [Real.pi_gt_three], by linarith [Real.pi_gt_three]⟩
    have hc1 := Real.cos_le_one (1 / 2)
    rw [mul_comm I, mul_comm I, arg_exp_mul_I, arg_exp_mul_I, (toIocMod_eq_self _).2, (toIocMod_eq_self _).2] at h1
    · linarith
    · constructor <;> linarith [Real.pi_gt_three]
    · constructor <;> linarith [Real.pi_gt_three]

/-- The two channels in the other order. -/
def swapSolve : Solve :=
  { pairSolve 2 with vis := fun _ nu _ => if nu = 1 then (I / 2 : ℂ) else 2 * I }

theorem swap_bij : Set.BijOn (fun nu => 1 - nu) (Set.Iio 2) (Set.Iio 2) := by
  refine ⟨fun a ha => ?_, fun a ha b hb h => ?_, fun a ha => ⟨1 - a, ?_, ?_⟩⟩
  all_goals simp only [Set.mem_Iio] at *
  all_goals omega

theorem swap_same (nu c : Nat) (hnu : nu < 2) : SameCell (pairSolve 2) 0 0 nu c swapSolve 0 0 (1 - nu) c id := by
  refine ⟨⟨fun r hr => hr, fun a _ b _ h => h, fun r hr => ⟨r, hr, rfl⟩⟩, fun _ _ => rfl, fun _ _ => rfl,
    fun _ _ => ?_, fun _ _ _ _ => rfl, fun _ _ => rfl, fun _ _ _ => rfl⟩
  have : nu = 0 ∨ nu = 1 := by omega
  rcases this with rfl | rfl <;> simp [pairSolve, swapSolve]

/-- The hypotheses of `C182_order` are met by two channels and the same channels in the other order. -/
example : ∃ g jhj jhr g' jhj' jhr', (pairSolve 2).run (1 / 2) 2 = .ok (g, jhj, jhr, 2) ∧
    swapSolve.run (1 / 2) 2 = .ok (g', jhj', jhr', 2) ∧ g' 0 0 1 0 0 = g 0 0 0 0 0 := by
  obtain ⟨_, _, _, _, g, jhj, jhr, _, h, _⟩ := C182_violated
  obtain ⟨g', jhj', jhr', h', hs⟩ := C182_order (pairSolve 2) swapSolve 0 0 id (fun nu => 1 - nu) id (fun _ _ => id)
    (1 / 2) 2 2 g jhr jhj (pairSolve_binned 2) ⟨(pairSolve_binned 2).first, (pairSolve_binned 2).bins⟩ rfl (Set.bijOn_id _) swap_bij (Set.bijOn_id _)
    (fun t ht nu hnu c _ => by
      have ht : t < 1 := ht
      obtain rfl : t = 0 := by omega
      exact swap_same nu c hnu) h
  exact ⟨g, jhj, jhr, g', jhj', jhr', h, h', (hs 0 Nat.one_pos 0 0 Nat.two_pos 0 Nat.one_pos 0 Nat.one_pos).1⟩

/-- The hypotheses of `C182_cells_partial` are met by a channel of each of them. -/
example : ∃ g jhj jhr g' jhj' jhr', SameCell (pairSolve 2) 0 0 1 0 swapSolve 0 0 0 0 id ∧
    (pairSolve 2).run (1 / 2) 2 = .ok (g, jhj, jhr, 2) ∧ swapSolve.run (1 / 2) 2 = .ok (g', jhj', jhr', 2) := by
  obtain ⟨_, _, _, _, g, jhj, jhr, _, h, _⟩ := C182_violated
  obtain ⟨g', jhj', jhr', h', -⟩ := C182_order (pairSolve 2) swapSolve 0 0 id (fun nu => 1 - nu) id (fun _ _ => id)
    (1 / 2) 2 2 g jhr jhj (pairSolve_binned 2) ⟨(pairSolve_binned 2).first, (pairSolve_binned 2).bins⟩ rfl (Set.bijOn_id _) swap_bij (Set.bijOn_id _)
    (fun t ht nu hnu c _ => by
      have ht : t < 1 := ht
      obtain rfl : t = 0 := by omega
      exact swap_same nu c hnu) h
  exact ⟨g, jhj, jhr, g', jhj', jhr', swap_same 1 0 (by omega), h, h'⟩

end Verif.Calibration
