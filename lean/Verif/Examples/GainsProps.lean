/-
C163: the simulated gains of the example program.
-/
import Verif.Examples.Gains
import Verif.Linalg.KronProps
import Verif.Gps.Props
import Mathlib.Data.Real.Star
import Mathlib.Tactic.Linarith
import Mathlib.Tactic.FieldSimp
import Mathlib.Tactic.Ring
import Mathlib.Tactic.NormNum
import Mathlib.Tactic.LinearCombination
import Mathlib.Tactic.Positivity

set_option autoImplicit false

namespace Verif.Examples

open Verif.Gps Verif.Linalg.Kron
open Finset (range)

/-! ### Specification -/

/-- Specification: the span of a list of numbers. -/
def IsSpan (x : List ℝ) (s : ℝ) : Prop :=
  ∃ lo hi, lo ∈ x ∧ hi ∈ x ∧ (∀ v ∈ x, lo ≤ v ∧ v ≤ hi) ∧ s = hi - lo

/-- Specification: an array holds a covariance that falls as a Gaussian with the distance of the points. -/
def Holds (M : Mat ℝ) (n : Nat) (sigma2 len : ℝ) (dist2 : Nat → Nat → ℝ) : Prop :=
  M.rows = n ∧ M.cols = n ∧ ∀ i < n, ∀ j < n, M.at' i j = sigma2 * Real.exp (-dist2 i j / (2 * len ^ 2))

/-- Specification: the squared difference of two times or frequencies in units of the span. -/
noncomputable def apart (x : List ℝ) (s : ℝ) (i j : Nat) : ℝ := ((x.getD i 0 - x.getD j 0) / s) ^ 2

/-- Specification: the squared distance of two sources. -/
def apartLm (lm : Nat → ℝ) (i j : Nat) : ℝ := (lm (i * 2) - lm (j * 2)) ^ 2 + (lm (i * 2 + 1) - lm (j * 2 + 1)) ^ 2

/-! ### Lemmas -/

private theorem span_of {x : List ℝ} {lo : ℝ} (hlo : x.min? = some lo) {hi : ℝ} (hhi : (x.map (· - lo)).max? = some hi) :
    IsSpan x hi := by
  rw [List.min?_eq_some_iff] at hlo
  rw [List.max?_eq_some_iff] at hhi
  obtain ⟨hm, hmax⟩ := hhi
  obtain ⟨v, hv, e⟩ := List.mem_map.1 hm
  refine ⟨lo, v, hlo.1, hv, fun w hw => ⟨hlo.2 w hw, ?_⟩, e.symm⟩
  have := hmax (w - lo) (List.mem_map.2 ⟨w, hw, rfl⟩)
  linarith

private theorem span_unique {x : List ℝ} {s t : ℝ} (hs : IsSpan x s) (ht : IsSpan x t) : s = t := by
  obtain ⟨a, b, ha, hb, h, rfl⟩ := hs
  obtain ⟨c, d, hc, hd, k, rfl⟩ := ht
  have h1 := h c hc
  have h2 := h d hd
  have h3 := k a ha
  have h4 := k b hb
  have : a = c := le_antisymm h1.1 h3.1
  have : b = d := le_antisymm h4.2 h2.2
  subst_vars
  rfl

private theorem normalise_ok {x : List ℝ} {s : ℝ} (hs : IsSpan x s) :
    (s = 0 → normalise x = .error .valueError) ∧
      (s ≠ 0 → ∃ lo, normalise x = .ok (x.map fun v => (v - lo) / s)) := by
  have hne : x ≠ [] := by
    obtain ⟨a, _, ha, _⟩ := hs
    exact List.ne_nil_of_mem ha
  unfold normalise
  cases hlo : x.min? with
  | none => exact absurd (List.min?_eq_none_iff.1 hlo) hne
  | some lo =>
    dsimp only
    cases hhi : (x.map (· - lo)).max? with
    | none => exact absurd (List.map_eq_nil_iff.1 (List.max?_eq_none_iff.1 hhi)) hne
    | some hi =>
      dsimp only
      have := span_unique hs (span_of hlo hhi)
      subst this
      exact ⟨fun h => by rw [if_pos h], fun h => ⟨lo, by rw [if_neg h]⟩⟩

private theorem cov_list (x : List ℝ) (s lo sigma len : ℝ) :
    ∃ M, covariance (ofList (x.map fun v => (v - lo) / s)) sigma len = .ok M ∧
      Holds M x.length (sigma ^ 2) len (apart x s) := by
  obtain ⟨m, hm, hv⟩ := C88_abs_diff_vectors x.length x.length (ofList (x.map fun v => (v - lo) / s))
    (ofList (x.map fun v => (v - lo) / s)) (by simp [ofList]) (by simp [ofList])
  unfold covariance exponentialSquared
  simp only [Bool.false_eq_true, if_false]
  rw [hm]
  refine ⟨_, rfl, rfl, rfl, fun i hi j hj => ?_⟩
  dsimp only
  rw [hv]
  unfold ofList apart
  have hg : ∀ k < x.length, (x.map fun v => (v - lo) / s).getD k 0 = (x.getD k 0 - lo) / s := by
    intro k hk
    simp [List.getD_eq_getElem?_getD, List.getElem?_map, List.getElem?_eq_getElem hk]
  dsimp only
  rw [hg i hi, hg j hj, sq_abs]
  congr 4
  ring

private theorem cov_lm (n : Nat) (lm : Nat → ℝ) (sigma len : ℝ) :
    ∃ M, covariance ⟨[n, 2], lm⟩ sigma len = .ok M ∧ Holds M n (sigma ^ 2) len (apartLm lm) := by
  obtain ⟨m, hm, hv⟩ := C88_abs_diff n n 2 ⟨[n, 2], lm⟩ ⟨[n, 2], lm⟩ rfl rfl
  unfold covariance exponentialSquared
  simp only [Bool.false_eq_true, if_false]
  rw [hm]
  refine ⟨_, rfl, rfl, rfl, fun i hi j hj => ?_⟩
  dsimp only
  rw [hv]
  unfold Gps.dist
  rw [Real.sq_sqrt (Finset.sum_nonneg fun _ _ => sq_nonneg _)]
  simp [Finset.sum_range_succ, apartLm, Gps.coord]

/-! ### C163 -/

/-- **C163** The gains have unit modulus: they are exponentials of phases that are linear in the random numbers, and the
coefficients make the covariance of the phases (for independent random numbers of unit variance) the product of a
covariance in time, one in frequency and one in direction, each a Gaussian of the distance, where times and frequencies are
in units of their spans. -/
theorem C163_partial (chol : Mat ℝ → Except PyErr (Mat ℝ)) (hchol : ∀ M L, chol M = .ok L → IsFactor L M) (eps : ℝ)
    (times freqs : List ℝ) (ndir : Nat) (lm : Nat → ℝ) (st sf : ℝ) (ht : IsSpan times st) (hf : IsSpan freqs sf)
    (hst : st ≠ 0) (hsf : sf ≠ 0) (hd : 0 < ndir) (hsize : ¬ (times.length = freqs.length ∧ freqs.length = ndir))
    (acc1 : ∀ M, Holds M times.length (1 / 16) (1 / 5) (apart times st) → ∃ L, chol M = .ok L)
    (acc2 : ∀ M, Holds M freqs.length 1 (1 / 4) (apart freqs sf) → ∃ L, chol M = .ok L)
    (acc3 : ∀ M, Holds M ndir 1 (1 / 2) (apartLm lm) → ∃ L, chol M = .ok L) :
    ∃ c : Nat → Nat → Nat → Nat → ℝ,
      (∀ xi, ∃ g, phaseGains chol eps times freqs ndir lm xi = .ok g ∧
        ∀ t < times.length, ∀ f < freqs.length, ∀ d < ndir, ‖g t f d‖ = 1 ∧
          g t f d = Complex.exp (Complex.I * (∑ k ∈ range (times.length * freqs.length * ndir), c t f d k * xi k : ℝ))) ∧
      ∀ t < times.length, ∀ f < freqs.length, ∀ d < ndir, ∀ t' < times.length, ∀ f' < freqs.length, ∀ d' < ndir,
        ∑ k ∈ range (times.length * freqs.length * ndir), c t f d k * c t' f' d' k =
          1 / 16 * Real.exp (-apart times st t t' / (2 * (1 / 5) ^ 2)) *
            Real.exp (-apart freqs sf f f' / (2 * (1 / 4) ^ 2)) * Real.exp (-apartLm lm d d' / (2 * (1 / 2) ^ 2)) := by
  obtain ⟨lt, hnt⟩ := (normalise_ok ht).2 hst
  obtain ⟨lf, hnf⟩ := (normalise_ok hf).2 hsf
  obtain ⟨kt, ekt, hkt⟩ := cov_list times st lt (1 / 4) (1 / 5)
  obtain ⟨kf, ekf, hkf⟩ := cov_list freqs sf lf 1 (1 / 4)
  obtain ⟨kl, ekl, hkl⟩ := cov_lm ndir lm 1 (1 / 2)
  rw [show ((1 : ℝ) / 4) ^ 2 = 1 / 16 by norm_num] at hkt
  rw [one_pow] at hkf hkl
  have ntpos : 0 < times.length := by
    obtain ⟨a, _, ha, _⟩ := ht
    exact List.length_pos_of_mem ha
  have nfpos : 0 < freqs.length := by
    obtain ⟨a, _, ha, _⟩ := hf
    exact List.length_pos_of_mem ha
  obtain ⟨L, hL, hcov⟩ := C66_exact chol hchol eps [kt, kf, kl] (by
    intro M hM
    simp only [List.mem_cons, List.not_mem_nil, or_false] at hM
    rcases hM with rfl | rfl | rfl
    · exact acc1 _ hkt
    · exact acc2 _ hkf
    · exact acc3 _ hkl)
  obtain ⟨nr, nc, -⟩ := C66_cholesky chol hchol eps [kt, kf, kl] L hL
  have hsq : ∀ M ∈ L, M.rows = M.cols ∧ 0 < M.rows := by
    have key : ∀ (A L : List (Mat ℝ)), (∀ M ∈ A, 0 < M.rows) → kronCholesky chol eps A = .ok L →
        ∀ M ∈ L, M.rows = M.cols ∧ 0 < M.rows := by
      intro A
      induction A with
      | nil => intro L _ h; cases h; simp
      | cons M Ms ih =>
        intro L hp h
        rw [kronCholesky] at h
        cases h1 : cholFactor chol eps M with
        | error e => rw [h1] at h; cases h
        | ok l =>
          rw [h1] at h
          cases h2 : kronCholesky chol eps Ms with
          | error e => rw [h2] at h; cases h
          | ok Ls =>
            rw [h2] at h
            cases h
            intro N hN
            rcases List.mem_cons.1 hN with rfl | hN
            · have hM := hp M (by simp)
              unfold cholFactor at h1
              cases h3 : chol M with
              | ok l' =>
                rw [h3] at h1
                cases h1
                obtain ⟨_, e1, e2, _⟩ := hchol _ _ h3
                exact ⟨by rw [e1, e2], by rw [e1]; exact hM⟩
              | error e =>
                rw [h3] at h1
                dsimp only at h1
                unfold jittered at h1
                split_ifs at h1 with hsqr
                obtain ⟨_, e1, e2, _⟩ := hchol _ _ h1
                exact ⟨by rw [e1, e2], by rw [e1]; exact hM⟩
            · exact ih Ls (fun M hM => hp M (List.mem_cons_of_mem _ hM)) h2 N hN
    refine key _ L ?_ hL
    intro M hM
    simp only [List.mem_cons, List.not_mem_nil, or_false] at hM
    rcases hM with rfl | rfl | rfl
    · rw [hkt.1]; exact ntpos
    · rw [hkf.1]; exact nfpos
    · rw [hkl.1]; exact hd
  have hN : nrows [kt, kf, kl] = times.length * freqs.length * ndir := by
    simp [nrows, hkt.1, hkf.1, hkl.1, Nat.mul_assoc]
  have hidx : ∀ t < times.length, ∀ f < freqs.length, ∀ d < ndir,
      (t * freqs.length + f) * ndir + d < times.length * freqs.length * ndir := by
    intro t ht f hf d hd
    have h1 : t * freqs.length + f + 1 ≤ times.length * freqs.length := by
      have := Nat.mul_le_mul_right freqs.length (Nat.succ_le_of_lt ht)
      rw [Nat.succ_mul] at this
      omega
    have := Nat.mul_le_mul_right ndir h1
    rw [Nat.succ_mul] at this
    omega
  refine ⟨fun t f d k => kron L ((t * freqs.length + f) * ndir + d) k, fun xi => ?_, ?_⟩
  · obtain ⟨y, hy, _, hyv⟩ := C65_matvec L ⟨times.length * freqs.length * ndir, xi⟩ hsq (by rw [nc, hN])
    refine ⟨fun i j d => Complex.exp (Complex.I * (y.at' ((i * freqs.length + j) * ndir + d) : ℝ)), ?_, ?_⟩
    · unfold phaseGains
      rw [hnt, hnf]
      dsimp only
      rw [ekt, ekf, ekl]
      dsimp only
      have hg : gainFactors chol eps kt kf kl = .ok L := by
        unfold gainFactors
        rw [hkt.1, hkf.1, hkl.1, if_neg hsize, hL]
      rw [hg]
      dsimp only
      rw [List.length_map, List.length_map, hy]
    · intro t ht f hf d hd
      refine ⟨?_, ?_⟩
      · dsimp only
        rw [mul_comm, Complex.norm_exp_ofReal_mul_I]
      · dsimp only
        rw [hyv _ (by rw [nr, hN]; exact hidx t ht f hf d hd), nc, hN]
  · intro t ht f hf d hd t' ht' f' hf' d' hd'
    have h := hcov ((t * freqs.length + f) * ndir + d) ((t' * freqs.length + f') * ndir + d')
      (by rw [hN]; exact hidx t ht f hf d hd) (by rw [hN]; exact hidx t' ht' f' hf' d' hd')
    rw [hN] at h
    simp only [star_trivial] at h
    rw [h]
    have e1 : ∀ a b e, b < freqs.length → e < ndir → ((a * freqs.length + b) * ndir + e) / (freqs.length * ndir) = a ∧
        ((a * freqs.length + b) * ndir + e) % (freqs.length * ndir) / ndir = b ∧
        ((a * freqs.length + b) * ndir + e) % (freqs.length * ndir) % ndir = e := by
      intro a b e hb he
      have hlt : b * ndir + e < freqs.length * ndir := by
        have := Nat.mul_le_mul_right ndir (Nat.succ_le_of_lt hb)
        rw [Nat.succ_mul] at this
        omega
      have hr : (a * freqs.length + b) * ndir + e = freqs.length * ndir * a + (b * ndir + e) := by ring
      rw [hr, Nat.mul_add_div (by omega), Nat.div_eq_of_lt hlt, Nat.mul_add_mod, Nat.mod_eq_of_lt hlt]
      refine ⟨rfl, ?_, ?_⟩
      · rw [Nat.mul_comm b, Nat.mul_add_div (by omega), Nat.div_eq_of_lt he, Nat.add_zero]
      · rw [Nat.mul_comm b, Nat.mul_add_mod, Nat.mod_eq_of_lt he]
    obtain ⟨a1, a2, a3⟩ := e1 t f d hf hd
    obtain ⟨b1, b2, b3⟩ := e1 t' f' d' hf' hd'
    simp only [kron, nrows, ncols, List.map_cons, List.map_nil, List.prod_cons, List.prod_nil, mul_one, hkf.1,
      hkl.1, hkf.2.1, hkl.2.1, Nat.div_one, a1, a2, a3, b1, b2, b3]
    rw [hkt.2.2 t ht t' ht', hkf.2.2 f hf f' hf', hkl.2.2 d hd d' hd']
    ring

/-- **C163** The units and origins of times and frequencies do not matter. -/
theorem C163_units (chol : Mat ℝ → Except PyErr (Mat ℝ)) (eps : ℝ) (times freqs : List ℝ) (ndir : Nat) (lm xi : Nat → ℝ)
    (a b a' b' : ℝ) (ha : 0 < a) (ha' : 0 < a') :
    phaseGains chol eps (times.map fun t => a * t + b) (freqs.map fun f => a' * f + b') ndir lm xi =
      phaseGains chol eps times freqs ndir lm xi := by
  have key : ∀ (x : List ℝ) (a b : ℝ), 0 < a → normalise (x.map fun v => a * v + b) = normalise x := by
    intro x a b ha
    unfold normalise
    have hmin : (x.map fun v => a * v + b).min? = x.min?.map fun v => a * v + b := by
      cases hx : x.min? with
      | none => rw [List.min?_eq_none_iff] at hx; subst hx; rfl
      | some lo =>
        rw [List.min?_eq_some_iff] at hx
        rw [Option.map_some, List.min?_eq_some_iff]
        refine ⟨List.mem_map.2 ⟨lo, hx.1, rfl⟩, fun v hv => ?_⟩
        obtain ⟨w, hw, rfl⟩ := List.mem_map.1 hv
        have := mul_le_mul_of_nonneg_left (hx.2 w hw) ha.le
        linarith
    rw [hmin]
    cases hx : x.min? with
    | none => rfl
    | some lo =>
      simp only [Option.map_some, List.map_map]
      have hmax : (x.map ((fun u => u - (a * lo + b)) ∘ fun v => a * v + b)).max? =
          (x.map fun u => u - lo).max?.map fun v => a * v := by
        cases hy : (x.map fun u => u - lo).max? with
        | none =>
          rw [List.max?_eq_none_iff, List.map_eq_nil_iff] at hy
          subst hy
          rfl
        | some hi =>
          rw [List.max?_eq_some_iff] at hy
          rw [Option.map_some, List.max?_eq_some_iff]
          obtain ⟨w, hw, e⟩ := List.mem_map.1 hy.1
          refine ⟨List.mem_map.2 ⟨w, hw, ?_⟩, fun v hv => ?_⟩
          · rw [← e]; simp only [Function.comp]; ring
          · obtain ⟨w, hw, rfl⟩ := List.mem_map.1 hv
            have := mul_le_mul_of_nonneg_left (hy.2 (w - lo) (List.mem_map.2 ⟨w, hw, rfl⟩)) ha.le
            simp only [Function.comp]
            linarith
      rw [hmax]
      cases hy : (x.map fun u => u - lo).max? with
      | none => rfl
      | some hi =>
        simp only [Option.map_some]
        by_cases h0 : hi = 0
        · rw [if_pos h0, if_pos (by rw [h0, mul_zero])]
        · rw [if_neg h0, if_neg (mul_ne_zero ha.ne' h0)]
          congr 1
          refine List.map_congr_left fun v _ => ?_
          simp only [Function.comp]
          field_simp
          ring
  unfold phaseGains
  rw [key times a b ha, key freqs a' b' ha']

/-- **C163** fails for a single time and for a single channel: there is no span to normalise by, and the program stops. -/
theorem C163_single_violated (chol : Mat ℝ → Except PyErr (Mat ℝ)) (eps : ℝ) (times freqs : List ℝ) (ndir : Nat)
    (lm xi : Nat → ℝ) (ht : times ≠ []) (hf : freqs ≠ []) (h : times.length = 1 ∨ freqs.length = 1) :
    phaseGains chol eps times freqs ndir lm xi = .error .valueError := by
  have one : ∀ v : ℝ, normalise [v] = .error .valueError := fun v =>
    (normalise_ok (x := [v]) (s := 0) ⟨v, v, by simp, by simp, by simp, by simp⟩).1 rfl
  have any : ∀ x : List ℝ, normalise x = .error .valueError ∨ ∃ y, normalise x = .ok y := by
    intro x
    unfold normalise
    cases x.min? with
    | none => exact Or.inl rfl
    | some lo =>
      dsimp only
      cases (x.map (· - lo)).max? with
      | none => exact Or.inl rfl
      | some hi =>
        dsimp only
        split_ifs
        · exact Or.inl rfl
        · exact Or.inr ⟨_, rfl⟩
  unfold phaseGains
  rcases h with h | h
  · obtain ⟨v, rfl⟩ := List.length_eq_one_iff.1 h
    rw [one]
  · obtain ⟨v, rfl⟩ := List.length_eq_one_iff.1 h
    rcases any times with e | ⟨y, e⟩
    · rw [e]
    · rw [e, one]

/-- **C163** fails if there are as many times as channels and sources: numpy makes one array of the three covariances, whose
parts are not matrices of numbers. -/
theorem C163_sizes_violated (chol : Mat ℝ → Except PyErr (Mat ℝ)) (eps : ℝ) (times freqs : List ℝ) (ndir : Nat)
    (lm xi : Nat → ℝ) (st sf : ℝ) (ht : IsSpan times st) (hf : IsSpan freqs sf) (hst : st ≠ 0) (hsf : sf ≠ 0)
    (h1 : times.length = freqs.length) (h2 : freqs.length = ndir) :
    phaseGains chol eps times freqs ndir lm xi = .error .typeError := by
  obtain ⟨lt, hnt⟩ := (normalise_ok ht).2 hst
  obtain ⟨lf, hnf⟩ := (normalise_ok hf).2 hsf
  obtain ⟨kt, ekt, hkt⟩ := cov_list times st lt (1 / 4) (1 / 5)
  obtain ⟨kf, ekf, hkf⟩ := cov_list freqs sf lf 1 (1 / 4)
  obtain ⟨kl, ekl, hkl⟩ := cov_lm ndir lm 1 (1 / 2)
  unfold phaseGains
  rw [hnt, hnf]
  dsimp only
  rw [ekt, ekf, ekl]
  dsimp only
  have hg : gainFactors chol eps kt kf kl = .error .typeError := by
    unfold gainFactors
    rw [hkt.1, hkf.1, hkl.1, if_pos ⟨h1, h2⟩]
  rw [hg]

/-- Two times, two channels and one source meet the hypotheses of `C163_partial`: their covariances have factors. -/
example : ∃ chol : Mat ℝ → Except PyErr (Mat ℝ), (∀ M L, chol M = .ok L → IsFactor L M) ∧
    IsSpan [3, 5] 2 ∧ IsSpan [7, 8] 1 ∧
    (∀ M, Holds M 2 (1 / 16) (1 / 5) (apart [3, 5] 2) → ∃ L, chol M = .ok L) ∧
    (∀ M, Holds M 2 1 (1 / 4) (apart [7, 8] 1) → ∃ L, chol M = .ok L) ∧
    ∀ M, Holds M 1 1 (1 / 2) (apartLm fun _ => 0) → ∃ L, chol M = .ok L := by
  classical
  refine ⟨fun M => if h : ∃ L, IsFactor L M then .ok h.choose else .error .valueError, ?_, ?_, ?_, ?_⟩
  · intro M L h
    dsimp only at h
    split_ifs at h with hx
    cases h
    exact hx.choose_spec
  · exact ⟨3, 5, by simp, by simp, by simp; norm_num, by norm_num⟩
  · exact ⟨7, 8, by simp, by simp, by simp; norm_num, by norm_num⟩
  have two : ∀ (M : Mat ℝ) (s2 len : ℝ) (dist2 : Nat → Nat → ℝ), 0 ≤ s2 → (∀ i j, 0 ≤ dist2 i j) →
      dist2 0 0 = 0 → dist2 1 1 = 0 → dist2 0 1 = dist2 1 0 → Holds M 2 s2 len dist2 → ∃ L, IsFactor L M := by
    intro M s2 len dist2 hs hd h00 h11 h01 ⟨hr, hc, hv⟩
    set e := Real.exp (-dist2 1 0 / (2 * len ^ 2)) with he
    have he1 : e ≤ 1 := by
      rw [he, Real.exp_le_one_iff]
      exact div_nonpos_of_nonpos_of_nonneg (by linarith [hd 1 0]) (by positivity)
    have he0 : 0 < e := Real.exp_pos _
    have hq : 0 ≤ 1 - e * e := by nlinarith
    refine ⟨⟨2, 2, fun i j => if j = 0 then (if i = 0 then Real.sqrt s2 else Real.sqrt s2 * e)
      else if i = 0 then 0 else Real.sqrt s2 * Real.sqrt (1 - e * e)⟩, by rw [hc, hr], by rw [hr], by rw [hr], ?_⟩
    intro i j hi hj
    rw [hr] at hi hj
    have h1 := Real.mul_self_sqrt hs
    have h2 := Real.mul_self_sqrt hq
    rw [hv i hi j hj]
    have hi' : i = 0 ∨ i = 1 := by omega
    have hj' : j = 0 ∨ j = 1 := by omega
    rcases hi' with rfl | rfl <;> rcases hj' with rfl | rfl <;>
      simp only [Finset.sum_range_succ, Finset.sum_range_zero, star_trivial, h00, h11, h01, ← he] <;> simp
    · exact h1
    · linear_combination e * h1
    · linear_combination e * h1
    · linear_combination (e * e + Real.sqrt (1 - e * e) * Real.sqrt (1 - e * e)) * h1 + s2 * h2
  refine ⟨fun M hM => ?_, fun M hM => ?_, fun M hM => ?_⟩
  · have := two M _ _ _ (by norm_num) (fun i j => sq_nonneg _) (by simp) (by simp)
      (by simp; norm_num) hM
    exact ⟨_, dif_pos this⟩
  · have := two M _ _ _ (by norm_num) (fun i j => sq_nonneg _) (by simp) (by simp)
      (by simp; norm_num) hM
    exact ⟨_, dif_pos this⟩
  · have : ∃ L, IsFactor L M := by
      obtain ⟨hr, hc, hv⟩ := hM
      refine ⟨⟨1, 1, fun _ _ => 1⟩, by rw [hc, hr], by rw [hr], by rw [hr], ?_⟩
      intro i j hi hj
      rw [hr] at hi hj
      rw [hv i hi j hj]
      simp [apartLm]
    exact ⟨_, dif_pos this⟩

end Verif.Examples
