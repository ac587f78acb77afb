/-
C183: calibration on data without noise.
-/
import Verif.Calibration.CellProps
import Verif.Calibration.Consensus

set_option autoImplicit false

noncomputable section

namespace Verif.Calibration

open Complex

/-! ### Specification -/

/-- Two antennas of which some unflagged row of time bin `t` has a model visibility with a positive weight in
channel `nu` and correlation `c`. -/
def Solve.Linked (p : Solve) (m t nu c a b : Nat) : Prop :=
  ∃ r ∈ p.used m t nu, 0 < p.weight r nu c ∧ p.model r nu 0 c ≠ 0 ∧
    ((p.ant1 r = a ∧ p.ant2 r = b) ∨ (p.ant1 r = b ∧ p.ant2 r = a))

/-- The unflagged data of cell `(t, nu, c)` are the model seen through gains `G` of modulus one, without noise.
There is one direction, the initial gains have modulus one, weights are not negative, and every antenna has some
model visibility with a weight. -/
structure Solve.Noiseless (p : Solve) (m t nu c : Nat) (G : Nat → ℂ) : Prop where
  dirs : p.ext.ndir = 1
  bin : t < p.ext.ntim
  chan : nu < p.ext.nchan
  corr : c < p.ext.ncorr
  ants : ∀ r ∈ p.used m t nu, p.ant1 r < p.ext.nant ∧ p.ant2 r < p.ext.nant
  weights : ∀ r ∈ p.used m t nu, 0 ≤ p.weight r nu c
  seen : ∀ a < p.ext.nant, ∃ b, p.Linked m t nu c a b
  start : ∀ a, ‖p.jones t a nu 0 c‖ = 1
  unit : ∀ a, ‖G a‖ = 1
  data : ∀ r ∈ p.used m t nu,
    p.vis r nu c = G (p.ant1 r) * p.model r nu 0 c * (starRingEnd ℂ) (G (p.ant2 r))

/-- Every antenna is linked to every other, directly or over further antennas. -/
def Solve.Connected (p : Solve) (m t nu c : Nat) : Prop :=
  ∀ a < p.ext.nant, ∀ b < p.ext.nant, Relation.ReflTransGen (p.Linked m t nu c) a b

/-- The phases of the gains `g` of `n` antennas are those of `G`, up to errors that differ from each other by at
most `D`. -/
def PhasesWithin (n : Nat) (g G : Nat → ℂ) (D : ℝ) : Prop :=
  ∃ e : Nat → ℝ, (∀ a < n, g a = G a * exp (I * e a)) ∧ ∀ a < n, ∀ b < n, |e a - e b| ≤ D

/-! ### Lemmas -/

/-- The weight of the model of a row. -/
def Solve.rowPower (p : Solve) (nu c r : Nat) : ℝ := p.weight r nu c * ‖p.model r nu 0 c‖ ^ 2

theorem exp_arg_unit (z : ℂ) (hz : ‖z‖ = 1) (x : ℝ) : exp (I * ((z.arg + x : ℝ) : ℂ)) = z * exp (I * x) := by
  have := norm_mul_exp_arg_mul_I z
  rw [hz, ofReal_one, one_mul, mul_comm] at this
  rw [ofReal_add, mul_add, exp_add, this]

theorem mul_conj_unit (z : ℂ) (hz : ‖z‖ = 1) : z * (starRingEnd ℂ) z = 1 := by
  rw [mul_conj, normSq_eq_norm_sq, hz]
  simp

theorem exists_phase (z G : ℂ) (hz : ‖z‖ = 1) (hG : ‖G‖ = 1) : ∃ x : ℝ, z = G * exp (I * x) := by
  refine ⟨(z * (starRingEnd ℂ) G).arg, ?_⟩
  have h := exp_arg_unit (z * (starRingEnd ℂ) G) (by rw [norm_mul, RCLike.norm_conj, hz, hG, one_mul]) 0
  rw [add_zero, ofReal_zero, mul_zero, exp_zero, mul_one] at h
  rw [h]
  have := mul_conj_unit G hG
  linear_combination (-z) * this

theorem le_foldl_max (l : List ℝ) (y : ℝ) : y ≤ l.foldl max y ∧ ∀ x ∈ l, x ≤ l.foldl max y := by
  induction l generalizing y with
  | nil => exact ⟨le_rfl, fun x hx => by simp at hx⟩
  | cons z zs ih =>
    rw [List.foldl_cons]
    obtain ⟨h1, h2⟩ := ih (max y z)
    refine ⟨(le_max_left _ _).trans h1, fun x hx => ?_⟩
    rcases List.mem_cons.1 hx with rfl | hx
    · exact (le_max_right _ _).trans h1
    · exact h2 x hx

theorem le_npMax {l : List ℝ} {y x : ℝ} (h : npMax l = .ok y) (hx : x ∈ l) : x ≤ y := by
  cases l with
  | nil => cases h
  | cons z zs =>
    simp only [npMax, Except.ok.injEq] at h
    rw [← h]
    rcases List.mem_cons.1 hx with rfl | hx
    · exact (le_foldl_max zs x).1
    · exact (le_foldl_max zs z).2 x hx

section
variable {p : Solve} {m t nu c : Nat} {G : Nat → ℂ}

theorem Solve.Noiseless.jhjTerm (h : p.Noiseless m t nu c G) (j : Arr5 ℂ) (hj : ∀ a, ‖j t a nu 0 c‖ = 1) (a r : Nat)
    (hr : r ∈ p.used m t nu) : p.jhjTerm j t a nu 0 c r =
      ((if p.ant1 r = a then 1 else 0) + (if p.ant2 r = a then 1 else 0)) * p.rowPower nu c r := by
  unfold Solve.jhjTerm Solve.rowPower
  congr 1
  simp only [normSq_eq_norm_sq, norm_mul, RCLike.norm_conj, hj, mul_one, one_mul]
  rw [mul_pow, norm_real, Real.norm_eq_abs, sq_abs, Real.sq_sqrt (h.weights _ hr), mul_comm]

theorem Solve.Noiseless.jhrTerm (h : p.Noiseless m t nu c G) (j : Arr5 ℂ) (e : Nat → ℝ)
    (hj : ∀ a, j t a nu 0 c = G a * exp (I * e a)) (a r : Nat) (hr : r ∈ p.used m t nu) :
    (p.jhrTerm j t a nu 0 c r).re = ((if p.ant1 r = a then 1 else 0) - (if p.ant2 r = a then 1 else 0)) *
      (p.rowPower nu c r * -Real.sin (e (p.ant1 r) - e (p.ant2 r))) := by
  unfold Solve.jhrTerm
  rw [sel_re, h.dirs, Finset.sum_range_one, h.data r hr, hj, hj]
  congr 1
  set x := e (p.ant1 r) - e (p.ant2 r) with hx
  set q : ℂ := (Real.sqrt (p.weight r nu c) : ℂ) with hq
  set B : ℂ := G (p.ant1 r) * p.model r nu 0 c * (starRingEnd ℂ) (G (p.ant2 r)) * q with hB
  have hV : G (p.ant1 r) * exp (I * (e (p.ant1 r) : ℂ)) * (p.model r nu 0 c * q) *
      (starRingEnd ℂ) (G (p.ant2 r) * exp (I * (e (p.ant2 r) : ℂ))) = B * exp (I * (x : ℂ)) := by
    rw [map_mul, ← exp_conj, map_mul, conj_I, conj_ofReal, hB]
    have : exp (I * (e (p.ant1 r) : ℂ)) * exp (-I * (e (p.ant2 r) : ℂ)) = exp (I * (x : ℂ)) := by
      rw [← exp_add, hx]
      congr 1
      push_cast
      ring
    rw [← this]
    ring
  rw [hV]
  have hn : normSq B = p.rowPower nu c r := by
    rw [hB, hq, normSq_eq_norm_sq]
    simp only [norm_mul, RCLike.norm_conj, h.unit, mul_one, one_mul]
    unfold Solve.rowPower
    rw [mul_pow, norm_real, Real.norm_eq_abs, sq_abs, Real.sq_sqrt (h.weights _ hr), mul_comm]
  have hmul : (starRingEnd ℂ) (I * (B * exp (I * (x : ℂ)))) * (B - B * exp (I * (x : ℂ))) =
      (normSq B : ℂ) * (-I * (exp (-(I * (x : ℂ))) - 1)) := by
    have h1 : (normSq B : ℂ) = B * (starRingEnd ℂ) B := (mul_conj B).symm
    have h2 : (starRingEnd ℂ) (exp (I * (x : ℂ))) = exp (-(I * (x : ℂ))) := by
      rw [← exp_conj, map_mul, conj_I, conj_ofReal, neg_mul]
    have h3 : exp (-(I * (x : ℂ))) * exp (I * (x : ℂ)) = 1 := by rw [← exp_add, neg_add_cancel, exp_zero]
    rw [map_mul, map_mul, h2, conj_I, h1]
    linear_combination I * (starRingEnd ℂ) B * B * h3
  have hre : (-I * (exp (-(I * (x : ℂ))) - 1)).re = -Real.sin x := by
    have : exp (-(I * (x : ℂ))) = exp (((-x : ℝ) : ℂ) * I) := by
      congr 1
      push_cast
      ring
    rw [this, neg_mul, neg_re, I_mul_re, sub_im, exp_ofReal_mul_I_im, one_im, Real.sin_neg]
    ring
  rw [hmul, re_ofReal_mul, hre, hn]

theorem Solve.Noiseless.linked (h : p.Noiseless m t nu c G) (a b : Nat) :
    LinkedBy (p.usedF m t nu) p.ant1 p.ant2 (p.rowPower nu c) a b ↔ p.Linked m t nu c a b := by
  unfold LinkedBy Solve.Linked
  refine exists_congr fun r => ?_
  rw [Solve.mem_usedF]
  refine and_congr_right fun hr => ?_
  rw [← and_assoc]
  refine and_congr_left fun _ => ?_
  unfold Solve.rowPower
  have hw := h.weights r hr
  constructor
  · intro hpos
    refine ⟨lt_of_le_of_ne hw ?_, ?_⟩
    · rintro h0; rw [← h0, zero_mul] at hpos; exact lt_irrefl _ hpos
    · intro h0; rw [h0, norm_zero] at hpos; simp at hpos
  · rintro ⟨h1, h2⟩
    have := norm_pos_iff.2 h2
    positivity

theorem Solve.Noiseless.power (h : p.Noiseless m t nu c G) (a : Nat) (ha : a < p.ext.nant) :
    0 < linkPower (p.usedF m t nu) p.ant1 p.ant2 (p.rowPower nu c) a := by
  obtain ⟨b, hb⟩ := h.seen a ha
  obtain ⟨r, hr, hpos, hab⟩ := (h.linked a b).2 hb
  refine Finset.sum_pos' (fun s hs => ?_) ⟨r, hr, ?_⟩
  · have : 0 ≤ p.rowPower nu c s := mul_nonneg (h.weights s (Solve.mem_usedF.1 hs)) (by positivity)
    split_ifs <;> simp [this]
  · rcases hab with ⟨h1, -⟩ | ⟨-, h1⟩
    · rw [if_pos h1]; split_ifs <;> linarith
    · rw [if_pos h1]; split_ifs <;> linarith

theorem Solve.Noiseless.powerNonneg (h : p.Noiseless m t nu c G) :
    ∀ r ∈ p.usedF m t nu, 0 ≤ p.rowPower nu c r := fun r hr =>
  mul_nonneg (h.weights r (Solve.mem_usedF.1 hr)) (by positivity)

/-- One iteration. -/
theorem Solve.Noiseless.step (h : p.Noiseless m t nu c G) (hp : p.Binned m) {jhj : Arr5 ℝ} {j g r : Arr5 ℂ} {eps : ℝ}
    (hjhj : ∀ a, jhj t a nu 0 c = linkPower (p.usedF m t nu) p.ant1 p.ant2 (p.rowPower nu c) a)
    (hs : p.step jhj j = .ok (g, r, eps)) (e : Nat → ℝ) (hj : ∀ a, j t a nu 0 c = G a * exp (I * e a)) :
    (∀ a, g t a nu 0 c = G a * exp (I * turned (p.usedF m t nu) p.ant1 p.ant2 (p.rowPower nu c) e a)) ∧
      ∀ a < p.ext.nant, |turn (p.usedF m t nu) p.ant1 p.ant2 (p.rowPower nu c) e a| ≤ eps := by
  obtain ⟨h1, h2, h3⟩ := Solve.step_ok hp hs
  have hd : 0 < p.ext.ndir := by rw [h.dirs]; omega
  have hturn : ∀ a, 0.5 * (r t a nu 0 c / (jhj t a nu 0 c : ℂ)).re =
      turn (p.usedF m t nu) p.ant1 p.ant2 (p.rowPower nu c) e a := by
    intro a
    unfold turn
    rw [div_ofReal_re, hjhj, h1 t h.bin a nu h.chan 0 hd c, re_sum]
    congr 2
    exact Finset.sum_congr rfl fun s hs => h.jhrTerm j e hj a s (Solve.mem_usedF.1 hs)
  constructor
  · intro a
    have hu : ‖j t a nu 0 c‖ = 1 := by
      rw [hj, norm_mul, h.unit, one_mul, mul_comm, norm_exp_ofReal_mul_I]
    rw [h2, exp_arg_unit _ hu, hturn, hj]
    unfold turned
    rw [ofReal_add, mul_add, exp_add, mul_assoc]
  · intro a ha
    rw [← hturn]
    refine le_npMax h3 ?_
    rw [mem_elems]
    exact ⟨t, h.bin, a, ha, nu, h.chan, 0, hd, c, h.corr, rfl⟩

theorem Solve.Noiseless.steps (h : p.Noiseless m t nu c G) (hp : p.Binned m) {jhj : Arr5 ℝ}
    (hjhj : ∀ a, jhj t a nu 0 c = linkPower (p.usedF m t nu) p.ant1 p.ant2 (p.rowPower nu c) a)
    {n : Nat} {j g : Arr5 ℂ} {r0 r : Option (Arr5 ℂ)} (hs : Steps (p.step jhj) n j r0 g r) :
    ∀ e : Nat → ℝ, (∀ a, j t a nu 0 c = G a * exp (I * e a)) →
      ∀ a, g t a nu 0 c = G a *
        exp (I * ((turned (p.usedF m t nu) p.ant1 p.ant2 (p.rowPower nu c))^[n] e a : ℝ)) := by
  induction hs with
  | zero j r => exact fun e he => he
  | succ hst _ ih =>
    intro e he a
    rw [Function.iterate_succ_apply]
    exact ih _ (h.step hp hjhj hst e he).1 a

/-- Where a run ended. -/
theorem gnWhile_last {step : Arr5 ℂ → Except PyErr (Arr5 ℂ × Arr5 ℂ × ℝ)} {tol : ℝ} (fuel : Nat) (eps : ℝ)
    (k : Nat) (j : Arr5 ℂ) (r0 : Option (Arr5 ℂ)) (g : Arr5 ℂ) (r : Option (Arr5 ℂ)) (k' : Nat)
    (h : gnWhile step tol fuel eps k j r0 = .ok (g, r, k')) (hk : k' < k + fuel) :
    (k' = k ∧ eps ≤ tol ∧ r = r0) ∨
      ∃ n j1 r1 r2 eps1, Steps step n j r0 j1 r1 ∧ step j1 = .ok (g, r2, eps1) ∧ eps1 ≤ tol := by
  induction fuel generalizing eps k j r0 with
  | zero => simp only [gnWhile] at h; cases h; omega
  | succ fuel ih =>
    simp only [gnWhile] at h
    split at h
    · cases hs : step j with
      | error err => rw [hs] at h; cases h
      | ok x =>
        obtain ⟨g1, r1, eps1⟩ := x
        rw [hs] at h
        rcases ih eps1 (k + 1) g1 (some r1) h (by omega) with ⟨h1, h2, h3⟩ | ⟨n, j1, r1', r2, e1, h1, h2, h3⟩
        · refine Or.inr ⟨0, j, r0, r1, eps1, .zero _ _, ?_, h2⟩
          have : g = g1 := by
            obtain ⟨n, hn, hst⟩ := steps_of_gnWhile _ _ _ _ _ _ _ _ h
            obtain rfl : n = 0 := by omega
            cases hst
            rfl
          rw [this]; exact hs
        · exact Or.inr ⟨n + 1, j1, r1', r2, e1, .succ hs h1, h2, h3⟩
    · rename_i hgt
      cases h
      exact Or.inl ⟨rfl, not_lt.1 hgt, rfl⟩

theorem Solve.Noiseless.jhj (h : p.Noiseless m t nu c G) (hp : p.Binned m) :
    ∃ jhj : Arr5 ℝ, (∀ a, jhj t a nu 0 c = linkPower (p.usedF m t nu) p.ant1 p.ant2 (p.rowPower nu c) a) ∧
      ∀ tol maxiter g J jhr k, p.run tol maxiter = .ok (g, J, jhr, k) →
        gnWhile (p.step jhj) tol maxiter 1 0 p.jones none = .ok (g, some jhr, k) := by
  obtain ⟨jhj, h1, h2⟩ := Solve.jhj_form hp
  refine ⟨jhj, fun a => ?_, fun tol maxiter g J jhr k hr => ?_⟩
  · rw [h1 t h.bin a nu h.chan 0 (by rw [h.dirs]; omega) c]
    exact Finset.sum_congr rfl fun r hr => h.jhjTerm _ h.start a r (Solve.mem_usedF.1 hr)
  · rw [h2] at hr
    split at hr
    · cases hr
    · cases hr
    · rename_i hx
      cases hr
      exact hx

theorem Solve.Noiseless.errors (h : p.Noiseless m t nu c G) {D : ℝ}
    (hD : PhasesWithin p.ext.nant (fun a => p.jones t a nu 0 c) G D) :
    ∃ e : Nat → ℝ, (∀ a, p.jones t a nu 0 c = G a * exp (I * e a)) ∧
      ∀ a < p.ext.nant, ∀ b < p.ext.nant, |e a - e b| ≤ D := by
  obtain ⟨e, h1, h2⟩ := hD
  choose e' he' using fun a => exists_phase (p.jones t a nu 0 c) (G a) (h.start a) (h.unit a)
  refine ⟨fun a => if a < p.ext.nant then e a else e' a, fun a => ?_, fun a ha b hb => ?_⟩
  · by_cases ha : a < p.ext.nant
    · simp only [if_pos ha]; exact h1 a ha
    · simp only [if_neg ha]; exact he' a
  · simp only [if_pos ha, if_pos hb]
    exact h2 a ha b hb

/-! ### Theorems -/

/-- C183 (partial: initial phases with errors that differ by less than half a turn). Whatever the number of
iterations, the errors of the returned phases differ by no more than those of the initial phases. -/
theorem C183_spread_partial (h : p.Noiseless m t nu c G) (hp : p.Binned m) {D : ℝ} (hpi : D < Real.pi)
    (hD : PhasesWithin p.ext.nant (fun a => p.jones t a nu 0 c) G D)
    (tol : ℝ) (maxiter : Nat) (g jhr : Arr5 ℂ) (jhj : Arr5 ℝ) (k : Nat)
    (hr : p.run tol maxiter = .ok (g, jhj, jhr, k)) :
    PhasesWithin p.ext.nant (fun a => g t a nu 0 c) G D := by
  obtain ⟨J, hJ, hrun⟩ := h.jhj hp
  obtain ⟨e, he, heD⟩ := h.errors hD
  obtain ⟨n, -, hst⟩ := steps_of_gnWhile _ _ _ _ _ _ _ _ (hrun _ _ _ _ _ _ hr)
  exact ⟨_, fun a _ => h.steps hp hJ hst e he a, turned_spread (fun r hr => h.ants r (Solve.mem_usedF.1 hr))
    h.powerNonneg h.power heD hpi n⟩

/-- C183 (partial, as above). If the antennas are all linked, the true phases are approached, up to a phase
common to all antennas: any accuracy is reached after enough iterations, however these were requested. -/
theorem C183_converges_partial (h : p.Noiseless m t nu c G) (hp : p.Binned m) (hc : p.Connected m t nu c) {D : ℝ}
    (hpi : D < Real.pi) (hD : PhasesWithin p.ext.nant (fun a => p.jones t a nu 0 c) G D) (ε : ℝ) (hε : 0 < ε) :
    ∃ n, ∀ tol maxiter g jhj jhr k, p.run tol maxiter = .ok (g, jhj, jhr, k) → n ≤ k →
      PhasesWithin p.ext.nant (fun a => g t a nu 0 c) G ε := by
  obtain ⟨J, hJ, hrun⟩ := h.jhj hp
  obtain ⟨e, he, heD⟩ := h.errors hD
  set D' := max D 1 with hD'
  have hD0 : 0 < D' := lt_max_of_lt_right one_pos
  have hpi' : D' < Real.pi := max_lt hpi (by linarith [Real.pi_gt_three])
  have hants : ∀ r ∈ p.usedF m t nu, p.ant1 r < p.ext.nant ∧ p.ant2 r < p.ext.nant :=
    fun r hr => h.ants r (Solve.mem_usedF.1 hr)
  have hcon : ∀ a < p.ext.nant, ∀ b < p.ext.nant,
      Relation.ReflTransGen (LinkedBy (p.usedF m t nu) p.ant1 p.ant2 (p.rowPower nu c)) a b := fun a ha b hb =>
    Relation.ReflTransGen.mono (fun x y hxy => (h.linked x y).2 hxy) _ _ (hc a ha b hb)
  obtain ⟨N, ρ, hρ0, hρ1, hcontr⟩ := turned_contract hants h.powerNonneg h.power hcon hD0 hpi'
  set F := turned (p.usedF m t nu) p.ant1 p.ant2 (p.rowPower nu c) with hF
  have hgeo : ∀ i : Nat, ∀ a < p.ext.nant, ∀ b < p.ext.nant, |F^[i * N] e a - F^[i * N] e b| ≤ ρ ^ i * D' := by
    intro i
    induction i with
    | zero =>
      intro a ha b hb
      rw [Nat.zero_mul, pow_zero, one_mul]
      exact (heD a ha b hb).trans (le_max_left _ _)
    | succ i ih =>
      rw [show (i + 1) * N = N + i * N by ring, Function.iterate_add_apply]
      have := hcontr (F^[i * N] e) (ρ ^ i * D') (mul_le_of_le_one_left hD0.le (pow_le_one₀ hρ0 hρ1.le)) ih
      intro a ha b hb
      exact (this a ha b hb).trans_eq (by ring)
  obtain ⟨i, hi⟩ := exists_pow_lt_of_lt_one (div_pos hε hD0) hρ1
  refine ⟨i * N, fun tol maxiter g jhj jhr k hr hk => ?_⟩
  obtain ⟨n, hn, hst⟩ := steps_of_gnWhile _ _ _ _ _ _ _ _ (hrun _ _ _ _ _ _ hr)
  refine ⟨_, fun a _ => h.steps hp hJ hst e he a, ?_⟩
  have hle : ρ ^ i * D' ≤ ε := by
    rw [lt_div_iff₀ hD0] at hi
    exact hi.le
  have hsp : ∀ a < p.ext.nant, ∀ b < p.ext.nant, |F^[i * N] e a - F^[i * N] e b| ≤ min ε D' := fun a ha b hb =>
    le_min ((hgeo i a ha b hb).trans hle)
      ((hgeo i a ha b hb).trans (mul_le_of_le_one_left hD0.le (pow_le_one₀ hρ0 hρ1.le)))
  obtain ⟨d, hd⟩ : ∃ d, n = d + i * N := ⟨n - i * N, by omega⟩
  rw [hd, Function.iterate_add_apply]
  intro a ha b hb
  exact (turned_spread hants h.powerNonneg h.power hsp ((min_le_right _ _).trans_lt hpi') d a ha b hb).trans
    (min_le_left _ _)

/-- C183 (partial, as above). A run that stops by its tolerance returns the true phases up to a common phase and
errors that differ by at most the tolerance times a number that depends on the array, the models and weights
only. -/
theorem C183_accuracy_partial (hp : p.Binned m) (hc : p.Connected m t nu c) (h : p.Noiseless m t nu c G) {D : ℝ}
    (hpi : D < Real.pi) (hD : PhasesWithin p.ext.nant (fun a => p.jones t a nu 0 c) G D) :
    ∃ C : ℝ, 0 < C ∧ ∀ tol maxiter g jhj jhr k, p.run tol maxiter = .ok (g, jhj, jhr, k) → k < maxiter →
      PhasesWithin p.ext.nant (fun a => g t a nu 0 c) G (C * tol) := by
  obtain ⟨J, hJ, hrun⟩ := h.jhj hp
  obtain ⟨e, he, heD⟩ := h.errors hD
  set D' := max D 1 with hD'
  have hD0 : 0 < D' := lt_max_of_lt_right one_pos
  have hpi' : D' < Real.pi := max_lt hpi (by linarith [Real.pi_gt_three])
  have hants : ∀ r ∈ p.usedF m t nu, p.ant1 r < p.ext.nant ∧ p.ant2 r < p.ext.nant :=
    fun r hr => h.ants r (Solve.mem_usedF.1 hr)
  have hcon : ∀ a < p.ext.nant, ∀ b < p.ext.nant,
      Relation.ReflTransGen (LinkedBy (p.usedF m t nu) p.ant1 p.ant2 (p.rowPower nu c)) a b := fun a ha b hb =>
    Relation.ReflTransGen.mono (fun x y hxy => (h.linked x y).2 hxy) _ _ (hc a ha b hb)
  obtain ⟨C, hC, hsmall⟩ := spread_of_small hants h.powerNonneg h.power hcon hD0 hpi'
  refine ⟨C, hC, fun tol maxiter g jhj jhr k hr hk => ?_⟩
  rcases gnWhile_last _ _ _ _ _ _ _ _ (hrun _ _ _ _ _ _ hr) (by omega) with ⟨-, -, hnone⟩ |
    ⟨n, j1, r1, r2, eps, hst, hlast, heps⟩
  · cases hnone
  set F := turned (p.usedF m t nu) p.ant1 p.ant2 (p.rowPower nu c) with hF
  have hj1 := h.steps hp hJ hst e he
  obtain ⟨hg, htol⟩ := h.step hp hJ hlast (F^[n] e) hj1
  have hsp := turned_spread hants h.powerNonneg h.power
    (fun a ha b hb => (heD a ha b hb).trans (le_max_left D 1)) hpi' n
  have hsp' := hsmall (F^[n] e) tol hsp fun a ha => (htol a ha).trans heps
  have hmin : ∀ a < p.ext.nant, ∀ b < p.ext.nant, |F^[n] e a - F^[n] e b| ≤ min (C * tol) D' := fun a ha b hb =>
    le_min (hsp' a ha b hb) (hsp a ha b hb)
  refine ⟨_, fun a _ => hg a, fun a ha b hb => ?_⟩
  have := turned_spread hants h.powerNonneg h.power hmin ((min_le_right _ _).trans_lt hpi') 1 a ha b hb
  exact this.trans (min_le_left _ _)

end

/-! ### Examples and the limit of half a turn -/

/-- One baseline with model 1 and unit initial gains. -/
def oneBaseline (d : ℂ) : Solve where
  ext := ⟨1, 2, 1, 1, 1⟩
  idx := fun _ => 0
  cnt := fun _ => 1
  ant1 := fun _ => 0
  ant2 := fun _ => 1
  jones := fun _ _ _ _ _ => 1
  vis := fun _ _ _ => d
  flagged := fun _ _ => false
  model := fun _ _ _ _ => 1
  weight := fun _ _ _ => 1

theorem oneBaseline_binned (d : ℂ) : (oneBaseline d).Binned 0 :=
  ⟨⟨⟨0, Nat.one_pos, rfl⟩, fun _ _ => le_rfl⟩, by
    intro t ht t' ht' _ _ _
    have h1 : t < 1 := ht
    have h2 : t' < 1 := ht'
    omega⟩

theorem oneBaseline_used (d : ℂ) (t nu : Nat) : (oneBaseline d).used 0 t nu = {0} := by
  ext r
  simp [Solve.used, oneBaseline]

theorem oneBaseline_linked (d : ℂ) : (oneBaseline d).Linked 0 0 0 0 0 1 := by
  refine ⟨0, by rw [oneBaseline_used]; rfl, ?_, ?_, Or.inl ⟨rfl, rfl⟩⟩
  · exact one_pos
  · exact one_ne_zero

theorem oneBaseline_noiseless (d : ℂ) (hd : ‖d‖ = 1) :
    (oneBaseline d).Noiseless 0 0 0 0 fun a => if a = 0 then d else 1 where
  dirs := rfl
  bin := Nat.one_pos
  chan := Nat.one_pos
  corr := Nat.one_pos
  ants := fun _ _ => ⟨Nat.two_pos, Nat.one_lt_two⟩
  weights := fun _ _ => zero_le_one
  seen := fun a ha => by
    have ha : a < 2 := ha
    have : a = 0 ∨ a = 1 := by omega
    obtain ⟨r, h1, h2, h3, h4⟩ := oneBaseline_linked d
    rcases this with rfl | rfl
    · exact ⟨1, r, h1, h2, h3, h4⟩
    · exact ⟨0, r, h1, h2, h3, h4.symm⟩
  start := fun _ => norm_one
  unit := fun a => by
    split
    · exact hd
    · exact norm_one
  data := fun _ _ => by
    show d = (if 0 = 0 then d else 1) * 1 * (starRingEnd ℂ) (if 1 = 0 then d else 1)
    simp

theorem oneBaseline_connected (d : ℂ) : (oneBaseline d).Connected 0 0 0 0 := by
  intro a ha b hb
  have ha : a < 2 := ha
  have hb : b < 2 := hb
  have h := oneBaseline_linked d
  have h' : (oneBaseline d).Linked 0 0 0 0 1 0 := by
    obtain ⟨r, h1, h2, h3, h4⟩ := h
    exact ⟨r, h1, h2, h3, h4.symm⟩
  have h1 : a = 0 ∨ a = 1 := by omega
  have h2 : b = 0 ∨ b = 1 := by omega
  rcases h1 with rfl | rfl <;> rcases h2 with rfl | rfl
  · exact .refl
  · exact .single h
  · exact .single h'
  · exact .refl

/-- A true phase difference of `x`, to be found from unit gains. -/
theorem oneBaseline_within (x : ℝ) :
    PhasesWithin 2 (fun _ => 1) (fun a => if a = 0 then exp (I * x) else 1) |x| := by
  refine ⟨fun a => if a = 0 then -x else 0, fun a ha => ?_, fun a ha b hb => ?_⟩
  · by_cases h : a = 0
    · simp only [if_pos h]
      rw [← exp_add, ofReal_neg, mul_neg, add_neg_cancel, exp_zero]
    · simp only [if_neg h]
      rw [ofReal_zero, mul_zero, exp_zero, mul_one]
  · dsimp only
    split_ifs <;> simp

/-- Calibrating from unit gains a baseline whose true phase difference is a quarter turn meets the hypotheses. -/
example : (oneBaseline (exp (I * (Real.pi / 2 : ℝ)))).Binned 0 ∧
    (oneBaseline (exp (I * (Real.pi / 2 : ℝ)))).Noiseless 0 0 0 0
      (fun a => if a = 0 then exp (I * (Real.pi / 2 : ℝ)) else 1) ∧
    (oneBaseline (exp (I * (Real.pi / 2 : ℝ)))).Connected 0 0 0 0 ∧ |Real.pi / 2| < Real.pi ∧
    PhasesWithin 2 (fun _ => 1) (fun a => if a = 0 then exp (I * (Real.pi / 2 : ℝ)) else 1) |Real.pi / 2| ∧
    ∃ r, (oneBaseline (exp (I * (Real.pi / 2 : ℝ)))).run (1 / 1000) 1 = .ok r := by
  refine ⟨oneBaseline_binned _, oneBaseline_noiseless _ ?_, oneBaseline_connected _, ?_, oneBaseline_within _, ?_⟩
  · rw [mul_comm]; exact norm_exp_ofReal_mul_I _
  · rw [abs_of_pos (by linarith [Real.pi_pos])]; linarith [Real.pi_pos]
  · obtain ⟨g, jhj, jhr, h, -⟩ := one_iteration 1 Nat.one_pos (fun _ => 1) (fun _ _ => one_ne_zero)
      (exp (I * (Real.pi / 2 : ℝ)))
    exact ⟨_, h⟩

/-- C183 is violated by errors that differ by half a turn: one baseline, model 1, data -1 and unit gains. Whatever
the tolerance and the limit, calibration stops after one iteration and returns the unit gains it was given. -/
theorem C183_violated (tol : ℝ) (h0 : 0 ≤ tol) (h1 : tol < 1) (maxiter : Nat) (hm : 1 ≤ maxiter) :
    (oneBaseline (-1)).Noiseless 0 0 0 0 (fun a => if a = 0 then -1 else 1) ∧
    ∃ g jhj jhr, (oneBaseline (-1)).run tol maxiter = .ok (g, jhj, jhr, 1) ∧ (∀ a < 2, g 0 a 0 0 0 = 1) ∧
      ∀ D < Real.pi, ¬ PhasesWithin 2 (fun a => g 0 a 0 0 0) (fun a => if a = 0 then -1 else 1) D := by
  have hn := oneBaseline_noiseless (-1) (by rw [norm_neg, norm_one])
  refine ⟨hn, ?_⟩
  have hb := oneBaseline_binned (-1)
  obtain ⟨J, hJ, hrun⟩ := Solve.jhj_form hb
  have hJ' : ∀ a, J 0 a 0 0 0 = linkPower ((oneBaseline (-1)).usedF 0 0 0) (oneBaseline (-1)).ant1
      (oneBaseline (-1)).ant2 ((oneBaseline (-1)).rowPower 0 0) a := by
    intro a
    rw [hJ 0 Nat.one_pos a 0 Nat.one_pos 0 Nat.one_pos 0]
    exact Finset.sum_congr rfl fun r hr => hn.jhjTerm _ hn.start a r (Solve.mem_usedF.1 hr)
  have hstep : ∃ g r eps, (oneBaseline (-1)).step J (oneBaseline (-1)).jones = .ok (g, r, eps) := by
    obtain ⟨jhr, -, h2⟩ := Solve.step_form hb J (oneBaseline (-1)).jones
    rw [h2]
    split
    · rename_i err he
      exfalso
      have : ∀ f : Arr5 ℝ, f 0 0 0 0 0 ∈ elems (oneBaseline (-1)).ext f := fun f =>
        mem_elems.2 ⟨0, Nat.one_pos, 0, Nat.two_pos, 0, Nat.one_pos, 0, Nat.one_pos, 0, Nat.one_pos, rfl⟩
      cases hl : elems (oneBaseline (-1)).ext
          (fun t a nu s c => |0.5 * (jhr t a nu s c / (J t a nu s c : ℂ)).re|) with
      | nil => have := this (fun t a nu s c => |0.5 * (jhr t a nu s c / (J t a nu s c : ℂ)).re|); rw [hl] at this; cases this
      | cons y ys => rw [hl] at he; cases he
    · exact ⟨_, _, _, rfl⟩
  obtain ⟨g, r, eps, hs⟩ := hstep
  have hpi : exp (I * (Real.pi : ℂ)) = -1 := by rw [mul_comm]; exact exp_pi_mul_I
  obtain ⟨hg, -⟩ := hn.step hb hJ' hs (fun a => if a = 0 then Real.pi else 0) fun a => by
    show (1 : ℂ) = _
    by_cases h : a = 0
    · simp only [if_pos h]; rw [hpi]; norm_num
    · simp only [if_neg h]; rw [ofReal_zero, mul_zero, exp_zero, mul_one]
  have hturn : ∀ a, turn ((oneBaseline (-1)).usedF 0 0 0) (oneBaseline (-1)).ant1
      (oneBaseline (-1)).ant2 ((oneBaseline (-1)).rowPower 0 0) (fun a => if a = 0 then Real.pi else 0) a = 0 := by
    intro a
    unfold turn
    rw [Finset.sum_eq_zero, zero_div, mul_zero]
    intro r _
    show _ * (_ * -Real.sin ((if 0 = 0 then Real.pi else 0) - (if 1 = 0 then Real.pi else 0))) = 0
    simp
  have hg1 : ∀ a, g 0 a 0 0 0 = 1 := by
    intro a
    rw [hg a]
    unfold turned
    rw [hturn, add_zero]
    by_cases h : a = 0
    · simp only [if_pos h]; rw [hpi]; norm_num
    · simp only [if_neg h]; rw [ofReal_zero, mul_zero, exp_zero, mul_one]
  have heps : eps = 0 := by
    obtain ⟨hr1, hg2, hmax⟩ := Solve.step_ok hb hs
    obtain ⟨t, ht, a, ha, nu, hnu, s, hs', c, hc, he⟩ := mem_elems.1 (npMax_attained hmax)
    have ht : t < 1 := ht
    have hnu : nu < 1 := hnu
    have hs' : s < 1 := hs'
    have hc : c < 1 := hc
    obtain rfl : t = 0 := by omega
    obtain rfl : nu = 0 := by omega
    obtain rfl : s = 0 := by omega
    obtain rfl : c = 0 := by omega
    have h0 : (r 0 a 0 0 0).re = 0 := by
      rw [hr1 0 Nat.one_pos a 0 Nat.one_pos 0 Nat.one_pos 0, re_sum]
      refine Finset.sum_eq_zero fun x hx => ?_
      rw [hn.jhrTerm _ (fun a => if a = 0 then Real.pi else 0) (fun a => by
        show (1 : ℂ) = _
        by_cases h : a = 0
        · simp only [if_pos h]; rw [hpi]; norm_num
        · simp only [if_neg h]; rw [ofReal_zero, mul_zero, exp_zero, mul_one]) a x (Solve.mem_usedF.1 hx)]
      show _ * (_ * -Real.sin ((if 0 = 0 then Real.pi else 0) - (if 1 = 0 then Real.pi else 0))) = 0
      simp
    rw [← he, div_ofReal_re, h0, zero_div, mul_zero, abs_zero]
  refine ⟨g, J, r, ?_, fun a _ => hg1 a, fun D hD ⟨e, he, hsp⟩ => ?_⟩
  · rw [hrun]
    obtain ⟨n, rfl⟩ : ∃ n, maxiter = n + 1 := ⟨maxiter - 1, by omega⟩
    simp only [gnWhile]
    rw [if_pos h1, hs]
    simp only
    have : gnWhile ((oneBaseline (-1)).step J) tol n eps (0 + 1) g (some r) = .ok (g, some r, 1) := by
      cases n with
      | zero => rfl
      | succ n => simp only [gnWhile]; rw [if_neg (by rw [heps]; exact not_lt.2 h0)]
    rw [this]
  · have h2 := he 0 (by omega)
    have h3 := he 1 (by omega)
    have h4 := hsp 0 (by omega) 1 (by omega)
    simp only [hg1, if_true] at h2
    simp only [hg1, one_ne_zero, if_false, one_mul] at h3
    have h5 : exp (((e 0 - e 1 : ℝ) : ℂ) * I) = -1 := by
      have : exp (((e 0 - e 1 : ℝ) : ℂ) * I) = exp (I * (e 0 : ℂ)) / exp (I * (e 1 : ℂ)) := by
        rw [← exp_sub]
        congr 1
        push_cast
        ring
      rw [this, ← h3, div_one]
      linear_combination h2
    have h6 : Real.cos (e 0 - e 1) = -1 := by
      have := congrArg Complex.re h5
      rw [exp_ofReal_mul_I_re] at this
      simpa using this
    have h7 := Real.cos_lt_cos_of_nonneg_of_le_pi (abs_nonneg (e 0 - e 1)) le_rfl (h4.trans_lt hD)
    rw [Real.cos_abs, h6, Real.cos_pi] at h7
    exact lt_irrefl _ h7

end Verif.Calibration
