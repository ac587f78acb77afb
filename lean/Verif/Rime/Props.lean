/-
C34, C35, C38, C39: predict_vis, its checks, baseline reversal and apply_gains.
-/
import Verif.Rime.Lemmas
import Mathlib.LinearAlgebra.Matrix.ConjTranspose
import Mathlib.Data.Complex.Basic
import Mathlib.Tactic.NoncommRing
import Mathlib.Tactic.NormNum

set_option autoImplicit false

namespace Verif.Rime

/-! ### C34 -/

section C34
variable {K : Type*} [CommRing K] [StarRing K]

/-- **C34** (2x2 Jones terms). Whatever combination of DDEs, coherencies, DIEs and base visibilities is
supplied, every output cell holds `G_p (B + sum_s E_ps X_s E_qs^H) G_q^H`, the times being counted from the
first one of the call. `star` on 2x2 matrices is the conjugate transpose. -/
theorem C34_predict_full (nsrc nrow nchan : Nat) (time ant1 ant2 : Nat → Nat) (tmin : Nat)
    (hm : IsMin nrow time tmin) (x : Terms (M2 K))
    (hx : x.dde.isSome ∨ x.coh.isSome ∨ x.die.isSome ∨ x.bvis.isSome) :
    ∃ vis, predictVis fullKernel nsrc nrow nchan time ant1 ant2 x = .ok vis ∧
      ∀ r < nrow, ∀ f < nchan, vis r f = rime nsrc
        (x.dde.map fun e => (fun s => e.1 s (time r - tmin) (ant1 r) f,
          fun s => e.2 s (time r - tmin) (ant2 r) f))
        (x.coh.map fun b s => b s r f)
        (x.bvis.map fun b => b r f)
        (x.die.map fun g => (g.1 (time r - tmin) (ant1 r) f, g.2 (time r - tmin) (ant2 r) f)) :=
  predict_value full_laws hm hx

/-- **C34** (one or two correlations, scalars per correlation). -/
theorem C34_predict_diag (ncorr nsrc nrow nchan : Nat) (time ant1 ant2 : Nat → Nat) (tmin : Nat)
    (hm : IsMin nrow time tmin) (x : Terms (Nat → K))
    (hx : x.dde.isSome ∨ x.coh.isSome ∨ x.die.isSome ∨ x.bvis.isSome) :
    ∃ vis, predictVis (diagKernel ncorr) nsrc nrow nchan time ant1 ant2 x = .ok vis ∧
      ∀ r < nrow, ∀ f < nchan, ∀ c < ncorr, vis r f c = rime nsrc
        (x.dde.map fun e => (fun s => e.1 s (time r - tmin) (ant1 r) f c,
          fun s => e.2 s (time r - tmin) (ant2 r) f c))
        (x.coh.map fun b s => b s r f c)
        (x.bvis.map fun b => b r f c)
        (x.die.map fun g => (g.1 (time r - tmin) (ant1 r) f c, g.2 (time r - tmin) (ant2 r) f c)) := by
  by_cases hc : 0 < ncorr
  · obtain ⟨vis, h1, _⟩ := predict_value (diag_laws (K := K) hc) (nsrc := nsrc) (nchan := nchan)
      (ant1 := ant1) (ant2 := ant2) hm hx
    refine ⟨vis, h1, fun r hr f hf c hc => ?_⟩
    obtain ⟨vis', h1', h2'⟩ := predict_value (diag_laws (K := K) hc) (nsrc := nsrc) (nchan := nchan)
      (ant1 := ant1) (ant2 := ant2) hm hx
    rw [h1] at h1'
    obtain rfl := Except.ok.inj h1'
    exact h2' r hr f hf
  · unfold predictVis
    rw [if_neg (by obtain ⟨dde, coh, die, bvis⟩ := x
                   cases dde <;> cases coh <;> cases die <;> cases bvis <;> simp_all), timeMin_spec hm]
    exact ⟨_, rfl, fun r _ f _ c h => absurd h (by omega)⟩

/-- Two sources, two rows at times 5 and 4, all four kinds of input: the hypotheses are met. -/
noncomputable example : ∃ vis, predictVis (diagKernel 2) 2 2 3 (fun r => 5 - r) (fun r => r) (fun r => r + 1)
    (⟨some (fun _ _ _ _ _ => Complex.I, fun _ _ _ _ _ => 1), some fun _ _ _ _ => 2,
      some (fun _ _ _ _ => 3, fun _ _ _ _ => 1), some fun _ _ _ => 1⟩ : Terms (Nat → ℂ)) = .ok vis ∧
    vis 1 2 0 = 3 * (1 + ∑ _s ∈ Finset.range 2, Complex.I * 2 * star 1) * star 1 := by
  obtain ⟨vis, h1, h2⟩ := C34_predict_diag (K := ℂ) 2 2 2 3 (fun r => 5 - r) (fun r => r) (fun r => r + 1) 4
    ⟨⟨1, by omega, rfl⟩, fun r (hr : r < 2) => show 4 ≤ 5 - r by omega⟩
    ⟨some (fun _ _ _ _ _ => Complex.I, fun _ _ _ _ _ => 1), some fun _ _ _ _ => 2,
      some (fun _ _ _ _ => 3, fun _ _ _ _ => 1), some fun _ _ _ => 1⟩ (Or.inl rfl)
  refine ⟨vis, h1, ?_⟩
  rw [h2 1 (by omega) 2 (by omega) 0 (by omega)]
  simp [rime]

end C34

/-! ### C38 -/

section C38
variable {R : Type*} [Ring R] [StarRing R]

/-- Reversing a baseline: left and right terms exchanged, coherencies and base visibilities replaced by
their adjoints. -/
theorem rime_reverse (nsrc : Nat) (E : Option ((Nat → R) × (Nat → R))) (X : Option (Nat → R))
    (B : Option R) (G : Option (R × R)) :
    rime nsrc (E.map fun e => (e.2, e.1)) (X.map fun x s => star (x s)) (B.map star)
      (G.map fun g => (g.2, g.1)) = star (rime nsrc E X B G) := by
  unfold rime
  have hB : star (B.getD 0) = (B.map star).getD 0 := by cases B <;> simp
  cases E <;> cases X <;> cases G <;>
    simp [star_mul, star_add, star_sum, mul_assoc, hB]

end C38

/-- The inputs of `predict_vis` with left and right terms exchanged and baseline quantities replaced by
their adjoints `adj`. -/
def Terms.reverse {V : Type*} (adj : V → V) (x : Terms V) : Terms V where
  dde := x.dde.map fun e => (e.2, e.1)
  coh := x.coh.map fun b s r f => adj (b s r f)
  die := x.die.map fun g => (g.2, g.1)
  bvis := x.bvis.map fun b r f => adj (b r f)

section C38
variable {K : Type*} [CommRing K] [StarRing K]

/-- **C38** (2x2). Exchanging the antennas of every row, together with left and right terms and the
adjoint coherencies and base visibilities, gives the Hermitian conjugate visibilities. -/
theorem C38_reverse_full (nsrc nrow nchan : Nat) (time ant1 ant2 : Nat → Nat) (hn : 0 < nrow)
    (x : Terms (M2 K)) (hx : x.dde.isSome ∨ x.coh.isSome ∨ x.die.isSome ∨ x.bvis.isSome) :
    ∃ vis vis', predictVis fullKernel nsrc nrow nchan time ant1 ant2 x = .ok vis ∧
      predictVis fullKernel nsrc nrow nchan time ant2 ant1 (x.reverse Matrix.conjTranspose) = .ok vis' ∧
      ∀ r < nrow, ∀ f < nchan, vis' r f = (vis r f).conjTranspose := by
  obtain ⟨tmin, hm⟩ := exists_min time hn
  obtain ⟨vis, h1, h2⟩ := C34_predict_full nsrc nrow nchan time ant1 ant2 tmin hm x hx
  obtain ⟨vis', h3, h4⟩ := C34_predict_full nsrc nrow nchan time ant2 ant1 tmin hm
    (x.reverse Matrix.conjTranspose) (by simpa [Terms.reverse] using hx)
  refine ⟨vis, vis', h1, h3, fun r hr f hf => ?_⟩
  rw [h2 r hr f hf, h4 r hr f hf, ← Matrix.star_eq_conjTranspose, ← rime_reverse]
  simp only [Terms.reverse, Option.map_map]
  rfl

/-- **C38** (one or two correlations). -/
theorem C38_reverse_diag (ncorr nsrc nrow nchan : Nat) (time ant1 ant2 : Nat → Nat) (hn : 0 < nrow)
    (x : Terms (Nat → K)) (hx : x.dde.isSome ∨ x.coh.isSome ∨ x.die.isSome ∨ x.bvis.isSome) :
    ∃ vis vis', predictVis (diagKernel ncorr) nsrc nrow nchan time ant1 ant2 x = .ok vis ∧
      predictVis (diagKernel ncorr) nsrc nrow nchan time ant2 ant1 (x.reverse fun v c => star (v c)) = .ok vis' ∧
      ∀ r < nrow, ∀ f < nchan, ∀ c < ncorr, vis' r f c = star (vis r f c) := by
  obtain ⟨tmin, hm⟩ := exists_min time hn
  obtain ⟨vis, h1, h2⟩ := C34_predict_diag ncorr nsrc nrow nchan time ant1 ant2 tmin hm x hx
  obtain ⟨vis', h3, h4⟩ := C34_predict_diag ncorr nsrc nrow nchan time ant2 ant1 tmin hm
    (x.reverse fun v c => star (v c)) (by simpa [Terms.reverse] using hx)
  refine ⟨vis, vis', h1, h3, fun r hr f hf c hc => ?_⟩
  rw [h2 r hr f hf c hc, h4 r hr f hf c hc, ← rime_reverse]
  simp only [Terms.reverse, Option.map_map]
  rfl

example : ∃ x : Terms (M2 ℂ), x.dde.isSome ∨ x.coh.isSome ∨ x.die.isSome ∨ x.bvis.isSome :=
  ⟨⟨some (fun _ _ _ _ => !![1, Complex.I; 0, 2], fun _ _ _ _ => 1), none, none, none⟩, Or.inl rfl⟩

end C38

/-! ### C39 -/

section C39
variable {K : Type*} [CommRing K] [StarRing K]

/-- **C39** (2x2). `apply_gains` computes `G_p V G_q^H`. -/
theorem C39_apply_full (nrow nchan : Nat) (time ant1 ant2 : Nat → Nat) (tmin : Nat)
    (hm : IsMin nrow time tmin) (g1 g2 : Nat → Nat → Nat → M2 K) (vis : Nat → Nat → M2 K) :
    ∃ out, applyGains fullKernel nrow nchan time ant1 ant2 g1 vis g2 = .ok out ∧
      ∀ r < nrow, ∀ f < nchan,
        out r f = g1 (time r - tmin) (ant1 r) f * vis r f * (g2 (time r - tmin) (ant2 r) f).conjTranspose := by
  obtain ⟨out, h1, h2⟩ := C34_predict_full 0 nrow nchan time ant1 ant2 tmin hm
    ⟨none, none, some (g1, g2), some vis⟩ (Or.inr (Or.inr (Or.inl rfl)))
  refine ⟨out, h1, fun r hr f hf => ?_⟩
  rw [h2 r hr f hf]
  simp [rime, Matrix.star_eq_conjTranspose]

/-- **C39** (one or two correlations). -/
theorem C39_apply_diag (ncorr nrow nchan : Nat) (time ant1 ant2 : Nat → Nat) (tmin : Nat)
    (hm : IsMin nrow time tmin) (g1 g2 : Nat → Nat → Nat → Nat → K) (vis : Nat → Nat → Nat → K) :
    ∃ out, applyGains (diagKernel ncorr) nrow nchan time ant1 ant2 g1 vis g2 = .ok out ∧
      ∀ r < nrow, ∀ f < nchan, ∀ c < ncorr,
        out r f c = g1 (time r - tmin) (ant1 r) f c * vis r f c * star (g2 (time r - tmin) (ant2 r) f c) := by
  obtain ⟨out, h1, h2⟩ := C34_predict_diag ncorr 0 nrow nchan time ant1 ant2 tmin hm
    ⟨none, none, some (g1, g2), some vis⟩ (Or.inr (Or.inr (Or.inl rfl)))
  refine ⟨out, h1, fun r hr f hf c hc => ?_⟩
  rw [h2 r hr f hf c hc]
  simp [rime]

/-- **C39**: identity gains leave the visibilities unchanged. -/
theorem C39_identity_full (nrow nchan : Nat) (time ant1 ant2 : Nat → Nat) (hn : 0 < nrow)
    (vis : Nat → Nat → M2 K) :
    ∃ out, applyGains fullKernel nrow nchan time ant1 ant2 (fun _ _ _ => 1) vis (fun _ _ _ => 1) = .ok out ∧
      ∀ r < nrow, ∀ f < nchan, out r f = vis r f := by
  obtain ⟨tmin, hm⟩ := exists_min time hn
  obtain ⟨out, h1, h2⟩ := C39_apply_full nrow nchan time ant1 ant2 tmin hm (fun _ _ _ => 1) (fun _ _ _ => 1) vis
  exact ⟨out, h1, fun r hr f hf => by rw [h2 r hr f hf]; simp⟩

/-- **C39**: unit scalar gains leave the visibilities unchanged. -/
theorem C39_identity_diag (ncorr nrow nchan : Nat) (time ant1 ant2 : Nat → Nat) (hn : 0 < nrow)
    (vis : Nat → Nat → Nat → K) :
    ∃ out, applyGains (diagKernel ncorr) nrow nchan time ant1 ant2 (fun _ _ _ _ => 1) vis (fun _ _ _ _ => 1)
        = .ok out ∧
      ∀ r < nrow, ∀ f < nchan, ∀ c < ncorr, out r f c = vis r f c := by
  obtain ⟨tmin, hm⟩ := exists_min time hn
  obtain ⟨out, h1, h2⟩ := C39_apply_diag ncorr nrow nchan time ant1 ant2 tmin hm (fun _ _ _ _ => 1)
    (fun _ _ _ _ => 1) vis
  exact ⟨out, h1, fun r hr f hf c hc => by rw [h2 r hr f hf c hc]; simp⟩

/-- **C39**: applying gains and then their inverses returns the visibilities. -/
theorem C39_inverse_full (nrow nchan : Nat) (time ant1 ant2 : Nat → Nat) (hn : 0 < nrow)
    (g1 g2 h1 h2 : Nat → Nat → Nat → M2 K) (vis : Nat → Nat → M2 K)
    (hinv1 : ∀ t a f, h1 t a f * g1 t a f = 1) (hinv2 : ∀ t a f, h2 t a f * g2 t a f = 1) :
    ∃ mid out, applyGains fullKernel nrow nchan time ant1 ant2 g1 vis g2 = .ok mid ∧
      applyGains fullKernel nrow nchan time ant1 ant2 h1 mid h2 = .ok out ∧
      ∀ r < nrow, ∀ f < nchan, out r f = vis r f := by
  obtain ⟨tmin, hm⟩ := exists_min time hn
  obtain ⟨mid, e1, e2⟩ := C39_apply_full nrow nchan time ant1 ant2 tmin hm g1 g2 vis
  obtain ⟨out, e3, e4⟩ := C39_apply_full nrow nchan time ant1 ant2 tmin hm h1 h2 mid
  refine ⟨mid, out, e1, e3, fun r hr f hf => ?_⟩
  rw [e4 r hr f hf, e2 r hr f hf]
  generalize hG1 : g1 (time r - tmin) (ant1 r) f = G1
  generalize hG2 : g2 (time r - tmin) (ant2 r) f = G2
  generalize hH1 : h1 (time r - tmin) (ant1 r) f = H1
  generalize hH2 : h2 (time r - tmin) (ant2 r) f = H2
  have i1 : H1 * G1 = 1 := by rw [← hH1, ← hG1]; exact hinv1 _ _ _
  have i2 : H2 * G2 = 1 := by rw [← hH2, ← hG2]; exact hinv2 _ _ _
  calc H1 * (G1 * vis r f * G2.conjTranspose) * H2.conjTranspose
      = (H1 * G1) * vis r f * (H2 * G2).conjTranspose := by
        rw [Matrix.conjTranspose_mul]; noncomm_ring
    _ = vis r f := by rw [i1, i2]; simp

/-- **C39**: inverse gains, one or two correlations. -/
theorem C39_inverse_diag (ncorr nrow nchan : Nat) (time ant1 ant2 : Nat → Nat) (hn : 0 < nrow)
    (g1 g2 h1 h2 : Nat → Nat → Nat → Nat → K) (vis : Nat → Nat → Nat → K)
    (hinv1 : ∀ t a f c, h1 t a f c * g1 t a f c = 1) (hinv2 : ∀ t a f c, h2 t a f c * g2 t a f c = 1) :
    ∃ mid out, applyGains (diagKernel ncorr) nrow nchan time ant1 ant2 g1 vis g2 = .ok mid ∧
      applyGains (diagKernel ncorr) nrow nchan time ant1 ant2 h1 mid h2 = .ok out ∧
      ∀ r < nrow, ∀ f < nchan, ∀ c < ncorr, out r f c = vis r f c := by
  obtain ⟨tmin, hm⟩ := exists_min time hn
  obtain ⟨mid, e1, e2⟩ := C39_apply_diag ncorr nrow nchan time ant1 ant2 tmin hm g1 g2 vis
  obtain ⟨out, e3, e4⟩ := C39_apply_diag ncorr nrow nchan time ant1 ant2 tmin hm h1 h2 mid
  refine ⟨mid, out, e1, e3, fun r hr f hf c hc => ?_⟩
  rw [e4 r hr f hf c hc, e2 r hr f hf c hc]
  generalize hG1 : g1 (time r - tmin) (ant1 r) f c = G1
  generalize hG2 : g2 (time r - tmin) (ant2 r) f c = G2
  generalize hH1 : h1 (time r - tmin) (ant1 r) f c = H1
  generalize hH2 : h2 (time r - tmin) (ant2 r) f c = H2
  have i1 : H1 * G1 = 1 := by rw [← hH1, ← hG1]; exact hinv1 _ _ _ _
  have i2 : H2 * G2 = 1 := by rw [← hH2, ← hG2]; exact hinv2 _ _ _ _
  calc H1 * (G1 * vis r f c * star G2) * star H2
      = (H1 * G1) * vis r f c * star (H2 * G2) := by rw [star_mul]; ring
    _ = vis r f c := by rw [i1, i2]; simp

/-- Non-trivial invertible gains. -/
example : (!![1, -Complex.I; 0, 1] : M2 ℂ) * !![1, Complex.I; 0, 1] = 1 := by
  ext i j; fin_cases i <;> fin_cases j <;> simp [Matrix.mul_apply, Fin.sum_univ_two]

end C39

/-! ### C35 -/

/-- What `predict_vis` requires of the numbers of axes: DDEs and DIEs in pairs, and one common kind
(`d = 0`: one correlation axis, `d = 1`: two) for every supplied array. -/
structure WellFormed (s : Six Nat) : Prop where
  ddePair : s.dde1.isSome ↔ s.dde2.isSome
  diePair : s.die1.isSome ↔ s.die2.isSome
  kind : ∃ d, (d = 0 ∨ d = 1) ∧
    (∀ n, s.dde1 = some n → n = 5 + d) ∧ (∀ n, s.dde2 = some n → n = 5 + d) ∧
    (∀ n, s.coh = some n → n = 4 + d) ∧
    (∀ n, s.die1 = some n → n = 4 + d) ∧ (∀ n, s.die2 = some n → n = 4 + d) ∧
    (∀ n, s.bvis = some n → n = 3 + d)

theorem badNdim_false {x : Option Nat} {a b : Nat} (h : badNdim x a b = false) :
    x = none ∨ x = some a ∨ x = some b := by
  cases x with
  | none => exact Or.inl rfl
  | some n =>
    simp only [badNdim, Bool.not_eq_false', Bool.or_eq_true, beq_iff_eq] at h
    rcases h with rfl | rfl <;> simp

/-- **C35** The checks pass exactly on well-formed inputs, and then report which arrays are present. -/
theorem C35_checks_ok (s : Six Nat) (h : WellFormed s) :
    predictChecks s = .ok ⟨s.dde1.isSome, s.coh.isSome, s.dde2.isSome, s.die1.isSome, s.bvis.isSome,
      s.die2.isSome⟩ := by
  obtain ⟨dde1, coh, dde2, die1, bvis, die2⟩ := s
  obtain ⟨h1, h2, d, hd, k1, k2, k3, k4, k5, k6⟩ := h
  simp only at *
  rcases hd with rfl | rfl <;>
  cases dde1 <;> cases dde2 <;> cases coh <;> cases die1 <;> cases die2 <;> cases bvis <;>
    simp at h1 h2 k1 k2 k3 k4 k5 k6 <;>
    (try subst k1) <;> (try subst k2) <;> (try subst k3) <;> (try subst k4) <;> (try subst k5) <;>
    (try subst k6) <;> rfl

set_option maxHeartbeats 2000000 in
/-- **C35** Anything else is a `ValueError`. -/
theorem C35_checks_error (s : Six Nat) (h : ¬ WellFormed s) : predictChecks s = .error .valueError := by
  by_contra hne
  apply h
  unfold predictChecks at hne
  split_ifs at hne <;> first
    | exact absurd rfl hne
    | skip
  rename_i p1 p2 p3 p4 p5 p6 p7 p8 p9 p10 p11
  obtain ⟨dde1, coh, dde2, die1, bvis, die2⟩ := s
  simp only [Bool.not_eq_true] at p1 p2 p3 p4 p5 p6 p7 p8 p9 p10 p11
  have q1 := badNdim_false p3
  have q2 := badNdim_false p4
  have q3 := badNdim_false p6
  have q4 := badNdim_false p7
  have q5 := badNdim_false p8
  have q6 := badNdim_false p9
  clear p3 p4 p6 p7 p8 p9 hne h
  rcases q1 with rfl | rfl | rfl <;> rcases q2 with rfl | rfl | rfl <;>
    first | (exact absurd p1 (by decide)) | (exact absurd p5 (by decide)) | skip
  all_goals
    rcases q4 with rfl | rfl | rfl <;> rcases q6 with rfl | rfl | rfl <;>
    first | (exact absurd p2 (by decide)) | (exact absurd p10 (by decide)) | skip
  all_goals
    rcases q3 with rfl | rfl | rfl <;> rcases q5 with rfl | rfl | rfl <;>
    first
    | (exact absurd p11 (by decide))
    | (refine ⟨?_, ?_, 0, Or.inl rfl, ?_⟩ <;> (simp; done))
    | (refine ⟨?_, ?_, 1, Or.inr rfl, ?_⟩ <;> (simp; done))

/-- **C35** The call as a whole: when something is supplied and the input is well-formed, the kernel is
chosen by the common kind; in every other case the call is a `ValueError`. -/
theorem C35_types (s : Six Nat) :
    (∃ h t, predictTypes s = .ok (h, t)) ↔
      WellFormed s ∧ (s.dde1.isSome ∨ s.coh.isSome ∨ s.dde2.isSome ∨ s.die1.isSome ∨ s.bvis.isSome ∨
        s.die2.isSome) := by
  by_cases hw : WellFormed s
  · unfold predictTypes
    rw [C35_checks_ok s hw]
    obtain ⟨dde1, coh, dde2, die1, bvis, die2⟩ := s
    obtain ⟨h1, h2, d, hd, k1, k2, k3, k4, k5, k6⟩ := hw
    have hw' : WellFormed ⟨dde1, coh, dde2, die1, bvis, die2⟩ :=
      ⟨h1, h2, d, hd, k1, k2, k3, k4, k5, k6⟩
    simp only [hw', true_and]
    clear hw'
    simp only at *
    rcases hd with rfl | rfl <;>
    cases dde1 <;> cases dde2 <;> cases coh <;> cases die1 <;> cases die2 <;> cases bvis <;>
      simp at h1 h2 k1 k2 k3 k4 k5 k6 <;>
      (try subst k1) <;> (try subst k2) <;> (try subst k3) <;> (try subst k4) <;> (try subst k5) <;>
      (try subst k6) <;> first
        | (exact ⟨fun _ => by simp, fun _ => ⟨_, _, rfl⟩⟩)
        | (constructor
           · rintro ⟨h, t, e⟩; cases e
           · rintro h; simp at h)
  · unfold predictTypes
    rw [C35_checks_error s hw]
    constructor
    · rintro ⟨h, t, e⟩; cases e
    · rintro ⟨h, _⟩; exact absurd h hw

/-- **C35** The failing calls all raise `ValueError`. -/
theorem C35_types_error (s : Six Nat) (e : PyErr) (h : predictTypes s = .error e) : e = .valueError := by
  by_cases hw : WellFormed s
  · unfold predictTypes at h
    rw [C35_checks_ok s hw] at h
    obtain ⟨dde1, coh, dde2, die1, bvis, die2⟩ := s
    obtain ⟨h1, h2, d, hd, k1, k2, k3, k4, k5, k6⟩ := hw
    simp only at *
    rcases hd with rfl | rfl <;>
    cases dde1 <;> cases dde2 <;> cases coh <;> cases die1 <;> cases die2 <;> cases bvis <;>
      simp at h1 h2 k1 k2 k3 k4 k5 k6 <;>
      (try subst k1) <;> (try subst k2) <;> (try subst k3) <;> (try subst k4) <;> (try subst k5) <;>
      (try subst k6) <;> first | (cases h; rfl) | (exact absurd h (by decide)) | cases h
  · unfold predictTypes at h
    rw [C35_checks_error s hw] at h
    cases h; rfl

/-- **C35** The kernel chosen: 2x2 exactly when the supplied arrays have the larger number of axes. -/
theorem C35_kind (s : Six Nat) (h : Have) (t : JType) (hs : predictTypes s = .ok (h, t)) :
    (t = .full → ∀ n, (s.coh = some n → n = 5) ∧ (s.dde1 = some n → n = 6) ∧ (s.die1 = some n → n = 5) ∧
      (s.bvis = some n → n = 4)) ∧
    (t = .diag → ∀ n, (s.coh = some n → n = 4) ∧ (s.dde1 = some n → n = 5) ∧ (s.die1 = some n → n = 4) ∧
      (s.bvis = some n → n = 3)) := by
  have hw : WellFormed s := ((C35_types s).1 ⟨h, t, hs⟩).1
  unfold predictTypes at hs
  rw [C35_checks_ok s hw] at hs
  obtain ⟨dde1, coh, dde2, die1, bvis, die2⟩ := s
  obtain ⟨h1, h2, d, hd, k1, k2, k3, k4, k5, k6⟩ := hw
  simp only at *
  rcases hd with rfl | rfl <;>
  cases dde1 <;> cases dde2 <;> cases coh <;> cases die1 <;> cases die2 <;> cases bvis <;>
    simp at h1 h2 k1 k2 k3 k4 k5 k6 <;>
    (try subst k1) <;> (try subst k2) <;> (try subst k3) <;> (try subst k4) <;> (try subst k5) <;>
    (try subst k6) <;> cases hs <;> simp <;> (intro n; omega)

/-- 2x2 DDEs, coherencies and base visibilities together are accepted; DDEs with one correlation axis beside
2x2 coherencies are not. -/
example : WellFormed ⟨some 6, some 5, some 6, none, some 4, none⟩ ∧
    ¬ WellFormed ⟨some 5, some 5, some 5, none, none, none⟩ :=
  ⟨⟨by simp, by simp, 1, Or.inr rfl, by simp⟩, by
    rintro ⟨_, _, d, hd, k1, _, k3, _⟩
    have := k1 5 rfl; have := k3 5 rfl; omega⟩

end Verif.Rime
