/-
C119: the CUDA version of predict_vis computes what the CPU version does.
-/
import Verif.Cuda.PredictPlan

set_option autoImplicit false

namespace Verif.Cuda

open Verif.Rime

/-- Every call has a result. -/
theorem predictGpu_exists (single int32 : Bool) (nrow : Nat) (time ant1 ant2 : Nat → Nat) (x : GTerms) :
    ∃ r, PredictGpu single int32 nrow time ant1 ant2 x r := by
  unfold PredictGpu
  cases predictPlan int32 nrow time x with
  | error e => exact ⟨_, rfl⟩
  | ok p =>
    obtain ⟨r, hr⟩ := launch_exists (predictKernel (predictBlock single) (fun _ _ => 0) p.corrs nrow p.extents p.terms
      (fun r => time r - p.tmin) ant1 ant2) ⟨p.chan * p.corrs, nrow, 1⟩ (predictBlock single)
    exact ⟨r, _, hr⟩

/-- **C119** (2x2 Jones terms). Whatever is given, the result on the device is that of the CPU version, for every order of
the threads and every content of the registers of threads outside the grid, provided that the arrays have at most `2^31`
elements, that the grid can be launched and that not only base visibilities are given. -/
theorem C119_full_partial (single : Bool) (nsrc ntime na nrow nchan tmin : Nat) (time ant1 ant2 : Nat → Nat) (x : GTerms)
    (hs : HasShapes nsrc ntime na nrow nchan [2, 2] x) (hsmall : Small nrow nchan 4 x) (hm : IsMin nrow time tmin)
    (hidx : IndicesOk ntime na nrow time ant1 ant2 tmin x) (hx : x.dde.isSome ∨ x.coh.isSome ∨ x.die.isSome)
    (hfit : Fits ⟨nchan * 4, nrow, 1⟩ (predictBlock single))
    (r : Except PyErr (Int → ℂ)) (hr : PredictGpu single true nrow time ant1 ant2 x r) :
    ∃ out ref, r = .ok out ∧ predictVis fullKernel nsrc nrow nchan time ant1 ant2 (fullTerms x) = .ok ref ∧
      ∀ r < nrow, ∀ f < nchan, ∀ i j : Fin 2, visElement nchan 4 out r f (2 * i + j) = ref r f i j := by
  obtain ⟨e, he, hplan⟩ := plan_full hs hm hx
  unfold PredictGpu at hr
  rw [hplan] at hr
  obtain ⟨junk, hr⟩ := hr
  dsimp only at hr
  obtain ⟨hbx, hby, hbz⟩ := predictBlock_pos single
  obtain ⟨out, rfl, hrun⟩ := launch_ok hbx hby hbz hfit hr
  obtain ⟨ref, href, hval⟩ := C34_predict_full nsrc nrow nchan time ant1 ant2 tmin hm (fullTerms x)
    (by simp only [fullTerms, Option.isSome_map]; tauto)
  refine ⟨out, ref, rfl, href, ?_⟩
  intro r hrow f hf i j
  have hnc := he.nchan
  rw [← hnc] at hrun
  have hcell := predict_out hrun (by rw [hnc]; exact hsmall.out) hrow (cc := 4 * f + (2 * i + j)) (by omega)
  have e0 : (r * nchan + f) * 4 + (2 * (i : Nat) + j) = r * (e.nchan * 4) + (4 * f + (2 * i + j)) := by rw [hnc]; ring
  unfold visElement
  rw [e0, hcell]
  have d1 : (4 * f + (2 * (i : Nat) + j)) / 32 = f / 8 := by omega
  have d2 : (4 * f + (2 * (i : Nat) + j)) % 32 = 4 * (f % 8) + (2 * i + j) := by omega
  rw [d1, d2]
  have hq : ∀ R : Reg, R (4 * (f % 8) + (2 * (i : Nat) + j)) = quad (f % 8) R i j := by
    intro R
    fin_cases i <;> fin_cases j <;> rfl
  refine (hq _).trans ?_
  have hM : ∀ A B : M2 ℂ, A = B → A i j = B i j := fun A B h => by rw [h]
  refine hM _ _ ?_
  rw [hval r hrow f hf, warp_value (reads_quad (Nat.mod_lt _ (by omega)))]
  simp only [flat4, fullTerms, Option.map_map]
  refine rime_congr (E := _) (X := _) (fun h => he.nsrc h) ?_ ?_ ?_ ?_
  · intro d hd s hs'
    have hsh := hs.dde d hd
    have hsz := hsmall.dde d hd
    have hi := hidx (Or.inl (by rw [hd]; rfl)) r hrow
    simp only [Function.comp, load_quad hf, he.ntime (Or.inl (by rw [hd]; rfl)), he.na (Or.inl (by rw [hd]; rfl)), hnc]
    constructor
    · ext a b
      simp only [Matrix.of_apply]
      refine flatten_at ?_ hsz ?_
      · rw [hsh.1]
        exact .cons hs' (.cons hi.1 (.cons hi.2.1 (.cons hf (.cons a.2 (.cons b.2 .nil)))))
      · rw [hsh.1]
        simp only [List.cons_append, List.nil_append, ravel, size]
        ring
    · ext a b
      simp only [Matrix.of_apply]
      refine flatten_at ?_ (by rw [hsh.2, ← hsh.1]; exact hsz) ?_
      · rw [hsh.2]
        exact .cons hs' (.cons hi.1 (.cons hi.2.2 (.cons hf (.cons a.2 (.cons b.2 .nil)))))
      · rw [hsh.2]
        simp only [List.cons_append, List.nil_append, ravel, size]
        ring
  · intro c hc s hs'
    have hsh := hs.coh c hc
    have hsz := hsmall.coh c hc
    simp only [Function.comp, load_quad hf, hnc]
    ext a b
    simp only [Matrix.of_apply]
    refine flatten_at ?_ hsz ?_
    · rw [hsh]
      exact .cons hs' (.cons hrow (.cons hf (.cons a.2 (.cons b.2 .nil))))
    · rw [hsh]
      simp only [List.cons_append, List.nil_append, ravel, size]
      ring
  · refine Option.map_congr fun b hb => ?_
    have hsh := hs.bvis b hb
    simp only [Function.comp, load_quad hf, hnc]
    ext a c
    simp only [Matrix.of_apply]
    refine flatten_at ?_ ?_ ?_
    · rw [hsh]
      exact .cons hrow (.cons hf (.cons a.2 (.cons c.2 .nil)))
    · rw [hsh]
      simpa [size, Nat.mul_assoc] using hsmall.out
    · rw [hsh]
      simp only [List.cons_append, List.nil_append, ravel, size]
      ring
  · refine Option.map_congr fun g hg => ?_
    have hsh := hs.die g hg
    have hsz := hsmall.die g hg
    have hi := hidx (Or.inr (by rw [hg]; rfl)) r hrow
    simp only [Function.comp, load_quad hf, he.na (Or.inr (by rw [hg]; rfl)), hnc]
    congr 1
    · ext a b
      simp only [Matrix.of_apply]
      refine flatten_at ?_ hsz ?_
      · rw [hsh.1]
        exact .cons hi.1 (.cons hi.2.1 (.cons hf (.cons a.2 (.cons b.2 .nil))))
      · rw [hsh.1]
        simp only [List.cons_append, List.nil_append, ravel, size]
        ring
    · ext a b
      simp only [Matrix.of_apply]
      refine flatten_at ?_ (by rw [hsh.2, ← hsh.1]; exact hsz) ?_
      · rw [hsh.2]
        exact .cons hi.1 (.cons hi.2.2 (.cons hf (.cons a.2 (.cons b.2 .nil))))
      · rw [hsh.2]
        simp only [List.cons_append, List.nil_append, ravel, size]
        ring

/-- **C119** (one or two correlations). -/
theorem C119_diag_partial (single : Bool) (nsrc ntime na nrow nchan ncorr tmin : Nat) (hcorr : ncorr = 1 ∨ ncorr = 2) (time ant1 ant2 : Nat → Nat) (x : GTerms)
    (hs : HasShapes nsrc ntime na nrow nchan [ncorr] x) (hsmall : Small nrow nchan ncorr x) (hm : IsMin nrow time tmin)
    (hidx : IndicesOk ntime na nrow time ant1 ant2 tmin x) (hx : x.dde.isSome ∨ x.coh.isSome ∨ x.die.isSome)
    (hfit : Fits ⟨nchan * ncorr, nrow, 1⟩ (predictBlock single))
    (r : Except PyErr (Int → ℂ)) (hr : PredictGpu single true nrow time ant1 ant2 x r) :
    ∃ out ref, r = .ok out ∧ predictVis (diagKernel ncorr) nsrc nrow nchan time ant1 ant2 (diagTerms x) = .ok ref ∧
      ∀ r < nrow, ∀ f < nchan, ∀ c < ncorr, visElement nchan ncorr out r f c = ref r f c := by
  obtain ⟨e, he, hplan⟩ := plan_diag hs hm hcorr hx
  unfold PredictGpu at hr
  rw [hplan] at hr
  obtain ⟨junk, hr⟩ := hr
  dsimp only at hr
  obtain ⟨hbx, hby, hbz⟩ := predictBlock_pos single
  obtain ⟨out, rfl, hrun⟩ := launch_ok hbx hby hbz hfit hr
  obtain ⟨ref, href, hval⟩ := C34_predict_diag ncorr nsrc nrow nchan time ant1 ant2 tmin hm (diagTerms x)
    (by simp only [diagTerms, Option.isSome_map]; tauto)
  refine ⟨out, ref, rfl, href, ?_⟩
  intro r hrow f hf c hc
  have hnc := he.nchan
  rw [← hnc] at hrun
  have hlt : ncorr * f + c < nchan * ncorr := by
    rw [Nat.mul_comm nchan]
    calc ncorr * f + c < ncorr * f + ncorr := by omega
      _ = ncorr * (f + 1) := by ring
      _ ≤ ncorr * nchan := Nat.mul_le_mul_left _ hf
  have hcell := predict_out hrun (by rw [hnc]; exact hsmall.out) hrow (cc := ncorr * f + c) (by rw [hnc]; exact hlt)
  have e0 : (r * nchan + f) * ncorr + c = r * (e.nchan * ncorr) + (ncorr * f + c) := by rw [hnc]; ring
  unfold visElement
  rw [e0, hcell, hval r hrow f hf c hc,
    warp_value (reads_lane (by omega) ((ncorr * f + c) % 32))]
  simp only [diagTerms, Option.map_map]
  have hload : ∀ g : Nat → ℂ, loadOf junk (nchan * ncorr) ⟨(ncorr * f + c) / 32, r / (predictBlock single).y, 0⟩ g
      ((ncorr * f + c) % 32) = g (ncorr * f + c) := by
    intro g
    unfold loadOf
    dsimp only
    rw [Nat.div_add_mod', if_pos hlt]
  refine rime_congr (E := _) (X := _) (fun h => he.nsrc h) ?_ ?_ ?_ ?_
  · intro d hd s hs'
    have hsh := hs.dde d hd
    have hsz := hsmall.dde d hd
    have hi := hidx (Or.inl (by rw [hd]; rfl)) r hrow
    simp only [Function.comp, he.ntime (Or.inl (by rw [hd]; rfl)), he.na (Or.inl (by rw [hd]; rfl)), hnc, hload]
    constructor
    · refine flatInt_at ?_ (by simp [hsh]) hsz ?_
      · rw [hsh.1]
        exact .cons hs' (.cons hi.1 (.cons hi.2.1 (.cons hf (.cons hc .nil))))
      · rw [hsh.1]
        simp only [List.cons_append, List.nil_append, ravel, size]
        ring
    · refine flatInt_at ?_ (by simp [hsh]) (by rw [hsh.2, ← hsh.1]; exact hsz) ?_
      · rw [hsh.2]
        exact .cons hs' (.cons hi.1 (.cons hi.2.2 (.cons hf (.cons hc .nil))))
      · rw [hsh.2]
        simp only [List.cons_append, List.nil_append, ravel, size]
        ring
  · intro co hco s hs'
    have hsh := hs.coh co hco
    have hsz := hsmall.coh co hco
    simp only [Function.comp, hnc, hload]
    refine flatInt_at ?_ (by simp [hsh]) hsz ?_
    · rw [hsh]
      exact .cons hs' (.cons hrow (.cons hf (.cons hc .nil)))
    · rw [hsh]
      simp only [List.cons_append, List.nil_append, ravel, size]
      ring
  · refine Option.map_congr fun b hb => ?_
    have hsh := hs.bvis b hb
    simp only [Function.comp, hnc, hload]
    refine flatInt_at ?_ (by simp [hsh]) ?_ ?_
    · rw [hsh]
      exact .cons hrow (.cons hf (.cons hc .nil))
    · rw [hsh]
      simpa [size, Nat.mul_assoc] using hsmall.out
    · rw [hsh]
      simp only [List.cons_append, List.nil_append, ravel, size]
      ring
  · refine Option.map_congr fun g hg => ?_
    have hsh := hs.die g hg
    have hsz := hsmall.die g hg
    have hi := hidx (Or.inr (by rw [hg]; rfl)) r hrow
    simp only [Function.comp, he.na (Or.inr (by rw [hg]; rfl)), hnc, hload]
    congr 1
    · refine flatInt_at ?_ (by simp [hsh]) hsz ?_
      · rw [hsh.1]
        exact .cons hi.1 (.cons hi.2.1 (.cons hf (.cons hc .nil)))
      · rw [hsh.1]
        simp only [List.cons_append, List.nil_append, ravel, size]
        ring
    · refine flatInt_at ?_ (by simp [hsh]) (by rw [hsh.2, ← hsh.1]; exact hsz) ?_
      · rw [hsh.2]
        exact .cons hi.1 (.cons hi.2.2 (.cons hf (.cons hc .nil)))
      · rw [hsh.2]
        simp only [List.cons_append, List.nil_append, ravel, size]
        ring

/-- Not vacuous: two sources, two times, three antennas, 25 rows and 20 channels, all kinds of terms; two blocks along rows
and three along channels and correlations in double precision. -/
example : ∃ (x : GTerms) (r : Except PyErr (Int → ℂ)), HasShapes 2 2 3 25 20 [2, 2] x ∧ Small 25 20 4 x ∧
    IsMin 25 (fun r => 7 + r % 2) 7 ∧ IndicesOk 2 3 25 (fun r => 7 + r % 2) (fun r => r % 3) (fun r => (r + 1) % 3) 7 x ∧
    (x.dde.isSome ∨ x.coh.isSome ∨ x.die.isSome) ∧ Fits ⟨20 * 4, 25, 1⟩ (predictBlock false) ∧
    PredictGpu false true 25 (fun r => 7 + r % 2) (fun r => r % 3) (fun r => (r + 1) % 3) x r := by
  let x : GTerms := ⟨some (.dense [2, 2, 3, 20, 2, 2] fun k => k, .dense [2, 2, 3, 20, 2, 2] fun k => k + 1),
    some (.dense [2, 25, 20, 2, 2] fun k => k + Complex.I),
    some (.dense [2, 3, 20, 2, 2] fun k => k, .dense [2, 3, 20, 2, 2] fun k => k + 1),
    some (.dense [25, 20, 2, 2] fun k => k)⟩
  obtain ⟨r, hr⟩ := predictGpu_exists false true 25 (fun r => 7 + r % 2) (fun r => r % 3) (fun r => (r + 1) % 3) x
  refine ⟨x, r, ⟨?_, ?_, ?_, ?_⟩, ⟨?_, ?_, ?_, ?_⟩, ⟨⟨0, by decide, rfl⟩, fun r _ => Nat.le_add_right _ _⟩, ?_, Or.inl rfl, ?_, hr⟩
  any_goals
    intro d hd
    obtain rfl := Option.some.inj hd
    first | exact ⟨rfl, rfl⟩ | rfl | (show _ ≤ 2 ^ 31; decide)
  · decide
  · intro _ r _
    dsimp only
    omega
  · simp [Fits, predictBlock]

/-- Not vacuous: only coherencies, of two correlations. -/
example : ∃ (x : GTerms) (r : Except PyErr (Int → ℂ)), HasShapes 3 0 0 5 7 [2] x ∧ Small 5 7 2 x ∧
    (x.dde.isSome ∨ x.coh.isSome ∨ x.die.isSome) ∧ Fits ⟨7 * 2, 5, 1⟩ (predictBlock true) ∧
    PredictGpu true true 5 (fun r => r) (fun r => r) (fun r => r + 1) x r := by
  let x : GTerms := ⟨none, some (.dense [3, 5, 7, 2] fun k => k + Complex.I), none, none⟩
  obtain ⟨r, hr⟩ := predictGpu_exists true true 5 (fun r => r) (fun r => r) (fun r => r + 1) x
  refine ⟨x, r, ⟨?_, ?_, ?_, ?_⟩, ⟨?_, ?_, ?_, ?_⟩, Or.inr (Or.inl rfl), ?_, hr⟩
  any_goals
    intro d hd
    cases hd
    try first | rfl | (show _ ≤ 2 ^ 31; decide)
  · decide
  · simp [Fits, predictBlock]

/-- More rows than 65535 blocks hold (1572840 in double precision), or no channel, is refused. -/
theorem C119_refused (single : Bool) (nsrc ntime na nrow nchan tmin : Nat) (time ant1 ant2 : Nat → Nat) (x : GTerms)
    (hs : HasShapes nsrc ntime na nrow nchan [2, 2] x) (hm : IsMin nrow time tmin)
    (hx : x.dde.isSome ∨ x.coh.isSome ∨ x.die.isSome) (hfit : ¬ Fits ⟨nchan * 4, nrow, 1⟩ (predictBlock single))
    (r : Except PyErr (Int → ℂ)) (hr : PredictGpu single true nrow time ant1 ant2 x r) : r = .error .runtimeError := by
  obtain ⟨e, he, hplan⟩ := plan_full hs hm hx
  unfold PredictGpu at hr
  rw [hplan] at hr
  obtain ⟨junk, hr⟩ := hr
  obtain ⟨hbx, hby, hbz⟩ := predictBlock_pos single
  exact launch_error hbx hby hbz hfit hr

/-- Not vacuous. -/
example : ¬ Fits ⟨64 * 4, 1572841, 1⟩ (predictBlock false) := by simp [Fits, predictBlock]

/-- Index arrays of another type than int32 are refused: with arrays of matching shapes this is `TypeError`, and nothing is computed
in any case. -/
theorem C119_types (single : Bool) (nrow : Nat) (time ant1 ant2 : Nat → Nat) (x : GTerms) (r : Except PyErr (Int → ℂ))
    (hr : PredictGpu single false nrow time ant1 ant2 x r) :
    (∃ e, r = .error e) ∧
    (∀ nsrc ntime na nchan, HasShapes nsrc ntime na nrow nchan [2, 2] x → x.dde.isSome ∨ x.coh.isSome ∨ x.die.isSome →
      r = .error .typeError) := by
  unfold PredictGpu at hr
  have hp : ∃ e, predictPlan false nrow time x = .error e := by
    unfold predictPlan
    cases h1 : inferShape x with
    | error e => exact ⟨e, rfl⟩
    | ok v =>
      obtain ⟨chan, corrs⟩ := v
      simp only [bind, Except.bind]
      cases h2 : flattenAll corrs x with
      | error e => exact ⟨e, rfl⟩
      | ok v =>
        obtain ⟨fc, y⟩ := v
        simp only
        cases h3 : Rime.predictChecks (ndims y) with
        | error e => exact ⟨e, rfl⟩
        | ok v => exact ⟨_, rfl⟩
  refine ⟨?_, ?_⟩
  · obtain ⟨e, he⟩ := hp
    rw [he] at hr
    exact ⟨e, hr⟩
  · intro nsrc ntime na nchan hs hx
    have ht : predictPlan false nrow time x = .error .typeError := by
      obtain ⟨h1, h2, h3, h4⟩ := hs
      obtain ⟨dde, coh, die, bvis⟩ := x
      rcases dde with _ | ⟨⟨s1, st1, b1, m1⟩, ⟨s2, st2, b2, m2⟩⟩ <;> rcases coh with _ | ⟨s3, st3, b3, m3⟩ <;>
        rcases die with _ | ⟨⟨s4, st4, b4, m4⟩, ⟨s5, st5, b5, m5⟩⟩ <;> rcases bvis with _ | ⟨s6, st6, b6, m6⟩ <;>
        simp at h1 h2 h3 h4 hx <;> (try obtain ⟨rfl, rfl⟩ := h1) <;> (try subst h2) <;> (try obtain ⟨rfl, rfl⟩ := h3) <;>
        (try subst h4) <;> rfl
    rw [ht] at hr
    exact hr

/-- The numbers of axes of terms with one axis of correlations. -/
def OneAxis (x : GTerms) : Prop :=
  (∀ d ∈ x.dde, d.1.shape.length = 5 ∧ d.2.shape.length = 5) ∧ (∀ c ∈ x.coh, c.shape.length = 4) ∧
  (∀ g ∈ x.die, g.1.shape.length = 4 ∧ g.2.shape.length = 4) ∧ (∀ b ∈ x.bvis, b.shape.length = 3)

/-- Terms of different numbers of axes are refused: when the first term that is given has one axis of correlations, all must have
one. -/
theorem C119_axes (single int32 : Bool) (nrow : Nat) (time ant1 ant2 : Nat → Nat) (x : GTerms) (r : Except PyErr (Int → ℂ))
    (hfirst : (∃ d, x.dde = some d ∧ d.1.shape.length = 5) ∨ (x.dde = none ∧ ∃ c, x.coh = some c ∧ c.shape.length = 4))
    (hx : ¬ OneAxis x) (hr : PredictGpu single int32 nrow time ant1 ant2 x r) : r = .error .valueError := by
  have hp : predictPlan int32 nrow time x = .error .valueError := by
    have hc : ∃ chan a, inferShape x = .ok (chan, [a]) := by
      rcases hfirst with ⟨d, hd, hl⟩ | ⟨h0, c, hc, hl⟩
      · unfold inferShape
        rw [hd]
        refine ⟨d.1.shape.getD 3 0, d.1.shape.getD 4 0, ?_⟩
        obtain ⟨⟨s, st, b, m⟩, d2⟩ := d
        simp only at hl
        match s, hl with
        | [_, _, _, _, _], _ => rfl
      · unfold inferShape
        rw [h0, hc]
        refine ⟨c.shape.getD 2 0, c.shape.getD 3 0, ?_⟩
        obtain ⟨s, st, b, m⟩ := c
        simp only at hl
        match s, hl with
        | [_, _, _, _], _ => rfl
    obtain ⟨chan, a, hc⟩ := hc
    have hchk : Rime.predictChecks (ndims x) = .error .valueError := by
      refine Rime.C35_checks_error _ fun hw => hx ?_
      obtain ⟨_, _, d, hd, k1, k2, k3, k4, k5, k6⟩ := hw
      simp only [ndims, Option.map_eq_some_iff, forall_exists_index, and_imp] at k1 k2 k3 k4 k5 k6
      have hd1 : d = 0 := by
        rcases hfirst with ⟨t, ht, hl⟩ | ⟨_, c, ht, hl⟩
        · have := k1 t.1.shape.length t ht rfl
          omega
        · have := k3 c.shape.length c ht rfl
          omega
      subst hd1
      refine ⟨fun t ht => ⟨?_, ?_⟩, fun t ht => ?_, fun t ht => ⟨?_, ?_⟩, fun t ht => ?_⟩
      · exact k1 t.1.shape.length t ht rfl
      · exact k2 t.2.shape.length t ht rfl
      · exact k3 t.shape.length t ht rfl
      · exact k4 t.1.shape.length t ht rfl
      · exact k5 t.2.shape.length t ht rfl
      · exact k6 t.shape.length t ht rfl
    unfold predictPlan
    rw [hc]
    simp only [bind, Except.bind, flattenAll, hchk]
  unfold PredictGpu at hr
  rw [hp] at hr
  exact hr

/-- Base visibilities alone, for which the CPU version returns them, cannot be given: the kernel does not compile. -/
theorem C119_base_vis_violated :
    ∃ x : GTerms, HasShapes 0 0 0 2 3 [2, 2] x ∧ x.bvis.isSome ∧
      (∀ single r, PredictGpu single true 2 (fun _ => 0) (fun _ => 0) (fun _ => 1) x r → r = .error .compileException) ∧
      ∃ ref, predictVis fullKernel 0 2 3 (fun _ => 0) (fun _ => 0) (fun _ => 1) (fullTerms x) = .ok ref ∧
        ∀ r < 2, ∀ f < 3, some (ref r f) = (fullTerms x).bvis.map fun b => b r f := by
  let x : GTerms := ⟨none, none, none, some (.dense [2, 3, 2, 2] fun k => k + 1)⟩
  have hs : HasShapes 0 0 0 2 3 [2, 2] x := by
    refine ⟨?_, ?_, ?_, ?_⟩
    all_goals
      intro d hd
      cases hd
      try rfl
  refine ⟨x, hs, rfl, ?_, ?_⟩
  · intro single r hr
    exact hr
  · obtain ⟨ref, h1, h2⟩ := C34_predict_full 0 2 3 (fun _ => 0) (fun _ => 0) (fun _ => 1) 0
      ⟨⟨0, by decide, rfl⟩, fun _ _ => Nat.zero_le _⟩ (fullTerms x) (Or.inr (Or.inr (Or.inr rfl)))
    refine ⟨ref, h1, ?_⟩
    intro r hr f hf
    rw [h2 r hr f hf]
    simp [rime, fullTerms, x]

set_option linter.constructorNameAsVariable false in
/-- With coherencies of three sources, 65536 rows and 16384 channels the index of the third source is out of the range of an
`int`: a number from outside the array is added instead of the coherency, in every execution. -/
theorem C119_index_violated :
    ∃ x : GTerms, HasShapes 3 0 0 65536 16384 [1] x ∧ Fits ⟨16384 * 1, 65536, 1⟩ (predictBlock false) ∧
      (∀ c ∈ x.coh, ∀ idx, IsIdx [3, 65536, 16384, 1] idx → c.at idx = 0) ∧
      (∀ r, PredictGpu false true 65536 (fun _ => 0) (fun _ => 0) (fun _ => 1) x r →
        ∃ out, r = .ok out ∧ visElement 16384 1 out 0 0 0 = 1) ∧
      ∃ ref, predictVis (diagKernel 1) 3 65536 16384 (fun _ => 0) (fun _ => 0) (fun _ => 1) (diagTerms x) = .ok ref ∧
        ref 0 0 0 = 0 := by
  let c : GArr ℂ := .dense [3, 65536, 16384, 1] fun k => if k = -2147483648 then 1 else 0
  let x : GTerms := ⟨none, some c, none, none⟩
  have hs : HasShapes 3 0 0 65536 16384 [1] x := by
    refine ⟨?_, ?_, ?_, ?_⟩
    all_goals
      intro d hd
      cases hd
      try rfl
  have hm : IsMin 65536 (fun _ => 0) 0 := ⟨⟨0, by decide, rfl⟩, fun _ _ => Nat.zero_le _⟩
  have hx : x.dde.isSome ∨ x.coh.isSome ∨ x.die.isSome := Or.inr (Or.inl rfl)
  have hfit : Fits ⟨16384 * 1, 65536, 1⟩ (predictBlock false) := by simp [Fits, predictBlock]
  have hat : ∀ idx, IsIdx [3, 65536, 16384, 1] idx → c.at idx = 0 := by
    intro idx hidx
    have h := contiguous_dense [3, 65536, 16384, 1] (fun k => if k = -2147483648 then (1 : ℂ) else 0) idx hidx
    show (if (0 : Int) + offset (cStrides [3, 65536, 16384, 1]) idx = -2147483648 then (1 : ℂ) else 0) = 0
    have h' : offset (cStrides [3, 65536, 16384, 1]) idx = (ravel [3, 65536, 16384, 1] idx : Nat) := h
    rw [h', if_neg (by omega)]
  refine ⟨x, hs, hfit, ?_, ?_, ?_⟩
  · intro c' hc'
    obtain rfl := Option.some.inj hc'
    exact hat
  · intro r hr
    obtain ⟨e, he, hplan⟩ := plan_diag hs hm (Or.inl rfl) hx
    unfold PredictGpu at hr
    rw [hplan] at hr
    obtain ⟨junk, hr⟩ := hr
    dsimp only at hr
    obtain ⟨hbx, hby, hbz⟩ := predictBlock_pos false
    obtain ⟨out, rfl, hrun⟩ := launch_ok hbx hby hbz hfit hr
    refine ⟨out, rfl, ?_⟩
    have hnc := he.nchan
    have hns := he.nsrc (Or.inr rfl)
    rw [← hnc] at hrun
    have hcell := predict_out hrun (by rw [hnc]; decide) (r := 0) (by omega) (cc := 0) (by rw [hnc]; decide)
    have e0 : (0 * 16384 + 0) * 1 + 0 = 0 * (e.nchan * 1) + 0 := by omega
    unfold visElement
    rw [e0, hcell, warp_value (reads_lane (by decide) (0 % 32)), hns, hnc]
    have hX : ∀ k : Nat, c.flatInt (wrap32 k) = if wrap32 k = -2147483648 then 1 else 0 :=
      fun k => flatInt_dense _ _ (by simp) _
    have w0 : ¬ wrap32 ((0 * 65536 + 0) * (16384 * 1) + 0) = -2147483648 := by decide
    have w1 : ¬ wrap32 ((1 * 65536 + 0) * (16384 * 1) + 0) = -2147483648 := by decide
    have w2 : wrap32 ((2 * 65536 + 0) * (16384 * 1) + 0) = -2147483648 := by decide
    have hl : ∀ (g : Nat → ℂ), loadOf junk (16384 * 1) ⟨0 / 32, 0 / (predictBlock false).y, 0⟩ g (0 % 32) = g 0 := by
      intro g
      simp [loadOf]
    have hsum : ∀ X : Nat → ℂ, rime 3 none (some X) none none = X 0 + X 1 + X 2 := by
      intro X
      simp [rime, Finset.sum_range_succ]
    show rime 3 none (some _) none none = 1
    rw [hsum]
    simp only [hl, hX, if_neg w0, if_neg w1, if_pos w2]
    norm_num
  · obtain ⟨ref, h1, h2⟩ := C34_predict_diag 1 3 65536 16384 (fun _ => 0) (fun _ => 0) (fun _ => 1) 0 hm (diagTerms x)
      (Or.inr (Or.inl rfl))
    refine ⟨ref, h1, ?_⟩
    rw [h2 0 (by decide) 0 (by decide) 0 (by decide)]
    have hX : ∀ s < 3, c.at [s, 0, 0, 0] = 0 := fun s hs => hat _ (.cons hs (.cons (by decide) (.cons (by decide) (.cons (by decide) .nil))))
    simp [rime, diagTerms, x, Finset.sum_range_succ, hX 0, hX 1, hX 2]

end Verif.Cuda
