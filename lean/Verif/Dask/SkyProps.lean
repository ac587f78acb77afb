/-
C115: sky models on dask arrays.
-/
import Verif.Dask.Sky
import Verif.Dask.RimeLemmas
import Verif.ModelData.SpectralProps

set_option autoImplicit false

namespace Verif.Dask

open Verif.ModelData

/-- Hypotheses of `gaussian`: the components of `uvw` and of the shape parameters are in one block. -/
structure GaussianArgs (uvw frequency shapeParams : DArr ℝ) : Prop where
  uvwValid : uvw.Valid 2
  freqValid : frequency.Valid 1
  shapeValid : shapeParams.Valid 2
  uvwWhole : (uvw.axis 1).length = 1
  shapeWhole : (shapeParams.axis 1).length = 1

/-- **C115**: `gaussian` of dask arrays. -/
theorem C115_gaussian (uvw frequency shapeParams : DArr ℝ) (h : GaussianArgs uvw frequency shapeParams) :
    ∃ l, daskGaussian uvw frequency shapeParams = .ok l ∧
      l.Agrees (npGaussian uvw.whole frequency.whole shapeParams.whole) := by
  obtain ⟨hu, hf, hl, hu1, hl1⟩ := h
  obtain ⟨cs, c2, hcl, gs, g2⟩ := hl.two
  obtain ⟨cr, c3, hcu, gr, g3⟩ := hu.two
  obtain ⟨cf, hcf, gf⟩ := hf.one
  simp only [DArr.axis, hcl, hcu, List.getD_cons_succ, List.getD_cons_zero] at hl1 hu1
  obtain ⟨n, rfl⟩ := List.length_eq_one_iff.1 hl1
  obtain ⟨m, rfl⟩ := List.length_eq_one_iff.1 hu1
  unfold daskGaussian
  generalize hfun : (fun (env : Label → List Nat) (out : List (Label × Nat)) => do
    npGaussian (← (fetch env uvw [lRow, lUvwComp] out).firsts 1) (← (fetch env frequency [lChan] out).firsts 0)
      (← (fetch env shapeParams [lSource, lShapeComp] out).firsts 1)) = f
  obtain ⟨env, hR, he⟩ := blockwise_axes [lSource, lRow, lChan] []
    [uvw.arg [lRow, lUvwComp], frequency.arg [lChan], shapeParams.arg [lSource, lShapeComp]] f
    (extents [(lSource, cs.sum), (lRow, cr.sum), (lChan, cf.sum), (lShapeComp, n), (lUvwComp, m)])
    (by simp [DArr.arg])
    (by simp (decide := true) [DArr.arg, hcl, hcu, hcf, gs, gr, gf, g2, g3, extents, pick])
  have es := hR.good (shapeParams.arg [lSource, lShapeComp]) (by simp) lSource (by simp [DArr.arg])
  have er := hR.good (uvw.arg [lRow, lUvwComp]) (by simp) lRow (by simp [DArr.arg])
  have ef := hR.good (frequency.arg [lChan]) (by simp) lChan (by simp [DArr.arg])
  have el := hR.contracted (shapeParams.arg [lSource, lShapeComp]) (by simp) lShapeComp (by simp [DArr.arg]) (by decide)
  have eu := hR.contracted (uvw.arg [lRow, lUvwComp]) (by simp) lUvwComp (by simp [DArr.arg]) (by decide)
  simp (decide := true) only [extents, pick, if_true, if_false, Option.getD_some] at es er ef el eu
  refine ⟨_, he, ?_⟩
  have hch : [lSource, lRow, lChan].map (outChunks [] env) = [env lSource, env lRow, env lChan] := by simp [outChunks, pick]
  simp only [hch]
  have hw : shapeParams.whole = ⟨[(env lSource).sum, n], shapeParams.val⟩ := by simp [DArr.whole, hcl, es.2]
  have hw2 : uvw.whole = ⟨[(env lRow).sum, m], uvw.val⟩ := by simp [DArr.whole, hcu, er.2]
  have hw3 : frequency.whole = ⟨[(env lChan).sum], frequency.val⟩ := by simp [DArr.whole, hcf, ef.2]
  rw [hw, hw2, hw3]
  refine Lazy.agrees_blocks (by simp [es.1.ne_nil, er.1.ne_nil, ef.1.ne_nil]) ?_ ?_
  · intro a ha
    simp only [npGaussian] at ha
    split_ifs at ha
    cases ha
    simp
  · intro b hb
    have hb' := hb
    simp only [isBlock_cons, isBlock_nil] at hb'
    rw [← hch] at hb
    obtain ⟨i, b', rfl, hi, j, b', rfl, hj, k, b', rfl, hk, rfl⟩ := hb'
    dsimp only
    rw [← hfun]
    dsimp only
    rw [hR.fetch shapeParams [lSource, lShapeComp] 1 _ hb (by simp) (by simp [hcl]) (by decide),
      hR.fetch uvw [lRow, lUvwComp] 1 _ hb (by simp) (by simp [hcu]) (by decide),
      hR.fetch frequency [lChan] 0 _ hb (by simp) (by simp [hcf]) (by decide)]
    simp (decide := true) only [bind, Except.bind, part, blk, pick, el, eu, blockSize_single, blockOff_zero, List.map_cons,
      List.map_nil, List.zip_cons_cons, List.zip_nil_right, if_true, if_false, Option.getD_some, Option.getD_none,
      npGaussian, es.1.block_pos hi, er.1.block_pos hj]
    split_ifs with h1 h2
    · exact rfl
    · exact rfl
    · refine ⟨_, rfl, fun x hx => ?_⟩
      simp only [List.zipWith_cons_cons, List.zipWith_nil_left, isIndex_cons, isIndex_nil] at hx
      obtain ⟨s, x', rfl, hs, r, x'', rfl, hr, c, x', rfl, hc, rfl⟩ := hx
      simp [NArr.triple]

/-- What the polarisation axes and the bases determine: the model of every polarisation, or an error. -/
noncomputable def modelKinds (sdims pdims : List Nat) (base : Base) : Except PyErr (List Kind) :=
  open Classical in if base = .other then .error .typeError
  else if pdims.length ≠ sdims.length then .error .valueError
  else if sdims.prod ≠ pdims.prod then .error .valueError
  else match promoteBase sdims.prod base with
    | .error e => .error e
    | .ok lb => kindsOf (lb.take sdims.prod)

/-- The values, given the models. -/
noncomputable def kindsOut (n : Nat) (st : Nat → Nat → ℝ) (sp : Nat → Nat → Nat → ℝ) (rf fr : Nat → ℝ) (ks : List Kind) :
    Nat → Nat → Nat → ℝ := fun s f p => specCell (ks.getD p .std) (st s p) n (fun si => sp s si p) (rf s) (fr f)

private theorem spectralModel_eq (sdims pdims : List Nat) (n : Nat) (st : Nat → Nat → ℝ) (sp : Nat → Nat → Nat → ℝ)
    (rf fr : Nat → ℝ) (base : Base) : spectralModel sdims pdims n st sp rf fr base =
      (modelKinds sdims pdims base).map (kindsOut n st sp rf fr) := by
  cases base with
  | other => simp [spectralModel, modelKinds, Except.map]
  | scalar b =>
    simp only [spectralModel, modelKinds, reduceCtorEq, if_false, promoteBase]
    split_ifs
    · rfl
    · rfl
    · dsimp only [spectralLoop]
      cases kindsOf _ <;> rfl
  | list l =>
    simp only [spectralModel, modelKinds, reduceCtorEq, if_false]
    split_ifs
    · rfl
    · rfl
    · cases promoteBase sdims.prod (.list l) with
      | error e => rfl
      | ok lb =>
        dsimp only [spectralLoop]
        cases kindsOf _ <;> rfl

/-- Hypotheses of `spectral_model` with `np` polarisation axes: equal axes have equal extents and the spectral indices are
in one block. -/
structure SpectralArgs (stokes spi refFreq frequency : DArr ℝ) (np : Nat) : Prop where
  stokesValid : stokes.Valid (1 + np)
  spiValid : spi.Valid (2 + np)
  refValid : refFreq.Valid 1
  freqValid : frequency.Valid 1
  sources : spi.dim 0 = stokes.dim 0
  refs : refFreq.dim 0 = stokes.dim 0
  pols : np = 1 → spi.dim 2 = stokes.dim 1
  spiWhole : (spi.axis 1).length = 1

/-- **C115**: `spectral_model` of dask arrays without a polarisation axis. -/
theorem C115_spectral_model (stokes spi refFreq frequency : DArr ℝ) (base : Base)
    (h : SpectralArgs stokes spi refFreq frequency 0) :
    ∃ l, daskSpectralModel stokes spi refFreq frequency base = .ok l ∧
      l.Agrees (npSpectralModel stokes.whole spi.whole refFreq.whole frequency.whole base) := by
  obtain ⟨hs, hp, hr, hf, d1, d2, -, hp1⟩ := h
  obtain ⟨cs, hcs, gs⟩ := hs.one
  obtain ⟨cs', cn, hcp, gs', gn⟩ := hp.two
  obtain ⟨cs'', hcr, gs''⟩ := hr.one
  obtain ⟨cf, hcf, gf⟩ := hf.one
  simp only [DArr.axis, DArr.dim, hcs, hcp, hcr, List.getD_cons_succ, List.getD_cons_zero] at hp1 d1 d2
  obtain ⟨n, rfl⟩ := List.length_eq_one_iff.1 hp1
  unfold daskSpectralModel
  simp only [hcp, hcs, List.getElem?_cons_succ, List.getElem?_cons_zero, ne_eq, not_true_eq_false,
    if_false, if_true, List.length_nil, List.length_cons, or_self, zero_add, Nat.reduceAdd, add_zero, List.append_nil]
  generalize hfun : (fun (env : Label → List Nat) (out : List (Label × Nat)) => do
    npSpectralModel (← (fetch env stokes [lSource] out).firsts 0) (← (fetch env spi [lSource, lSpi] out).firsts 1)
      (← (fetch env refFreq [lSource] out).firsts 0) (← (fetch env frequency [lChan] out).firsts 0) base) = f
  obtain ⟨env, hR, he⟩ := blockwise_axes [lSource, lChan] []
    [stokes.arg [lSource], spi.arg [lSource, lSpi], refFreq.arg [lSource], frequency.arg [lChan]] f
    (extents [(lSource, cs.sum), (lChan, cf.sum), (lSpi, n)])
    (by simp [DArr.arg])
    (by simp (decide := true) [DArr.arg, hcs, hcp, hcr, hcf, gs, gs', gs'', gf, gn, extents, pick, d1, d2])
  have es := hR.good (stokes.arg [lSource]) (by simp) lSource (by simp [DArr.arg])
  have ef := hR.good (frequency.arg [lChan]) (by simp) lChan (by simp [DArr.arg])
  have el := hR.contracted (spi.arg [lSource, lSpi]) (by simp) lSpi (by simp [DArr.arg]) (by decide)
  simp (decide := true) only [extents, pick, if_true, if_false, Option.getD_some] at es ef el
  refine ⟨_, he, ?_⟩
  have hch : [lSource, lChan].map (outChunks [] env) = [env lSource, env lChan] := by simp [outChunks, pick]
  simp only [hch]
  have hw1 : stokes.whole = ⟨[(env lSource).sum], stokes.val⟩ := by simp [DArr.whole, hcs, es.2]
  have hw2 : spi.whole = ⟨[(env lSource).sum, n], spi.val⟩ := by simp [DArr.whole, hcp, es.2, d1]
  have hw3 : refFreq.whole = ⟨[(env lSource).sum], refFreq.val⟩ := by simp [DArr.whole, hcr, es.2, d2]
  have hw4 : frequency.whole = ⟨[(env lChan).sum], frequency.val⟩ := by simp [DArr.whole, hcf, ef.2]
  rw [hw1, hw2, hw3, hw4]
  refine Lazy.agrees_blocks (by simp [es.1.ne_nil, ef.1.ne_nil]) ?_ ?_
  · intro a ha
    simp only [npSpectralModel] at ha
    split at ha
    · cases ha
    · cases ha; simp
  · intro b hb
    have hb' := hb
    simp only [isBlock_cons, isBlock_nil] at hb'
    rw [← hch] at hb
    obtain ⟨i, b', rfl, hi, j, b', rfl, hj, rfl⟩ := hb'
    dsimp only
    rw [← hfun]
    dsimp only
    rw [hR.fetch stokes [lSource] 0 _ hb (by simp) (by simp [hcs]) (by decide),
      hR.fetch spi [lSource, lSpi] 1 _ hb (by simp) (by simp [hcp]) (by decide),
      hR.fetch refFreq [lSource] 0 _ hb (by simp) (by simp [hcr]) (by decide),
      hR.fetch frequency [lChan] 0 _ hb (by simp) (by simp [hcf]) (by decide)]
    simp (decide := true) only [bind, Except.bind, part, blk, pick, el, blockSize_single, blockOff_zero, List.map_cons,
      List.map_nil, List.zip_cons_cons, List.zip_nil_right, if_true, if_false, Option.getD_some, Option.getD_none,
      npSpectralModel, spectralModel_eq]
    cases modelKinds [] [] base with
    | error e => exact rfl
    | ok ks =>
      refine ⟨_, rfl, fun x hx => ?_⟩
      simp only [List.zipWith_cons_cons, List.zipWith_nil_left, isIndex_cons, isIndex_nil] at hx
      obtain ⟨s, x', rfl, hs, r, x'', rfl, hr, rfl⟩ := hx
      simp [polIndex, kindsOut]

private theorem kindsOf_replicate (b : BaseVal) (m : Nat) : kindsOf (List.replicate m b) =
    if m = 0 then .ok [] else match classify b with
      | .error e => .error e
      | .ok k => .ok (List.replicate m k) := by
  induction m with
  | zero => rfl
  | succ m ih =>
    rw [List.replicate_succ, kindsOf, ih, if_neg (Nat.succ_ne_zero m)]
    cases classify b with
    | error e => rfl
    | ok k =>
      cases m with
      | zero => rfl
      | succ m => rw [if_neg (Nat.succ_ne_zero m)]; rfl

/-- The models of a block of polarisations are a block of the models. -/
private theorem modelKinds_block (base : Base) (c : List Nat) (hc : GoodChunks c)
    (hb : c.length = 1 ∨ ∃ b, base = .scalar b) {j : Nat} (hj : j < c.length) :
    match modelKinds [c.sum] [c.sum] base with
    | .error e => modelKinds [blockSize c j] [blockSize c j] base = .error e
    | .ok ks => ∃ ks', modelKinds [blockSize c j] [blockSize c j] base = .ok ks' ∧
      ∀ p < blockSize c j, ks'.getD p .std = ks.getD (blockOff c j + p) .std := by
  rcases hb with h1 | ⟨b, rfl⟩
  · obtain ⟨n, rfl⟩ := List.length_eq_one_iff.1 h1
    obtain rfl : j = 0 := by simpa using hj
    simp only [blockSize_single, blockOff_zero, List.sum_singleton]
    cases modelKinds [n] [n] base with
    | error e => rfl
    | ok ks => exact ⟨ks, rfl, by simp⟩
  · have hpos := hc.block_pos hj
    simp only [modelKinds, reduceCtorEq, if_false, ne_eq, not_true_eq_false, promoteBase, List.prod_singleton,
      List.take_replicate, min_self, kindsOf_replicate]
    by_cases h0 : c.sum = 0
    · rw [if_pos h0]
      have : blockSize c j = 0 := by omega
      rw [if_pos this]
      exact ⟨[], rfl, by omega⟩
    · rw [if_neg h0]
      have : blockSize c j ≠ 0 := by omega
      rw [if_neg this]
      cases classify b with
      | error e => rfl
      | ok k =>
        refine ⟨_, rfl, fun p hp => ?_⟩
        have := blockOff_lt hp
        simp [List.getD_eq_getElem?_getD, hp, this]

/-- **C115**: `spectral_model` of dask arrays with a polarisation axis. The bases are one value, or the polarisations are
in one block (of all the arrays); see `C115_spectral_model_violated`. -/
theorem C115_spectral_model_pol_partial (stokes spi refFreq frequency : DArr ℝ) (base : Base)
    (h : SpectralArgs stokes spi refFreq frequency 1)
    (hb : (stokes.axis 1).length = 1 ∧ (spi.axis 2).length = 1 ∨ ∃ b, base = .scalar b) :
    ∃ l, daskSpectralModel stokes spi refFreq frequency base = .ok l ∧
      l.Agrees (npSpectralModel stokes.whole spi.whole refFreq.whole frequency.whole base) := by
  obtain ⟨hs, hp, hr, hf, d1, d2, d3, hp1⟩ := h
  obtain ⟨cs, cp, hcs, gs, gp⟩ := hs.two
  obtain ⟨cs', cn, cp', hcp, gs', gn, gp'⟩ := hp.three
  obtain ⟨cs'', hcr, gs''⟩ := hr.one
  obtain ⟨cf, hcf, gf⟩ := hf.one
  replace d3 := d3 rfl
  simp only [DArr.axis, DArr.dim, hcs, hcp, hcr, List.getD_cons_succ, List.getD_cons_zero] at hp1 d1 d2 d3 hb
  obtain ⟨n, rfl⟩ := List.length_eq_one_iff.1 hp1
  unfold daskSpectralModel
  simp only [hcp, hcs, List.getElem?_cons_succ, List.getElem?_cons_zero, ne_eq, not_true_eq_false,
    if_false, List.length_nil, List.length_cons, or_self, zero_add, Nat.reduceAdd, List.cons_append,
    List.nil_append, OfNat.ofNat_ne_one]
  generalize hfun : (fun (env : Label → List Nat) (out : List (Label × Nat)) => do
    npSpectralModel (← (fetch env stokes [lSource, lPol] out).firsts 0) (← (fetch env spi [lSource, lSpi, lPol] out).firsts 1)
      (← (fetch env refFreq [lSource] out).firsts 0) (← (fetch env frequency [lChan] out).firsts 0) base) = f
  obtain ⟨env, hR, he⟩ := blockwise_axes [lSource, lChan, lPol] []
    [stokes.arg [lSource, lPol], spi.arg [lSource, lSpi, lPol], refFreq.arg [lSource], frequency.arg [lChan]] f
    (extents [(lSource, cs.sum), (lChan, cf.sum), (lSpi, n), (lPol, cp.sum)])
    (by simp [DArr.arg])
    (by simp (decide := true) [DArr.arg, hcs, hcp, hcr, hcf, gs, gs', gs'', gf, gn, gp, gp', extents, pick, d1, d2, d3])
  have es := hR.good (stokes.arg [lSource, lPol]) (by simp) lSource (by simp [DArr.arg])
  have ep := hR.good (stokes.arg [lSource, lPol]) (by simp) lPol (by simp [DArr.arg])
  have ef := hR.good (frequency.arg [lChan]) (by simp) lChan (by simp [DArr.arg])
  have el := hR.contracted (spi.arg [lSource, lSpi, lPol]) (by simp) lSpi (by simp [DArr.arg]) (by decide)
  have e1 : (env lPol).length = 1 ∨ ∃ b, base = .scalar b := by
    rcases hb with ⟨h1, h2⟩ | hb
    · left
      rw [hR.unified.single (stokes.arg [lSource, lPol]) (by simp) (lPol, cp) (by simp [DArr.arg, hcs])
        (by simp (decide := true) [chunksFor, DArr.arg, hcs, hcp, hcr, hcf, h1, h2])]
      rfl
    · exact Or.inr hb
  simp (decide := true) only [extents, pick, if_true, if_false, Option.getD_some] at es ef el ep
  refine ⟨_, he, ?_⟩
  have hch : [lSource, lChan, lPol].map (outChunks [] env) = [env lSource, env lChan, env lPol] := by simp [outChunks, pick]
  simp only [hch]
  have hw1 : stokes.whole = ⟨[(env lSource).sum, (env lPol).sum], stokes.val⟩ := by simp [DArr.whole, hcs, es.2, ep.2]
  have hw2 : spi.whole = ⟨[(env lSource).sum, n, (env lPol).sum], spi.val⟩ := by
    simp [DArr.whole, hcp, es.2, d1, ep.2, d3]
  have hw3 : refFreq.whole = ⟨[(env lSource).sum], refFreq.val⟩ := by simp [DArr.whole, hcr, es.2, d2]
  have hw4 : frequency.whole = ⟨[(env lChan).sum], frequency.val⟩ := by simp [DArr.whole, hcf, ef.2]
  rw [hw1, hw2, hw3, hw4]
  refine Lazy.agrees_blocks (by simp [es.1.ne_nil, ef.1.ne_nil, ep.1.ne_nil]) ?_ ?_
  · intro a ha
    simp only [npSpectralModel] at ha
    split at ha
    · cases ha
    · cases ha; simp
  · intro b hb
    have hb' := hb
    simp only [isBlock_cons, isBlock_nil] at hb'
    rw [← hch] at hb
    obtain ⟨i, b', rfl, hi, j, b', rfl, hj, k, b', rfl, hk, rfl⟩ := hb'
    dsimp only
    rw [← hfun]
    dsimp only
    rw [hR.fetch stokes [lSource, lPol] 0 _ hb (by simp) (by simp [hcs]) (by decide),
      hR.fetch spi [lSource, lSpi, lPol] 1 _ hb (by simp) (by simp [hcp]) (by decide),
      hR.fetch refFreq [lSource] 0 _ hb (by simp) (by simp [hcr]) (by decide),
      hR.fetch frequency [lChan] 0 _ hb (by simp) (by simp [hcf]) (by decide)]
    have hk' := modelKinds_block base (env lPol) ep.1 e1 hk
    simp (decide := true) only [bind, Except.bind, part, blk, pick, el, blockSize_single, blockOff_zero, List.map_cons,
      List.map_nil, List.zip_cons_cons, List.zip_nil_right, if_true, if_false, Option.getD_some, Option.getD_none,
      npSpectralModel, spectralModel_eq]
    cases hm : modelKinds [(env lPol).sum] [(env lPol).sum] base with
    | error e =>
      rw [hm] at hk'
      rw [hk']
      exact rfl
    | ok ks =>
      rw [hm] at hk'
      obtain ⟨ks', h1, h2⟩ := hk'
      rw [h1]
      refine ⟨_, rfl, fun x hx => ?_⟩
      simp only [List.zipWith_cons_cons, List.zipWith_nil_left, isIndex_cons, isIndex_nil] at hx
      obtain ⟨s, x', rfl, hs, r, x'', rfl, hr, p, x'', rfl, hp, rfl⟩ := hx
      have h3 := h2 p hp
      simp only [List.getD_eq_getElem?_getD] at h3
      simp [polIndex, kindsOut, h3]

/-- **C115**: a split axis of spectral indices is refused. -/
theorem C115_spectral_model_refused (stokes spi refFreq frequency : DArr ℝ) (base : Base) (h : 2 ≤ spi.chunks.length)
    (hs : (spi.axis 1).length ≠ 1) : daskSpectralModel stokes spi refFreq frequency base = .error .valueError := by
  unfold daskSpectralModel
  obtain ⟨a, b, l, hc⟩ : ∃ a b l, spi.chunks = a :: b :: l := by
    match hc : spi.chunks, h with
    | a :: b :: l, _ => exact ⟨a, b, l, rfl⟩
  simp only [DArr.axis, hc, List.getD_cons_succ, List.getD_cons_zero] at hs
  simp [hc, hs]

/-! ### wsclean spectra -/

/-- `spectra` of arrays that fit: an error for a source that a logarithmic polynomial cannot express, otherwise values. -/
private theorem spectra_cases (ns nchan n : Nat) (flux : Nat → ℝ) (coeffs : Nat → Nat → ℝ) (lp : LogPoly)
    (refFreq freq : Nat → ℝ) (empty : Nat → Nat → ℝ) (hfit : lp.Fits ns) :
    ((0 < nchan ∧ ∃ s < ns, lp.at s = true ∧ BadLogSource (flux s) n (coeffs s)) →
      spectra ns ns ns nchan n flux coeffs lp refFreq freq empty = .error .valueError) ∧
    (¬ (0 < nchan ∧ ∃ s < ns, lp.at s = true ∧ BadLogSource (flux s) n (coeffs s)) →
      ∃ out, spectra ns ns ns nchan n flux coeffs lp refFreq freq empty = .ok out ∧
        ∀ s < ns, ∀ f < nchan, out s f =
          if lp.at s then logSpectrum (flux s) n (coeffs s) (freq f) (refFreq s)
          else ordinarySpectrum (flux s) n (coeffs s) (freq f) (refFreq s)) := by
  refine ⟨fun h => ?_, fun h => ?_⟩
  · rw [C48_error_iff]
    exact Or.inr (Or.inr h)
  · by_cases h0 : nchan = 0
    · subst h0
      have hlp : lp.badShape ns = false := by
        rw [← Bool.not_eq_true, LogPoly.badShape_iff, not_not]; exact hfit
      have loop : ∀ m, ∃ out, (forRangeM m empty fun s out =>
          match spectraSource (lp.at s) (flux s) n (coeffs s) (refFreq s) 0 freq (out s) with
          | .error e => .error e
          | .ok row => .ok (Function.update out s row) : Except PyErr (Nat → Nat → ℝ)) = .ok out := by
        intro m
        induction m with
        | zero => exact ⟨_, rfl⟩
        | succ m ih =>
          obtain ⟨out, ho⟩ := ih
          rw [forRangeM_succ, ho]
          exact ⟨_, rfl⟩
      obtain ⟨out, ho⟩ := loop ns
      refine ⟨out, ?_, by omega⟩
      rw [← ho]
      cases lp with
      | other => simp [LogPoly.badShape] at hlp
      | scalar b =>
        simp only [spectra, hlp, and_self, not_true_eq_false, if_false, Bool.false_eq_true]
        rfl
      | array m l =>
        simp only [spectra, hlp, and_self, not_true_eq_false, if_false, Bool.false_eq_true]
        rfl
    · refine C48_value_partial ns nchan n flux coeffs lp refFreq freq empty hfit fun s hs hl hb => h ⟨by omega, s, hs, hl, hb⟩

/-- Hypotheses of `spectra`: axes with the same meaning have the same extent, the coefficients are in one block. -/
structure SpectraArgs (stokes spi : DArr ℝ) (logSi : LogArg (DArr Bool)) (refFreq frequency : DArr ℝ) : Prop where
  stokesValid : stokes.Valid 1
  spiValid : spi.Valid 2
  refValid : refFreq.Valid 1
  freqValid : frequency.Valid 1
  logValid : ∀ a, logSi = .array a → a.Valid 1 ∧ a.dim 0 = stokes.dim 0
  sources : spi.dim 0 = stokes.dim 0
  refs : refFreq.dim 0 = stokes.dim 0
  spiWhole : (spi.axis 1).length = 1

/-- **C115**: `spectra` of dask arrays. The coefficients are in one block; see `C115_spectra_violated`. -/
theorem C115_spectra_partial (stokes spi : DArr ℝ) (logSi : LogArg (DArr Bool)) (refFreq frequency : DArr ℝ)
    (h : SpectraArgs stokes spi logSi refFreq frequency) :
    ∃ l, daskSpectra stokes spi logSi refFreq frequency = .ok l ∧
      l.Agrees (npSpectra stokes.whole spi.whole logSi.whole refFreq.whole frequency.whole) := by
  obtain ⟨hs, hp, hr, hf, hlog, d1, d2, hp1⟩ := h
  obtain ⟨cs, hcs, gs⟩ := hs.one
  obtain ⟨cs', cn, hcp, gs', gn⟩ := hp.two
  obtain ⟨cs'', hcr, gs''⟩ := hr.one
  obtain ⟨cf, hcf, gf⟩ := hf.one
  have hlog' : ∀ a, logSi = .array a → ∃ c, a.chunks = [c] ∧ GoodChunks c ∧ c.sum = cs.sum := by
    intro a ha
    obtain ⟨c, hc, gc⟩ := (hlog a ha).1.one
    have := (hlog a ha).2
    simp only [DArr.dim, DArr.axis, hc, hcs, List.getD_cons_zero] at this
    exact ⟨c, hc, gc, this⟩
  simp only [DArr.axis, DArr.dim, hcs, hcp, hcr, List.getD_cons_succ, List.getD_cons_zero] at hp1 d1 d2
  obtain ⟨n, rfl⟩ := List.length_eq_one_iff.1 hp1
  unfold daskSpectra
  generalize hfun : (fun (env : Label → List Nat) (out : List (Label × Nat)) => do
    npSpectra (← (fetch env stokes [lSource] out).firsts 0) (← (fetch env spi [lSource, lSpi] out).firsts 1)
      (← logSi.fetch env out) (← (fetch env refFreq [lSource] out).firsts 0)
      (← (fetch env frequency [lChan] out).firsts 0)) = f
  obtain ⟨env, hR, he⟩ := blockwise_axes [lSource, lChan] []
    ([stokes.arg [lSource], spi.arg [lSource, lSpi]] ++ logSi.args ++ [refFreq.arg [lSource], frequency.arg [lChan]]) f
    (extents [(lSource, cs.sum), (lChan, cf.sum), (lSpi, n)])
    (by
      simp only [List.mem_cons, List.not_mem_nil, or_false, forall_eq_or_imp, forall_eq]
      exact ⟨Or.inl ⟨stokes.arg [lSource], by simp, by simp [DArr.arg]⟩,
        Or.inl ⟨frequency.arg [lChan], by simp, by simp [DArr.arg]⟩⟩)
    (by
      cases logSi with
      | bool b =>
        simp (decide := true) [LogArg.args, DArr.arg, hcs, hcp, hcr, hcf, gs, gs', gs'', gf, gn, extents, pick, d1, d2]
      | array a =>
        obtain ⟨c, hc, gc, d3⟩ := hlog' a rfl
        simp (decide := true) [LogArg.args, DArr.arg, hcs, hcp, hcr, hcf, hc, gs, gs', gs'', gf, gn, gc, extents, pick, d1, d2,
          d3])
  have es := hR.good (stokes.arg [lSource]) (by simp) lSource (by simp [DArr.arg])
  have ef := hR.good (frequency.arg [lChan]) (by simp) lChan (by simp [DArr.arg])
  have el := hR.contracted (spi.arg [lSource, lSpi]) (by simp) lSpi (by simp [DArr.arg]) (by decide)
  simp (decide := true) only [extents, pick, if_true, if_false, Option.getD_some] at es ef el
  refine ⟨_, he, ?_⟩
  have hch : [lSource, lChan].map (outChunks [] env) = [env lSource, env lChan] := by simp [outChunks, pick]
  simp only [hch]
  have hw1 : stokes.whole = ⟨[(env lSource).sum], stokes.val⟩ := by simp [DArr.whole, hcs, es.2]
  have hw2 : spi.whole = ⟨[(env lSource).sum, n], spi.val⟩ := by simp [DArr.whole, hcp, es.2, d1]
  have hw3 : refFreq.whole = ⟨[(env lSource).sum], refFreq.val⟩ := by simp [DArr.whole, hcr, es.2, d2]
  have hw4 : frequency.whole = ⟨[(env lChan).sum], frequency.val⟩ := by simp [DArr.whole, hcf, ef.2]
  rw [hw1, hw2, hw3, hw4]
  set lp := logSi.whole.toPoly with hlp
  have hfit : lp.Fits (env lSource).sum := by
    rw [hlp]
    cases logSi with
    | bool b => simp [LogArg.whole, LogArg.toPoly, LogPoly.Fits]
    | array a =>
      obtain ⟨c, hc, gc, d3⟩ := hlog' a rfl
      simp [LogArg.whole, LogArg.toPoly, LogPoly.Fits, DArr.whole, hc, d3, es.2]
  -- every block
  have hblk : ∀ i < (env lSource).length, ∀ j < (env lChan).length, ∃ lpb : LogPoly, lpb.Fits (blockSize (env lSource) i) ∧
      (∀ s, lpb.at s = lp.at (blockOff (env lSource) i + s)) ∧
      f env ([lSource, lChan].zip [i, j]) =
        match spectra (blockSize (env lSource) i) (blockSize (env lSource) i) (blockSize (env lSource) i)
          (blockSize (env lChan) j) n (fun s => stokes.val [blockOff (env lSource) i + s])
          (fun s c => spi.val [blockOff (env lSource) i + s, c]) lpb (fun s => refFreq.val [blockOff (env lSource) i + s])
          (fun k => frequency.val [blockOff (env lChan) j + k]) (fun _ _ => 0) with
        | .error e => .error e
        | .ok out => .ok ⟨[blockSize (env lSource) i, blockSize (env lChan) j], fun x => match x with
          | [s, k] => out s k
          | _ => 0⟩ := by
    intro i hi j hj
    have hb : IsBlock ([lSource, lChan].map (outChunks [] env)) [i, j] := by
      rw [hch]; simp [isBlock_cons, isBlock_nil, hi, hj]
    obtain ⟨v, hv, hv1, hv2⟩ : ∃ v, logSi.fetch env ([lSource, lChan].zip [i, j]) = .ok v ∧
        v.toPoly.Fits (blockSize (env lSource) i) ∧ ∀ s, v.toPoly.at s = lp.at (blockOff (env lSource) i + s) := by
      rw [hlp]
      cases logSi with
      | bool b => exact ⟨_, rfl, by simp [LogArg.toPoly, LogPoly.Fits], fun s => rfl⟩
      | array a =>
        obtain ⟨c, hc, gc, d3⟩ := hlog' a rfl
        simp only [LogArg.fetch]
        rw [hR.fetch a [lSource] 0 _ hb (by simp [LogArg.args]) (by simp [hc]) (by decide)]
        refine ⟨_, rfl, ?_, fun s => ?_⟩
        · simp [LogArg.toPoly, LogPoly.Fits, part, blk, pick]
        · simp [LogArg.toPoly, LogArg.whole, LogPoly.at, part, blk, pick, DArr.whole]
    refine ⟨v.toPoly, hv1, hv2, ?_⟩
    rw [← hfun]
    dsimp only
    rw [hR.fetch stokes [lSource] 0 _ hb (by simp) (by simp [hcs]) (by decide),
      hR.fetch spi [lSource, lSpi] 1 _ hb (by simp) (by simp [hcp]) (by decide),
      hR.fetch refFreq [lSource] 0 _ hb (by simp) (by simp [hcr]) (by decide),
      hR.fetch frequency [lChan] 0 _ hb (by simp) (by simp [hcf]) (by decide), hv]
    simp (decide := true) only [bind, Except.bind, part, blk, pick, el, blockSize_single, blockOff_zero, List.map_cons,
      List.map_nil, List.zip_cons_cons, List.zip_nil_right, if_true, if_false, Option.getD_some, Option.getD_none,
      npSpectra, List.zipWith_cons_cons, List.zipWith_nil_left, zero_add]
    rfl
  simp only [npSpectra, ← hlp]
  obtain ⟨hbad, hgood⟩ := spectra_cases (env lSource).sum (env lChan).sum n (fun s => stokes.val [s])
    (fun s c => spi.val [s, c]) lp (fun s => refFreq.val [s]) (fun f => frequency.val [f]) (fun _ _ => 0) hfit
  by_cases h : 0 < (env lChan).sum ∧ ∃ s < (env lSource).sum, lp.at s = true ∧ BadLogSource (stokes.val [s]) n fun c => spi.val [s, c]
  · rw [hbad h]
    obtain ⟨h0, s, hs, hl, hb⟩ := h
    obtain ⟨i, r, hi, hr, rfl⟩ := exists_block _ _ hs
    have hj : 0 < (env lChan).length := List.length_pos_iff.2 ef.1.ne_nil
    obtain ⟨lpb, h1, h2, h3⟩ := hblk i hi 0 hj
    refine ⟨[i, 0], by simp [isBlock_cons, isBlock_nil, hi, hj], ?_⟩
    dsimp only
    rw [h3, (spectra_cases _ _ _ _ _ _ _ _ _ h1).1
      ⟨(ef.1.block_pos hj).2 h0, r, hr, by rw [h2]; exact hl, hb⟩]
  · obtain ⟨out, ho, hv⟩ := hgood h
    rw [ho]
    refine Lazy.agrees_ok (by simp) fun b hb => ?_
    simp only [isBlock_cons, isBlock_nil] at hb
    obtain ⟨i, b', rfl, hi, j, b', rfl, hj, rfl⟩ := hb
    obtain ⟨lpb, h1, h2, h3⟩ := hblk i hi j hj
    dsimp only
    rw [h3]
    obtain ⟨out', ho', hv'⟩ := (spectra_cases (blockSize (env lSource) i) (blockSize (env lChan) j) n
      (fun s => stokes.val [blockOff (env lSource) i + s])
      (fun s c => spi.val [blockOff (env lSource) i + s, c]) lpb (fun s => refFreq.val [blockOff (env lSource) i + s])
      (fun k => frequency.val [blockOff (env lChan) j + k]) (fun _ _ => 0) h1).2 (by
        rintro ⟨h0, s, hs, hl, hb⟩
        rw [h2] at hl
        exact h ⟨(ef.1.block_pos hj).1 h0, _, blockOff_lt hs, hl, hb⟩)
    rw [ho']
    refine ⟨_, rfl, fun x hx => ?_⟩
    simp only [List.zipWith_cons_cons, List.zipWith_nil_left, isIndex_cons, isIndex_nil] at hx
    obtain ⟨s, x', rfl, hs, k, x'', rfl, hk, rfl⟩ := hx
    simp only [List.zipWith_cons_cons, List.zipWith_nil_left]
    rw [hv' s hs k hk, hv _ (blockOff_lt hs) _ (blockOff_lt hk), h2]

/-! ### spectral index fits -/

/-- The error of every component's fit: no iteration, or as many channels as parameters. -/
noncomputable def fitError (n : Nat) (tol : ℝ) (maxiter : Nat) : Option PyErr :=
  open Classical in
  if maxiter = 0 ∨ 1 ≤ tol then some .unboundLocalError else if n = 2 then some .zeroDivisionError else none

private theorem fitLoop_none (n : Nat) (data weights beam w : Nat → ℝ) (mindet tol alpha0 i00 : ℝ) (maxiter : Nat) :
    (fitLoop n data weights beam w mindet tol maxiter ⟨1, 0, alpha0, i00, none⟩).last = none ↔ maxiter = 0 ∨ 1 ≤ tol := by
  cases maxiter with
  | zero => simp [fitLoop]
  | succ m =>
    simp only [fitLoop]
    split_ifs with h
    · have hs := fitLoop_inv n data weights beam w mindet tol (fun s => s.last ≠ none)
        (fun s _ _ => by simp [ModelData.fitStep]) m (ModelData.fitStep n data weights beam w mindet ⟨1, 0, alpha0, i00, none⟩)
        (by simp [ModelData.fitStep])
      simp only [hs, false_iff]
      push Not
      exact ⟨trivial, h⟩
    · simp only [true_iff]
      exact Or.inr (not_lt.1 h)

private theorem fitOf_cases (data weights freqs : NArr ℝ) (n : Nat) (freq0 : ℝ) (alphai i0i beam : Option (NArr ℝ)) (tol : ℝ)
    (maxiter : Nat) (b : Bool) (c : Nat) : match fitError n tol maxiter with
      | some e => fitOf data weights freqs n freq0 alphai i0i beam tol maxiter (some b) c = .error e
      | none => ∃ v, fitOf data weights freqs n freq0 alphai i0i beam tol maxiter (some b) c = .ok v := by
  simp only [fitOf, fitSpi, fitComponent, fitError]
  generalize hs : fitLoop n _ _ _ _ _ tol maxiter _ = s
  have := fitLoop_none n (fun v => data.val [c, v]) (fun v => weights.val [v])
    ((beam.map fun a => fun v => a.val [c, v]).getD fun _ => 1) (fun v => freqs.val [v] / freq0)
    (if b = true then 1 / 10 ^ 12 else 1 / 10 ^ 5) tol ((alphai.map fun a => a.val [c]).getD (-7 / 10))
    ((i0i.map fun a => a.val [c]).getD (data.val [c, refFreqIdx n (fun v => freqs.val [v]) freq0] /
      ((beam.map fun a => fun v => a.val [c, v]).getD fun _ => 1) (refFreqIdx n (fun v => freqs.val [v]) freq0))) maxiter
  rw [hs] at this
  by_cases h : maxiter = 0 ∨ 1 ≤ tol
  · rw [if_pos h]
    simp only [this.2 h]
  · rw [if_neg h]
    obtain ⟨su, hsu⟩ := Option.ne_none_iff_exists'.1 (fun hn => h (this.1 hn))
    simp only [hsu]
    by_cases h2 : n = 2
    · simp [h2]
    · rw [if_neg h2]
      have : ¬ ((n : Int) - 2 = 0) := by omega
      simp only [this, if_false]
      exact ⟨_, rfl⟩

private theorem fitStep_eq (data weights freqs : NArr ℝ) (n : Nat) (freq0 : ℝ) (alphai i0i beam : Option (NArr ℝ)) (tol : ℝ)
    (maxiter : Nat) (b : Option Bool) : fitStep data weights freqs n freq0 alphai i0i beam tol maxiter b =
      fillStep (fitOf data weights freqs n freq0 alphai i0i beam tol maxiter b) := by
  funext c out
  simp only [fitStep, fillStep]
  cases fitOf data weights freqs n freq0 alphai i0i beam tol maxiter b c <;> rfl

/-- Hypotheses of `fit_spi_components`: axes with the same meaning have the same extent, the channels are in one block. -/
structure FitArgs (data weights freqs : DArr ℝ) (alphai i0i beam : Option (DArr ℝ)) : Prop where
  dataValid : data.Valid 2
  weightsValid : weights.Valid 1
  freqsValid : freqs.Valid 1
  alphaValid : ∀ a, alphai = some a → a.Valid 1 ∧ a.dim 0 = data.dim 0
  i0Valid : ∀ a, i0i = some a → a.Valid 1 ∧ a.dim 0 = data.dim 0
  beamValid : ∀ a, beam = some a → a.Valid 2 ∧ a.dim 0 = data.dim 0 ∧ a.dim 1 = data.dim 1 ∧ (a.axis 1).length = 1
  weightChans : weights.dim 0 = data.dim 1
  chans : freqs.dim 0 = data.dim 1
  dataWhole : (data.axis 1).length = 1
  weightsWhole : (weights.axis 0).length = 1
  freqsWhole : (freqs.axis 0).length = 1

/-- **C115**: `fit_spi_components` of dask arrays. The channels are in one block; see `C115_fit_spi_violated`. -/
theorem C115_fit_spi_partial (data weights freqs : DArr ℝ) (freq0 : ℝ) (alphai i0i beam : Option (DArr ℝ)) (tol : ℝ)
    (maxiter : Nat) (float64 : Option Bool) (h : FitArgs data weights freqs alphai i0i beam) :
    ∃ l, daskFitSpi data weights freqs freq0 alphai i0i beam tol maxiter float64 = .ok l ∧
      l.Agrees (npFitSpi data.whole weights.whole freqs.whole freq0 (alphai.map DArr.whole) (i0i.map DArr.whole)
        (beam.map DArr.whole) tol maxiter float64) := by
  obtain ⟨hd, hw, hf, ha, hi, hb, d1, d2, h1, h2, h3⟩ := h
  obtain ⟨cc, cn, hcd, gc, gn⟩ := hd.two
  obtain ⟨cw, hcw, gw⟩ := hw.one
  obtain ⟨cf, hcf, gf⟩ := hf.one
  have hopt : ∀ o : Option (DArr ℝ), (∀ a, o = some a → a.Valid 1 ∧ a.dim 0 = data.dim 0) →
      ∀ a, o = some a → ∃ c, a.chunks = [c] ∧ GoodChunks c ∧ c.sum = cc.sum := by
    intro o ho a hoa
    obtain ⟨c, hc, gc'⟩ := (ho a hoa).1.one
    have := (ho a hoa).2
    simp only [DArr.dim, DArr.axis, hc, hcd, List.getD_cons_zero] at this
    exact ⟨c, hc, gc', this⟩
  have ha' := hopt alphai ha
  have hi' := hopt i0i hi
  clear hopt ha hi
  simp only [DArr.axis, DArr.dim, hcd, hcw, hcf, List.getD_cons_succ, List.getD_cons_zero] at h1 h2 h3 d1 d2
  obtain ⟨n, rfl⟩ := List.length_eq_one_iff.1 h1
  obtain ⟨n', rfl⟩ := List.length_eq_one_iff.1 h2
  obtain ⟨n'', rfl⟩ := List.length_eq_one_iff.1 h3
  simp only [List.sum_singleton] at d1 d2
  subst d1 d2
  have hb' : ∀ a, beam = some a → ∃ c, a.chunks = [c, [n'']] ∧ GoodChunks c ∧ c.sum = cc.sum := by
    intro a hab
    obtain ⟨c, k, hc, gc', -⟩ := (hb a hab).1.two
    obtain ⟨-, e1, e2, e3⟩ := hb a hab
    simp only [DArr.dim, DArr.axis, hc, hcd, List.getD_cons_zero, List.getD_cons_succ, List.sum_singleton] at e1 e2 e3
    obtain ⟨k', rfl⟩ := List.length_eq_one_iff.1 e3
    simp only [List.sum_singleton] at e2
    exact ⟨c, by rw [hc, e2], gc', e1⟩
  clear hb
  unfold daskFitSpi
  generalize hfun : (fun (env : Label → List Nat) (out : List (Label × Nat)) => do
    npFitSpi (← (fetch env data [lComps, lChan] out).firsts 1) (← (fetch env weights [lChan] out).firsts 1)
      (← (fetch env freqs [lChan] out).firsts 1) freq0 (← optFetch env out [lComps] 0 alphai)
      (← optFetch env out [lComps] 0 i0i) (← optFetch env out [lComps, lChan] 1 beam) tol maxiter float64) = f
  obtain ⟨env, hR, he⟩ := blockwise_axes [lVars, lComps] [(lVars, 4)]
    ([data.arg [lComps, lChan], weights.arg [lChan], freqs.arg [lChan]] ++ optArgs [lComps] alphai ++ optArgs [lComps] i0i ++
      optArgs [lComps, lChan] beam) f
    (extents [(lComps, cc.sum), (lChan, n'')])
    (by
      simp only [List.mem_cons, List.not_mem_nil, or_false, forall_eq_or_imp, forall_eq]
      exact ⟨Or.inr ⟨(lVars, 4), rfl, rfl⟩, Or.inl ⟨data.arg [lComps, lChan], by simp, by simp [DArr.arg]⟩⟩)
    (by
      intro a hm
      simp only [List.mem_append] at hm
      rcases hm with ((hm | hm) | hm) | hm
      · revert a
        simp (decide := true) [DArr.arg, hcd, hcw, hcf, gc, gn, extents, pick]
      · cases alphai with
        | none => simp [optArgs] at hm
        | some x =>
          obtain ⟨c, hc, gc', e⟩ := ha' x rfl
          simp only [optArgs, List.mem_singleton] at hm
          subst hm
          simp (decide := true) [DArr.arg, hc, gc', e, extents, pick]
      · cases i0i with
        | none => simp [optArgs] at hm
        | some x =>
          obtain ⟨c, hc, gc', e⟩ := hi' x rfl
          simp only [optArgs, List.mem_singleton] at hm
          subst hm
          simp (decide := true) [DArr.arg, hc, gc', e, extents, pick]
      · cases beam with
        | none => simp [optArgs] at hm
        | some x =>
          obtain ⟨c, hc, gc', e⟩ := hb' x rfl
          simp only [optArgs, List.mem_singleton] at hm
          subst hm
          simp (decide := true) [DArr.arg, hc, gc', e, extents, pick, gn])
  have ec := hR.good (data.arg [lComps, lChan]) (by simp) lComps (by simp [DArr.arg])
  have el := hR.contracted (data.arg [lComps, lChan]) (by simp) lChan (by simp [DArr.arg]) (by decide)
  simp (decide := true) only [extents, pick, if_true, if_false, Option.getD_some] at ec el
  refine ⟨_, he, ?_⟩
  have hch : [lVars, lComps].map (outChunks [(lVars, 4)] env) = [[4], env lComps] := by
    simp (decide := true) [outChunks, pick]
  simp only [hch]
  have hw1 : data.whole = ⟨[(env lComps).sum, n''], data.val⟩ := by simp [DArr.whole, hcd, ec.2]
  rw [hw1]
  -- the whole result
  have hwhole : ∀ (c : Nat), fitOf ⟨[(env lComps).sum, n''], data.val⟩ weights.whole freqs.whole n'' freq0
      (alphai.map DArr.whole) (i0i.map DArr.whole) (beam.map DArr.whole) tol maxiter float64 c =
      fitSpi n'' (fun v => data.val [c, v]) (fun v => weights.val [v]) (fun v => freqs.val [v]) freq0
        (alphai.map fun a => a.val [c]) (i0i.map fun a => a.val [c]) (beam.map fun a => fun v => a.val [c, v]) tol maxiter
        float64 := by
    intro c
    simp only [fitOf, Option.map_map]
    rfl
  refine Lazy.agrees_blocks (by simp [ec.1.ne_nil]) ?_ ?_
  · intro a ha
    simp only [npFitSpi] at ha
    split_ifs at ha
    split at ha
    · cases ha
    · cases ha; simp
  · intro b hb
    have hb' := hb
    simp only [isBlock_cons, isBlock_nil] at hb'
    rw [← hch] at hb
    obtain ⟨k, b', rfl, hk, j, b', rfl, hj, rfl⟩ := hb'
    obtain rfl : k = 0 := by simpa using hk
    obtain ⟨va, hva, hva'⟩ : ∃ v, optFetch env ([lVars, lComps].zip [0, j]) [lComps] 0 alphai = .ok v ∧
        ∀ c, v.map (fun a => a.val [c]) = alphai.map fun a => a.val [blockOff (env lComps) j + c] := by
      cases alphai with
      | none => exact ⟨_, rfl, fun c => rfl⟩
      | some x =>
        obtain ⟨c, hc, gc', e⟩ := ha' x rfl
        simp only [optFetch]
        rw [hR.fetch x [lComps] 0 _ hb (by simp [optArgs]) (by simp [hc]) (by decide)]
        refine ⟨_, rfl, fun c => ?_⟩
        simp (decide := true) [part, blk, pick]
    obtain ⟨vi, hvi, hvi', hvi2⟩ : ∃ v, optFetch env ([lVars, lComps].zip [0, j]) [lComps] 0 i0i = .ok v ∧
        (∀ c, v.map (fun a => a.val [c]) = i0i.map fun a => a.val [blockOff (env lComps) j + c]) ∧ (v = none ↔ i0i = none) := by
      cases i0i with
      | none => exact ⟨none, rfl, fun c => rfl, by simp⟩
      | some x =>
        obtain ⟨c, hc, gc', e⟩ := hi' x rfl
        simp only [optFetch]
        rw [hR.fetch x [lComps] 0 _ hb (by simp [optArgs]) (by simp [hc]) (by decide)]
        refine ⟨_, rfl, fun c => ?_, by simp⟩
        simp (decide := true) [part, blk, pick]
    obtain ⟨vb, hvb, hvb'⟩ : ∃ v, optFetch env ([lVars, lComps].zip [0, j]) [lComps, lChan] 1 beam = .ok v ∧
        ∀ c, v.map (fun a => fun k => a.val [c, k]) = beam.map fun a => fun k => a.val [blockOff (env lComps) j + c, k] := by
      cases beam with
      | none => exact ⟨_, rfl, fun c => rfl⟩
      | some x =>
        obtain ⟨c, hc, gc', e⟩ := hb' x rfl
        simp only [optFetch]
        rw [hR.fetch x [lComps, lChan] 1 _ hb (by simp [optArgs]) (by simp [hc]) (by decide)]
        refine ⟨_, rfl, fun c => ?_⟩
        simp (decide := true) [part, blk, pick, el, blockOff_zero]
    dsimp only
    rw [← hfun]
    dsimp only
    rw [hR.fetch data [lComps, lChan] 1 _ hb (by simp) (by simp [hcd]) (by decide),
      hR.fetch weights [lChan] 1 _ hb (by simp) (by simp [hcw]) (by decide),
      hR.fetch freqs [lChan] 1 _ hb (by simp) (by simp [hcf]) (by decide), hva, hvi, hvb]
    have hpart : ∀ c, fitOf ⟨[blockSize (env lComps) j, n''],
          fun i => data.val (List.zipWith (· + ·) [blockOff (env lComps) j, 0] i)⟩
        ⟨[n''], fun i => weights.val (List.zipWith (· + ·) [0] i)⟩ ⟨[n''], fun i => freqs.val (List.zipWith (· + ·) [0] i)⟩ n''
        freq0 va vi vb tol maxiter float64 c =
        fitOf ⟨[(env lComps).sum, n''], data.val⟩ weights.whole freqs.whole n'' freq0
          (alphai.map DArr.whole) (i0i.map DArr.whole) (beam.map DArr.whole) tol maxiter float64
          (blockOff (env lComps) j + c) := by
      intro c
      rw [hwhole]
      simp only [fitOf, hva', hvi', hvb', List.zipWith_cons_cons, List.zipWith_nil_left, zero_add]
    simp (decide := true) only [bind, Except.bind, part, blk, pick, el, blockSize_single, blockOff_zero, List.map_cons,
      List.map_nil, List.zip_cons_cons, List.zip_nil_right, if_true, if_false, Option.getD_some, Option.getD_none,
      npFitSpi, Option.map_eq_none_iff, hvi2]
    split_ifs with c1 c2
    · exact rfl
    · exact rfl
    · obtain ⟨dt, rfl⟩ := Option.ne_none_iff_exists'.1 c2
      rw [fitStep_eq, fitStep_eq]
      obtain ⟨w1, w2⟩ := forRangeM_fill (env lComps).sum (fun _ => (⟨0, 0, 0, 0⟩ : ModelData.FitOut))
        (fitOf ⟨[(env lComps).sum, n''], data.val⟩ weights.whole freqs.whole n'' freq0
          (alphai.map DArr.whole) (i0i.map DArr.whole) (beam.map DArr.whole) tol maxiter (some dt))
      obtain ⟨b1, b2⟩ := forRangeM_fill (blockSize (env lComps) j) (fun _ => (⟨0, 0, 0, 0⟩ : ModelData.FitOut))
        (fitOf ⟨[blockSize (env lComps) j, n''],
          fun i => data.val (List.zipWith (· + ·) [blockOff (env lComps) j, 0] i)⟩
        ⟨[n''], fun i => weights.val (List.zipWith (· + ·) [0] i)⟩ ⟨[n''], fun i => freqs.val (List.zipWith (· + ·) [0] i)⟩ n''
        freq0 va vi vb tol maxiter (some dt))
      have cases1 := fitOf_cases ⟨[(env lComps).sum, n''], data.val⟩ weights.whole freqs.whole n'' freq0
          (alphai.map DArr.whole) (i0i.map DArr.whole) (beam.map DArr.whole) tol maxiter dt
      generalize forRangeM (env lComps).sum _ _ = rw at w1 w2 ⊢
      generalize forRangeM (blockSize (env lComps) j) _ _ = rb at b1 b2 ⊢
      simp only [hpart] at b1 b2
      have hpos := ec.1.block_pos hj
      cases rw with
      | error e =>
        obtain ⟨s, hs, hse⟩ := w2 e rfl
        have hs' : 0 < blockSize (env lComps) j := hpos.2 (by omega)
        cases hfe : fitError n'' tol maxiter with
        | none =>
          rw [hfe] at cases1
          obtain ⟨v, hv⟩ := cases1 s
          rw [hv] at hse; cases hse
        | some e' =>
          rw [hfe] at cases1
          simp only at cases1
          have he : e' = e := by have := cases1 s; rw [hse] at this; cases this; rfl
          subst he
          cases rb with
          | error e2 =>
            obtain ⟨s2, -, hs2⟩ := b2 e2 rfl
            rw [cases1] at hs2
            cases hs2
            exact rfl
          | ok out =>
            have := b1 out rfl 0 hs'
            rw [cases1] at this
            cases this
      | ok out =>
        cases rb with
        | error e2 =>
          obtain ⟨s2, h2, hs2⟩ := b2 e2 rfl
          rw [w1 out rfl _ (blockOff_lt h2)] at hs2
          cases hs2
        | ok out2 =>
          refine ⟨_, rfl, fun x hx => ?_⟩
          simp only [List.zipWith_cons_cons, List.zipWith_nil_left, isIndex_cons, isIndex_nil] at hx
          obtain ⟨v, x', rfl, hv, c, x'', rfl, hc, rfl⟩ := hx
          have e1 := w1 out rfl _ (blockOff_lt hc)
          have e2 := b1 out2 rfl c hc
          rw [e1] at e2
          have e3 := Except.ok.inj e2
          simp [blockOff_zero, e3]

/-! ### where the claim fails -/

/-- **C115** fails for `spectra` with the coefficients in several blocks: only those of the first block are used. -/
theorem C115_spectra_violated :
    let stokes : DArr ℝ := ⟨[[1]], fun _ => 1⟩
    let spi : DArr ℝ := ⟨[[1], [1, 1]], fun _ => 1⟩
    let refFreq : DArr ℝ := ⟨[[1]], fun _ => 1⟩
    let frequency : DArr ℝ := ⟨[[1]], fun _ => 2⟩
    (∃ l, daskSpectra stokes spi (.bool false) refFreq frequency = .ok l ∧
      ∃ k, l.block [0, 0] = .ok k ∧ k.val [0, 0] = 2) ∧
    ∃ a, npSpectra stokes.whole spi.whole (.bool false) refFreq.whole frequency.whole = .ok a ∧ a.val [0, 0] = 3 := by
  intro stokes spi refFreq frequency
  set A : List Arg := [stokes.arg [lSource], spi.arg [lSource, lSpi]] ++ LogArg.args (.bool false) ++
    [refFreq.arg [lSource], frequency.arg [lChan]] with hA
  have hu : unify A = .ok (unified A) := by
    unfold unify
    rw [if_pos (by decide), if_pos (by decide)]
  have u1 : unified A lSource = [1] := by decide
  have u2 : unified A lSpi = [1, 1] := by decide
  have u3 : unified A lChan = [1] := by decide
  have hv : ∀ n : Nat, spectra 1 1 1 1 n (fun _ => 1) (fun _ _ => 1) (.scalar false) (fun _ => 1) (fun _ => 2) (fun _ _ => 0) =
      .ok (Function.update (fun _ _ => 0) 0 (Function.update (fun _ => 0) 0 (ordCell 1 n (fun _ => 1) 2 1))) := by
    intro n
    simp [spectra, spectraSource, LogPoly.badShape, LogPoly.at, forRangeM, bind, Except.bind, pure, Except.pure]
  constructor
  · unfold daskSpectra blockwise
    rw [if_pos (by decide), ← hA, hu]
    refine ⟨_, rfl, ?_⟩
    dsimp only
    simp (decide := true) only [bind, Except.bind, fetch, DArr.rechunk, stokes, spi, refFreq, frequency, newChunks,
      List.zipWith_cons_cons, List.zipWith_nil_left, u1, u2, u3, nest, pick, List.zip_cons_cons, List.zip_nil_right, if_true,
      if_false, List.sum_cons, List.sum_nil, List.length_cons, List.length_nil, List.nil_append, List.cons_append]
    have hr : List.range 2 = [0, 1] := rfl
    simp only [hr, List.map_cons, List.map_nil, Nest.firsts, Nest.item0, Nest.array, LogArg.fetch, npSpectra, DArr.block,
      List.zipWith_cons_cons, List.zipWith_nil_left, blockSize, List.getD_cons_zero, LogArg.toPoly]
    refine ⟨_, rfl, ?_⟩
    simp [ordCell, forRange]
  · simp only [npSpectra, stokes, spi, refFreq, frequency, DArr.whole, List.map_cons, List.map_nil, List.sum_cons, List.sum_nil,
      Nat.reduceAdd, LogArg.toPoly, add_zero, hv 2]
    refine ⟨_, rfl, ?_⟩
    simp [ordCell, forRange, List.range_succ]
    norm_num

/-- **C115** fails for `spectral_model` with one base per polarisation and the polarisations in several blocks: every block
uses the bases from the first on. -/
theorem C115_spectral_model_violated :
    let stokes : DArr ℝ := ⟨[[1], [1, 1]], fun _ => 1⟩
    let spi : DArr ℝ := ⟨[[1], [2], [1, 1]], fun i => if i.getD 1 0 = 1 then 1 else 0⟩
    let refFreq : DArr ℝ := ⟨[[1]], fun _ => 1⟩
    let frequency : DArr ℝ := ⟨[[1]], fun _ => Real.exp 2⟩
    let base := Base.list [.str "std", .str "log"]
    (∃ l, daskSpectralModel stokes spi refFreq frequency base = .ok l ∧
      ∃ k, l.block [0, 0, 1] = .ok k ∧ k.val [0, 0, 0] = Real.exp 2) ∧
    ∃ a, npSpectralModel stokes.whole spi.whole refFreq.whole frequency.whole base = .ok a ∧ a.val [0, 0, 1] = Real.exp 4 := by
  intro stokes spi refFreq frequency base
  set A : List Arg := [stokes.arg [lSource, lPol], spi.arg [lSource, lSpi, lPol], refFreq.arg [lSource],
    frequency.arg [lChan]] with hA
  have hu : unify A = .ok (unified A) := by
    unfold unify
    rw [if_pos (by decide), if_pos (by decide)]
  have u1 : unified A lSource = [1] := by decide
  have u2 : unified A lSpi = [2] := by decide
  have u3 : unified A lChan = [1] := by decide
  have u4 : unified A lPol = [1, 1] := by decide
  have k1 : modelKinds [1] [1] base = .ok [.std] := by
    simp [modelKinds, base, promoteBase, kindsOf, classify]
  have k2 : modelKinds [2] [2] base = .ok [.std, .log] := by
    simp [modelKinds, base, promoteBase, kindsOf, classify]
  constructor
  · unfold daskSpectralModel
    simp only [stokes, spi, List.getElem?_cons_succ, List.getElem?_cons_zero, ne_eq, not_true_eq_false,
      if_false, List.length_nil, List.length_cons, or_self, zero_add, Nat.reduceAdd, List.cons_append,
      List.nil_append, OfNat.ofNat_ne_one]
    unfold blockwise
    rw [if_pos (by decide)]
    obtain ⟨U, hU⟩ : ∃ U, U = unified A := ⟨_, rfl⟩
    rw [← hU] at hu u1 u2 u3 u4
    rw [hA] at hu
    rw [hu]
    refine ⟨_, rfl, ?_⟩
    dsimp only
    simp (decide := true) only [bind, Except.bind, fetch, DArr.rechunk, refFreq, frequency, newChunks,
      List.zipWith_cons_cons, List.zipWith_nil_left, u1, u2, u3, u4, nest, pick, List.zip_cons_cons, List.zip_nil_right, if_true,
      if_false, List.sum_cons, List.sum_nil, List.length_cons, List.length_nil, List.nil_append, List.cons_append]
    have hr : List.range 1 = [0] := rfl
    simp only [hr, List.map_cons, List.map_nil, Nest.firsts, Nest.item0, Nest.array, npSpectralModel, DArr.block,
      List.zipWith_cons_cons, List.zipWith_nil_left, blockSize, List.getD_cons_zero, List.getD_cons_succ, spectralModel_eq, k1]
    refine ⟨_, rfl, ?_⟩
    simp [kindsOut, specCell, forRange, blockOff, List.range_succ]
  · simp only [npSpectralModel, stokes, spi, refFreq, frequency, DArr.whole, List.map_cons, List.map_nil, List.sum_cons,
      List.sum_nil, Nat.reduceAdd, add_zero, spectralModel_eq, k2]
    refine ⟨_, rfl, ?_⟩
    simp [kindsOut, specCell, forRange, polIndex, List.range_succ]
    norm_num

/-- **C115** fails for `fit_spi_components` with the channels in several blocks: only those of the first block are fitted. -/
theorem C115_fit_spi_violated :
    let data : DArr ℝ := ⟨[[1], [3, 1]], fun _ => 1⟩
    let weights : DArr ℝ := ⟨[[3, 1]], fun _ => 1⟩
    let freqs : DArr ℝ := ⟨[[3, 1]], fun _ => 1⟩
    let i0 : DArr ℝ := ⟨[[1]], fun _ => 0⟩
    (∃ l, daskFitSpi data weights freqs 1 none (some i0) none (1 / 2) 1 (some false) = .ok l ∧
      ∃ k, l.block [0, 0] = .ok k ∧ k.val [1, 0] = 900000) ∧
    ∃ a, npFitSpi data.whole weights.whole freqs.whole 1 none (some i0.whole) none (1 / 2) 1 (some false) = .ok a ∧
      a.val [1, 0] = 800000 := by
  intro data weights freqs i0
  set A : List Arg := [data.arg [lComps, lChan], weights.arg [lChan], freqs.arg [lChan]] ++ optArgs [lComps] none ++
    optArgs [lComps] (some i0) ++ optArgs [lComps, lChan] none with hA
  have hu : unify A = .ok (unified A) := by
    unfold unify
    rw [if_pos (by decide), if_pos (by decide)]
  have u1 : unified A lComps = [1] := by decide
  have u2 : unified A lChan = [3, 1] := by decide
  have hsums : ∀ n, sums n (fun _ => 1) (fun _ => 1) (fun _ => 1) (fun _ => 1) (-7 / 10) 0 =
      ⟨n, 0, n, 0, 0, n⟩ := by
    intro n
    induction n with
    | zero => simp [sums]
    | succ n ih =>
      unfold sums at ih ⊢
      rw [forRange_succ, ih]
      simp [ModelData.residual, jac0, jac1]
  have hfit : ∀ n : Nat, n ≠ 2 → fitSpi n (fun _ => 1) (fun _ => 1) (fun _ => 1) 1 none (some 0) none (1 / 2) 1 (some false) =
      .ok ⟨-7 / 10, n / (1 / 10 ^ 5) * n / (n - 2), 0, 0⟩ := by
    intro n hn
    have hn' : ¬ ((n : Int) - 2 = 0) := by omega
    simp only [fitSpi, fitComponent, fitLoop, ModelData.fitStep, Option.getD_none, Option.getD_some, div_one, hsums, gt_iff_lt]
    rw [if_pos (by norm_num)]
    simp only [hn', if_false]
    simp [detOf, stepAlpha, stepI0]
  constructor
  · unfold daskFitSpi blockwise
    rw [if_pos (by decide), ← hA, hu]
    refine ⟨_, rfl, ?_⟩
    dsimp only
    simp (decide := true) only [bind, Except.bind, fetch, DArr.rechunk, data, weights, freqs, i0, newChunks, optFetch,
      List.zipWith_cons_cons, List.zipWith_nil_left, u1, u2, nest, pick, List.zip_cons_cons, List.zip_nil_right, if_true,
      if_false, List.sum_cons, List.sum_nil, List.length_cons, List.length_nil, List.nil_append, List.cons_append]
    have hr : List.range 2 = [0, 1] := rfl
    simp only [hr, List.map_cons, List.map_nil, Nest.firsts, Nest.item0, Nest.array, npFitSpi, DArr.block,
      List.zipWith_cons_cons, List.zipWith_nil_left, blockSize, List.getD_cons_zero, List.getD_cons_succ]
    simp only [OfNat.ofNat_ne_zero, false_and, if_false, reduceCtorEq, forRangeM, fitStep, fitOf, Option.map_none, Option.map_some,
      hfit 3 (by norm_num)]
    refine ⟨_, rfl, ?_⟩
    simp [FitOut.row]
    norm_num
  · simp only [npFitSpi, data, weights, freqs, i0, DArr.whole, List.map_cons, List.map_nil, List.sum_cons,
      List.sum_nil, Nat.reduceAdd, add_zero]
    simp only [OfNat.ofNat_ne_zero, false_and, if_false, reduceCtorEq, forRangeM, fitStep, fitOf, Option.map_none, Option.map_some,
      hfit 4 (by norm_num)]
    refine ⟨_, rfl, ?_⟩
    simp [FitOut.row]
    norm_num

/-! ### the hypotheses hold for arrays of several blocks -/

example : GaussianArgs ⟨[[4, 4], [3]], fun _ => 0⟩ ⟨[[8, 8]], fun _ => 1⟩ ⟨[[2, 1], [3]], fun _ => 0⟩ := by
  refine ⟨⟨rfl, ?_⟩, ⟨rfl, ?_⟩, ⟨rfl, ?_⟩, rfl, rfl⟩ <;> simp [GoodChunks]

example : SpectralArgs ⟨[[2, 1]], fun _ => 1⟩ ⟨[[1, 2], [3]], fun _ => 0⟩ ⟨[[3]], fun _ => 1⟩ ⟨[[8, 8]], fun _ => 1⟩ 0 := by
  refine ⟨⟨rfl, ?_⟩, ⟨rfl, ?_⟩, ⟨rfl, ?_⟩, ⟨rfl, ?_⟩, rfl, rfl, ?_, rfl⟩ <;> simp [GoodChunks]

example : SpectralArgs ⟨[[2, 1], [4]], fun _ => 1⟩ ⟨[[1, 2], [3], [4]], fun _ => 0⟩ ⟨[[3]], fun _ => 1⟩
    ⟨[[8, 8]], fun _ => 1⟩ 1 := by
  refine ⟨⟨rfl, ?_⟩, ⟨rfl, ?_⟩, ⟨rfl, ?_⟩, ⟨rfl, ?_⟩, rfl, rfl, ?_, rfl⟩ <;> simp [GoodChunks]
  rfl

example : SpectraArgs ⟨[[2, 1]], fun _ => 1⟩ ⟨[[1, 2], [3]], fun _ => 0⟩ (.array ⟨[[3]], fun _ => false⟩) ⟨[[3]], fun _ => 1⟩
    ⟨[[8, 8]], fun _ => 1⟩ := by
  refine ⟨⟨rfl, ?_⟩, ⟨rfl, ?_⟩, ⟨rfl, ?_⟩, ⟨rfl, ?_⟩, ?_, rfl, rfl, rfl⟩ <;> simp [GoodChunks]
  exact ⟨⟨rfl, by simp [GoodChunks]⟩, rfl⟩

example : FitArgs ⟨[[2, 1], [4]], fun _ => 1⟩ ⟨[[4]], fun _ => 1⟩ ⟨[[4]], fun _ => 1⟩ none (some ⟨[[3]], fun _ => 1⟩)
    (some ⟨[[1, 2], [4]], fun _ => 1⟩) := by
  refine ⟨⟨rfl, ?_⟩, ⟨rfl, ?_⟩, ⟨rfl, ?_⟩, ?_, ?_, ?_, rfl, rfl, rfl, rfl, rfl⟩ <;> simp [GoodChunks]
  · exact ⟨⟨rfl, by simp [GoodChunks]⟩, rfl⟩
  · exact ⟨⟨rfl, by simp [GoodChunks]⟩, rfl, rfl, rfl⟩

end Verif.Dask
