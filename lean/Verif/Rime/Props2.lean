/-
C36, C37: chunked prediction.
-/
import Verif.Rime.LemmasDask
import Mathlib.Data.Complex.Basic

set_option autoImplicit false
set_option linter.unusedSectionVars false

namespace Verif.Rime

/-! ### C36: any chunking over sources -/

section C36
variable {K : Type*} [CommRing K] [StarRing K]

/-- Combining a value of the chunked and one of the whole call. -/
theorem dask_eq_whole_diag {ncorr : Nat} {chunks : List Nat} (hc : chunks ≠ []) {nrow nchan : Nat}
    {time ant1 ant2 : Nat → Nat} (hn : 0 < nrow) {x : Terms (Nat → K)}
    (hx : x.dde.isSome ∨ x.coh.isSome ∨ x.die.isSome) (hcorr : 0 < ncorr) {st : Strategy} (hst : st.Ok chunks) :
    ∃ vis vis', daskPredict (diagKernel ncorr) chunks nrow nchan time ant1 ant2 x st = .ok vis ∧
      predictVis (diagKernel ncorr) chunks.sum nrow nchan time ant1 ant2 x = .ok vis' ∧
      ∀ r < nrow, ∀ f < nchan, ∀ c < ncorr, vis r f c = vis' r f c := by
  obtain ⟨tmin, hm⟩ := exists_min time hn
  have hx' : x.dde.isSome ∨ x.coh.isSome ∨ x.die.isSome ∨ x.bvis.isSome := by tauto
  obtain ⟨vis, h1, _⟩ := dask_value (diag_laws (K := K) hcorr) (nchan := nchan) (ant1 := ant1) (ant2 := ant2)
    hm hx hc hst
  obtain ⟨vis', h2, _⟩ := predict_value (diag_laws (K := K) hcorr) (nsrc := chunks.sum) (nchan := nchan)
    (ant1 := ant1) (ant2 := ant2) hm hx'
  refine ⟨vis, vis', h1, h2, fun r hr f hf c hcc => ?_⟩
  obtain ⟨v, e1, e2⟩ := dask_value (diag_laws (K := K) hcc) (nchan := nchan) (ant1 := ant1) (ant2 := ant2)
    hm hx hc hst
  obtain ⟨v', e3, e4⟩ := predict_value (diag_laws (K := K) hcc) (nsrc := chunks.sum) (nchan := nchan)
    (ant1 := ant1) (ant2 := ant2) hm hx'
  rw [h1] at e1
  rw [h2] at e3
  obtain rfl := Except.ok.inj e1
  obtain rfl := Except.ok.inj e3
  exact (e2 r hr f hf).trans (e4 r hr f hf).symm

theorem dask_eq_whole_full {chunks : List Nat} (hc : chunks ≠ []) {nrow nchan : Nat}
    {time ant1 ant2 : Nat → Nat} (hn : 0 < nrow) {x : Terms (M2 K)}
    (hx : x.dde.isSome ∨ x.coh.isSome ∨ x.die.isSome) {st : Strategy} (hst : st.Ok chunks) :
    ∃ vis vis', daskPredict fullKernel chunks nrow nchan time ant1 ant2 x st = .ok vis ∧
      predictVis fullKernel chunks.sum nrow nchan time ant1 ant2 x = .ok vis' ∧
      ∀ r < nrow, ∀ f < nchan, vis r f = vis' r f := by
  obtain ⟨tmin, hm⟩ := exists_min time hn
  obtain ⟨v, e1, e2⟩ := dask_value (full_laws (K := K)) (nchan := nchan) (ant1 := ant1) (ant2 := ant2)
    hm hx hc hst
  obtain ⟨v', e3, e4⟩ := predict_value (full_laws (K := K)) (nsrc := chunks.sum) (nchan := nchan)
    (ant1 := ant1) (ant2 := ant2) hm (show x.dde.isSome ∨ x.coh.isSome ∨ x.die.isSome ∨ x.bvis.isSome by tauto)
  exact ⟨v, v', e1, e3, fun r hr f hf => (e2 r hr f hf).trans (e4 r hr f hf).symm⟩

/-- **C36** (2x2, `streams=True`). Summing the sources block by block along the chain gives what one call on
all sources gives, for every way of cutting the source axis. -/
theorem C36_linear_full (chunks : List Nat) (hc : chunks ≠ []) (nrow nchan : Nat)
    (time ant1 ant2 : Nat → Nat) (hn : 0 < nrow) (x : Terms (M2 K))
    (hx : x.dde.isSome ∨ x.coh.isSome ∨ x.die.isSome) (outBlocks out : List Nat)
    (hout : List.Forall₂ (· < ·) out outBlocks) :
    ∃ vis vis', daskPredict fullKernel chunks nrow nchan time ant1 ant2 x (.linear outBlocks out) = .ok vis ∧
      predictVis fullKernel chunks.sum nrow nchan time ant1 ant2 x = .ok vis' ∧
      ∀ r < nrow, ∀ f < nchan, vis r f = vis' r f :=
  dask_eq_whole_full hc hn hx (mem_product.2 hout)

/-- **C36** (2x2, `streams=False`): the sum along any tree whose leaves are the source blocks. -/
theorem C36_parallel_full (chunks : List Nat) (hc : chunks ≠ []) (nrow nchan : Nat)
    (time ant1 ant2 : Nat → Nat) (hn : 0 < nrow) (x : Terms (M2 K))
    (hx : x.dde.isSome ∨ x.coh.isSome ∨ x.die.isSome) (tree : SumTree)
    (ht : tree.leaves.Perm (List.range chunks.length)) :
    ∃ vis vis', daskPredict fullKernel chunks nrow nchan time ant1 ant2 x (.parallel tree) = .ok vis ∧
      predictVis fullKernel chunks.sum nrow nchan time ant1 ant2 x = .ok vis' ∧
      ∀ r < nrow, ∀ f < nchan, vis r f = vis' r f :=
  dask_eq_whole_full hc hn hx ht

/-- **C36** (one or two correlations, `streams=True`). -/
theorem C36_linear_diag (ncorr : Nat) (hcorr : 0 < ncorr) (chunks : List Nat) (hc : chunks ≠ [])
    (nrow nchan : Nat) (time ant1 ant2 : Nat → Nat) (hn : 0 < nrow) (x : Terms (Nat → K))
    (hx : x.dde.isSome ∨ x.coh.isSome ∨ x.die.isSome) (outBlocks out : List Nat)
    (hout : List.Forall₂ (· < ·) out outBlocks) :
    ∃ vis vis', daskPredict (diagKernel ncorr) chunks nrow nchan time ant1 ant2 x (.linear outBlocks out)
        = .ok vis ∧
      predictVis (diagKernel ncorr) chunks.sum nrow nchan time ant1 ant2 x = .ok vis' ∧
      ∀ r < nrow, ∀ f < nchan, ∀ c < ncorr, vis r f c = vis' r f c :=
  dask_eq_whole_diag hc hn hx hcorr (mem_product.2 hout)

/-- **C36** (one or two correlations, `streams=False`). -/
theorem C36_parallel_diag (ncorr : Nat) (hcorr : 0 < ncorr) (chunks : List Nat) (hc : chunks ≠ [])
    (nrow nchan : Nat) (time ant1 ant2 : Nat → Nat) (hn : 0 < nrow) (x : Terms (Nat → K))
    (hx : x.dde.isSome ∨ x.coh.isSome ∨ x.die.isSome) (tree : SumTree)
    (ht : tree.leaves.Perm (List.range chunks.length)) :
    ∃ vis vis', daskPredict (diagKernel ncorr) chunks nrow nchan time ant1 ant2 x (.parallel tree) = .ok vis ∧
      predictVis (diagKernel ncorr) chunks.sum nrow nchan time ant1 ant2 x = .ok vis' ∧
      ∀ r < nrow, ∀ f < nchan, ∀ c < ncorr, vis r f c = vis' r f c :=
  dask_eq_whole_diag hc hn hx hcorr ht

/-- With base visibilities only, the dask version raises `ValueError` although the direct call succeeds. -/
theorem C36_base_vis_only (chunks : List Nat) (nrow nchan : Nat) (time ant1 ant2 : Nat → Nat) (hn : 0 < nrow)
    (b : Nat → Nat → M2 K) (st : Strategy) :
    daskPredict fullKernel chunks nrow nchan time ant1 ant2 ⟨none, none, none, some b⟩ st = .error .valueError ∧
    ∃ vis, predictVis fullKernel 0 nrow nchan time ant1 ant2 ⟨none, none, none, some b⟩ = .ok vis := by
  obtain ⟨tmin, hm⟩ := exists_min time hn
  obtain ⟨v, h, _⟩ := predict_value (full_laws (K := K)) (nsrc := 0) (nchan := nchan)
    (ant1 := ant1) (ant2 := ant2) hm (x := ⟨none, none, none, some b⟩) (Or.inr (Or.inr (Or.inr rfl)))
  exact ⟨rfl, v, h⟩

/-- Three source blocks `(2, 0, 3)`, summed as `(2 + 0) + 1`. -/
example : (SumTree.node (.node (.leaf 2) (.leaf 0)) (.leaf 1)).leaves.Perm (List.range [2, 0, 3].length) := by
  decide

example : List.Forall₂ (· < ·) [1, 0, 1] [2, 3, 2] := by simp

/-! ### C36: blocks of rows, times and channels -/

/-- The arrays restricted to a block of times, rows and channels. -/
def Terms.block {V : Type*} (x : Terms V) (t0 r0 f0 : Nat) : Terms V where
  dde := x.dde.map fun e => (fun s t a f => e.1 s (t0 + t) a (f0 + f), fun s t a f => e.2 s (t0 + t) a (f0 + f))
  coh := x.coh.map fun b s r f => b s (r0 + r) (f0 + f)
  die := x.die.map fun g => (fun t a f => g.1 (t0 + t) a (f0 + f), fun t a f => g.2 (t0 + t) a (f0 + f))
  bvis := x.bvis.map fun b r f => b (r0 + r) (f0 + f)

/-- **C36** (rows, times, channels; 2x2). If the time block of a row block starts at the first time of that
row block, predicting the block alone gives the corresponding part of the whole prediction. -/
theorem C36_block_full (nsrc nrow nchan r0 n f0 m t0 : Nat) (time ant1 ant2 : Nat → Nat) (tmin tmin' : Nat)
    (hm : IsMin nrow time tmin) (hm' : IsMin n (fun r => time (r0 + r)) tmin') (ht0 : t0 = tmin' - tmin)
    (hr0 : r0 + n ≤ nrow) (hf0 : f0 + m ≤ nchan) (x : Terms (M2 K))
    (hx : x.dde.isSome ∨ x.coh.isSome ∨ x.die.isSome ∨ x.bvis.isSome) :
    ∃ part whole,
      predictVis fullKernel nsrc n m (fun r => time (r0 + r)) (fun r => ant1 (r0 + r)) (fun r => ant2 (r0 + r))
        (x.block t0 r0 f0) = .ok part ∧
      predictVis fullKernel nsrc nrow nchan time ant1 ant2 x = .ok whole ∧
      ∀ r < n, ∀ f < m, part r f = whole (r0 + r) (f0 + f) := by
  obtain ⟨whole, h1, h2⟩ := predict_value (full_laws (K := K)) (nsrc := nsrc) (nchan := nchan)
    (ant1 := ant1) (ant2 := ant2) hm hx
  obtain ⟨part, h3, h4⟩ := predict_value (full_laws (K := K)) (nsrc := nsrc) (nchan := m)
    (ant1 := fun r => ant1 (r0 + r)) (ant2 := fun r => ant2 (r0 + r)) hm' (x := x.block t0 r0 f0)
    (by simpa [Terms.nonempty, Terms.block] using hx)
  refine ⟨part, whole, h3, h1, fun r hr f hf => ?_⟩
  have e : part r f = _ := h4 r hr f hf
  have e' : whole (r0 + r) (f0 + f) = _ := h2 (r0 + r) (by omega) (f0 + f) (by omega)
  rw [e, e']
  have hle : tmin ≤ tmin' := by
    obtain ⟨r', hr', h⟩ := hm'.1
    simp only at h
    rw [← h]
    exact hm.2 _ (by omega)
  have hle' : tmin' ≤ time (r0 + r) := hm'.2 r hr
  have ht : t0 + (time (r0 + r) - tmin') = time (r0 + r) - tmin := by omega
  simp only [Terms.ddeAt, Terms.cohAt, Terms.bvisAt, Terms.dieAt, Terms.block, Option.map_map, Function.comp_def,
    ht]

/-- **C36** (rows, times, channels; one or two correlations). -/
theorem C36_block_diag (ncorr nsrc nrow nchan r0 n f0 m t0 : Nat) (time ant1 ant2 : Nat → Nat)
    (tmin tmin' : Nat) (hm : IsMin nrow time tmin) (hm' : IsMin n (fun r => time (r0 + r)) tmin')
    (ht0 : t0 = tmin' - tmin) (hr0 : r0 + n ≤ nrow) (hf0 : f0 + m ≤ nchan) (x : Terms (Nat → K))
    (hx : x.dde.isSome ∨ x.coh.isSome ∨ x.die.isSome ∨ x.bvis.isSome) (part whole : Nat → Nat → Nat → K)
    (hp : predictVis (diagKernel ncorr) nsrc n m (fun r => time (r0 + r)) (fun r => ant1 (r0 + r))
        (fun r => ant2 (r0 + r)) (x.block t0 r0 f0) = .ok part)
    (hw : predictVis (diagKernel ncorr) nsrc nrow nchan time ant1 ant2 x = .ok whole) :
    ∀ r < n, ∀ f < m, ∀ c < ncorr, part r f c = whole (r0 + r) (f0 + f) c := by
  intro r hr f hf c hc
  obtain ⟨whole', h1, h2⟩ := predict_value (diag_laws (K := K) hc) (nsrc := nsrc) (nchan := nchan)
    (ant1 := ant1) (ant2 := ant2) hm hx
  obtain ⟨part', h3, h4⟩ := predict_value (diag_laws (K := K) hc) (nsrc := nsrc) (nchan := m)
    (ant1 := fun r => ant1 (r0 + r)) (ant2 := fun r => ant2 (r0 + r)) hm' (x := x.block t0 r0 f0)
    (by simpa [Terms.nonempty, Terms.block] using hx)
  rw [hp] at h3
  rw [hw] at h1
  obtain rfl := Except.ok.inj h1
  obtain rfl := Except.ok.inj h3
  have e : part r f c = _ := h4 r hr f hf
  have e' : whole (r0 + r) (f0 + f) c = _ := h2 (r0 + r) (by omega) (f0 + f) (by omega)
  rw [e, e']
  have hle : tmin ≤ tmin' := by
    obtain ⟨r', hr', h⟩ := hm'.1
    simp only at h
    rw [← h]
    exact hm.2 _ (by omega)
  have hle' : tmin' ≤ time (r0 + r) := hm'.2 r hr
  have ht : t0 + (time (r0 + r) - tmin') = time (r0 + r) - tmin := by omega
  simp only [Terms.ddeAt, Terms.cohAt, Terms.bvisAt, Terms.dieAt, Terms.block, Option.map_map, Function.comp_def,
    ht]

/-- Four rows at times 3 3 4 5; the second block holds rows 2 and 3 and starts at time 4. -/
example : IsMin 4 (fun r => if r < 2 then 3 else r + 2) 3 ∧
    IsMin 2 (fun r => (fun r => if r < 2 then 3 else r + 2) (2 + r)) 4 := by
  refine ⟨⟨⟨0, by omega, rfl⟩, fun r hr => ?_⟩, ⟨⟨0, by omega, rfl⟩, fun r hr => ?_⟩⟩
  · simp only; split <;> omega
  · simp only; split <;> omega

end C36

/-! ### C37: the length of the reduction graph -/

/-- **C37** holds in part: the keys of the graph are distinct, one per source block and output block, and
`len` agrees with their number exactly when there is a single source block (or no output block).
Missing: with several source blocks the statement is false, see `C37_violated`. -/
theorem C37_length_partial (sourceBlocks : Nat) (outBlocks : List Nat) :
    ((lrDict sourceBlocks outBlocks).map Prod.fst).Nodup ∧
    (lrDict sourceBlocks outBlocks).length = sourceBlocks * outBlocks.prod ∧
    (lrLen outBlocks = (lrDict sourceBlocks outBlocks).length ↔
      sourceBlocks = 1 ∨ outBlocks.prod = 0) := by
  refine ⟨nodup_keys _ _, length_lrDict _ _, ?_⟩
  rw [length_lrDict, lrLen_eq]
  constructor
  · intro h
    by_cases h0 : outBlocks.prod = 0
    · exact Or.inr h0
    · left
      have : 1 * outBlocks.prod = sourceBlocks * outBlocks.prod := by rw [one_mul]; exact h
      exact (Nat.eq_of_mul_eq_mul_right (Nat.pos_of_ne_zero h0) this).symm
  · rintro (rfl | h)
    · rw [one_mul]
    · rw [h, mul_zero]

/-- **C37 violated**: two source blocks and one output block give two keys, but `len` says one. -/
theorem C37_violated : ∃ (sourceBlocks : Nat) (outBlocks : List Nat),
    lrLen outBlocks ≠ ((lrDict sourceBlocks outBlocks).map Prod.fst).length :=
  ⟨2, [1, 1, 1], by decide⟩

/-- **C37**: every key the graph refers to is one of its keys, so the graph can be evaluated. -/
theorem C37_closed (sourceBlocks : Nat) (outBlocks : List Nat) (e : LKey × LTask)
    (he : e ∈ lrDict sourceBlocks outBlocks) (key : LKey) (hk : e.2.feed = some key) :
    key ∈ (lrDict sourceBlocks outBlocks).map Prod.fst := by
  obtain ⟨i, hi, out, ho, rfl⟩ := mem_lrDict.1 he
  rw [lrEntry_snd] at hk
  by_cases h0 : i = 0
  · rw [if_pos h0] at hk; cases hk
  · rw [if_neg h0] at hk
    cases hk
    refine List.mem_map.2 ⟨lrEntry sourceBlocks (i - 1) out, mem_lrDict.2 ⟨i - 1, by omega, out, ho, rfl⟩, ?_⟩
    rw [lrEntry_fst, if_neg (by omega)]

example : lrLen [2, 3] = (lrDict 1 [2, 3]).length := by decide

end Verif.Rime
