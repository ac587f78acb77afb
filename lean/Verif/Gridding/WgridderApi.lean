/-
Model of the functions of africanus/gridding/wgridder that users call, `dirty`, `model`, `hessian` and `residual`, with their default
arguments, and how they are composed of each other: C206.
-/
import Verif.Gridding.WgridderProps

set_option autoImplicit false

namespace Verif.Wgridder

open Finset

/-- The keyword arguments that the four functions share: `cell`, `celly`, `epsilon`, `nthreads` and `do_wstacking`
(gridding/wgridder/vis2im.py:54-56, im2vis.py:43-44, im2residim.py:58-60, hessian.py:57-59); `none` stands for `None`. -/
structure Opts where
  cell : ℝ
  celly : Option ℝ
  epsilon : ℝ
  nthreads : Option Nat
  wstacking : Bool

/-- The coefficients that ducc0 uses, by cell sizes, accuracy, threads and w stacking
(the library called in gridding/wgridder/im2vis.py:16-40 and gridding/wgridder/vis2im.py:16-51). -/
abbrev Lib := ℝ → ℝ → ℝ → Nat → Bool → UVW → ℝ → Nat → Nat → ℂ

/-- `if celly is None: celly = cell` and `if not nthreads: nthreads = multiprocessing.cpu_count()` (vis2im.py:58-63, im2vis.py:46-51,
im2residim.py:62-67, hessian.py:61-65), for images of `nx` times `ny` pixels. `double_accum` is not modelled: sums are exact. -/
noncomputable def Opts.wg (o : Opts) (lib : Lib) (cpus nx ny : Nat) : Wg where
  ker := lib o.cell (o.celly.getD o.cell) o.epsilon (match o.nthreads with
    | none => cpus
    | some n => if n = 0 then cpus else n) o.wstacking
  nx := nx
  ny := ny

/-- `dirty` (gridding/wgridder/vis2im.py:54-68); the leading axis of `_dirty_internal`, which `dirty[0]` removes, is left out. -/
noncomputable def dirtyApi (lib : Lib) (cpus nx ny : Nat) (o : Opts) (d : Data) (b : Bins) (vis : Nat → Nat → ℂ) :
    Except PyErr (Nat → Nat → Nat → ℝ) := dirty (o.wg lib cpus nx ny) d b vis

/-- `model` (gridding/wgridder/im2vis.py:43-55) for an image of `nimg` bands. -/
noncomputable def modelApi (lib : Lib) (cpus nx ny : Nat) (o : Opts) (d : Data) (b : Bins) (nimg : Nat) (image : Nat → Nat → Nat → ℝ) :
    Except PyErr (Nat → Nat → ℂ) := model (o.wg lib cpus nx ny) d b nimg image

/-- `hessian` (gridding/wgridder/hessian.py:57-72). -/
noncomputable def hessianApi (lib : Lib) (cpus nx ny : Nat) (o : Opts) (d : Data) (b : Bins) (nimg : Nat) (image : Nat → Nat → Nat → ℝ) :
    Except PyErr (Nat → Nat → Nat → ℝ) := hessian (o.wg lib cpus nx ny) d b nimg image

/-- `residual` (gridding/wgridder/im2residim.py:58-73). -/
noncomputable def residualApi (lib : Lib) (cpus nx ny : Nat) (o : Opts) (d : Data) (b : Bins) (nimg : Nat) (image : Nat → Nat → Nat → ℝ)
    (vis : Nat → Nat → ℂ) : Except PyErr (Nat → Nat → Nat → ℝ) := residual (o.wg lib cpus nx ny) d b nimg image vis

private theorem hessian_value (w : Wg) (d : Data) (b : Bins) (nimg : Nat) (image H : Nat → Nat → Nat → ℝ)
    (hH : hessian w d b nimg image = .ok H) (h0 : FromZero b) (i : Nat) (hi : i < b.nband) (hc : b.idx i + b.counts i ≤ d.nchan)
    (x y : Nat) : H i x y = ∑ r ∈ range d.nrow, ∑ c ∈ Ico (b.idx i) (b.idx i + b.counts i),
      if maskAt d.flag r c then wgtAt d.weights r c *
        ((starRingEnd ℂ) (w.ker (d.uvw r) (d.freq c) x y) * predict w (d.uvw r) (d.freq c) (image i)).re else 0 := by
  obtain ⟨h1, h2⟩ := start_size h0.min hc
  rw [(hessian_spec hH).2.2 i hi]
  unfold hessianBand ms2dirty
  simp only [h1, h2]
  refine sum_congr rfl fun r _ => ?_
  rw [sum_Ico_eq_sum_range, Nat.add_sub_cancel_left]
  refine sum_congr rfl fun c _ => ?_
  unfold dirty2ms predict
  cases hf : d.flag with
  | none => cases d.weights <;> simp [maskAt, wgtAt, cols]
  | some m => cases d.weights <;> cases hm : m r (b.idx i + c) <;> simp [maskAt, wgtAt, cols, hm]

/-- The dirty image of predicted visibilities, with weights `W` in the prediction and `W'` in the image. -/
private theorem dirty_of_model (w : Wg) (d : Data) (W W' : Option (Nat → Nat → ℝ)) (b : Bins) (image : Nat → Nat → Nat → ℝ)
    (V : Nat → Nat → ℂ) (hV : model w { d with weights := W } b b.nband image = .ok V) (D : Nat → Nat → Nat → ℝ)
    (hD : dirty w { d with weights := W' } b V = .ok D) (h0 : FromZero b) (hdis : Disjoint b d.nchan) (i : Nat) (hi : i < b.nband)
    (x y : Nat) : D i x y = ∑ r ∈ range d.nrow, ∑ c ∈ Ico (b.idx i) (b.idx i + b.counts i),
      if maskAt d.flag r c then wgtAt W' r c * wgtAt W r c *
        ((starRingEnd ℂ) (w.ker (d.uvw r) (d.freq c) x y) * predict w (d.uvw r) (d.freq c) (image i)).re else 0 := by
  rw [C107_dirty_partial w { d with weights := W' } b V D hD h0 i hi (hdis.1 i hi) x y]
  refine sum_congr rfl fun r _ => sum_congr rfl fun c hc => ?_
  rw [C107_model_partial w { d with weights := W } b image V hV h0 hdis r i hi c (mem_Ico.1 hc)]
  by_cases hm : maskAt d.flag r c = true
  · simp only [hm, if_true]
    rw [mul_assoc, mul_left_comm ((starRingEnd ℂ) _) (wgtAt W r c : ℂ) _, Complex.re_ofReal_mul]
  · simp only [hm]
    rfl

private theorem model_ok (w : Wg) (d : Data) (b : Bins) (image : Nat → Nat → Nat → ℝ) (h : b.nband ≠ 0) :
    ∃ V, model w d b b.nband image = .ok V := by
  unfold model
  rw [if_neg h, forRangeM_model _ _ _ _ le_rfl]
  exact ⟨_, rfl⟩

/-- **C206** Omitting the second cell size means square cells, and omitting the number of threads, or zero threads, all processors; with a
library whose coefficients do not depend on the number of threads the results do not either. -/
theorem C206_options (lib : Lib) (cpus cpus' nx ny : Nat) (cell eps : ℝ) (celly : Option ℝ) (nt nt' : Option Nat) (ws : Bool) (d : Data) (b : Bins)
    (nimg : Nat) (image : Nat → Nat → Nat → ℝ) (vis : Nat → Nat → ℂ) :
    (dirtyApi lib cpus nx ny ⟨cell, none, eps, nt, ws⟩ d b vis = dirtyApi lib cpus nx ny ⟨cell, some cell, eps, nt, ws⟩ d b vis ∧
      modelApi lib cpus nx ny ⟨cell, none, eps, nt, ws⟩ d b nimg image = modelApi lib cpus nx ny ⟨cell, some cell, eps, nt, ws⟩ d b nimg image ∧
      hessianApi lib cpus nx ny ⟨cell, none, eps, nt, ws⟩ d b nimg image =
        hessianApi lib cpus nx ny ⟨cell, some cell, eps, nt, ws⟩ d b nimg image ∧
      residualApi lib cpus nx ny ⟨cell, none, eps, nt, ws⟩ d b nimg image vis =
        residualApi lib cpus nx ny ⟨cell, some cell, eps, nt, ws⟩ d b nimg image vis) ∧
    (0 < cpus → ∀ n ∈ [none, some 0], dirtyApi lib cpus nx ny ⟨cell, celly, eps, n, ws⟩ d b vis =
      dirtyApi lib cpus' nx ny ⟨cell, celly, eps, some cpus, ws⟩ d b vis) ∧
    ((∀ cx cy e n n' s, lib cx cy e n s = lib cx cy e n' s) →
      dirtyApi lib cpus nx ny ⟨cell, celly, eps, nt, ws⟩ d b vis = dirtyApi lib cpus' nx ny ⟨cell, celly, eps, nt', ws⟩ d b vis ∧
      modelApi lib cpus nx ny ⟨cell, celly, eps, nt, ws⟩ d b nimg image =
        modelApi lib cpus' nx ny ⟨cell, celly, eps, nt', ws⟩ d b nimg image ∧
      hessianApi lib cpus nx ny ⟨cell, celly, eps, nt, ws⟩ d b nimg image =
        hessianApi lib cpus' nx ny ⟨cell, celly, eps, nt', ws⟩ d b nimg image ∧
      residualApi lib cpus nx ny ⟨cell, celly, eps, nt, ws⟩ d b nimg image vis =
        residualApi lib cpus' nx ny ⟨cell, celly, eps, nt', ws⟩ d b nimg image vis) := by
  refine ⟨⟨rfl, rfl, rfl, rfl⟩, fun hc n hn => ?_, fun h => ?_⟩
  · have hc' : cpus ≠ 0 := by omega
    simp only [List.mem_cons, List.not_mem_nil, or_false] at hn
    rcases hn with rfl | rfl <;> simp [dirtyApi, Opts.wg, hc']
  · have e : Opts.wg ⟨cell, celly, eps, nt, ws⟩ lib cpus nx ny = Opts.wg ⟨cell, celly, eps, nt', ws⟩ lib cpus' nx ny := by
      unfold Opts.wg
      rw [h]
    exact ⟨by unfold dirtyApi; rw [e], by unfold modelApi; rw [e], by unfold hessianApi; rw [e], by unfold residualApi; rw [e]⟩

/-- **C206** The Hessian is the dirty image of the predicted visibilities, with the weights in one of the two steps, if the bins start
with the first channel, share none and name channels that exist. With the weights in both steps it is the Hessian for the squares of
the weights. -/
theorem C206_hessian (lib : Lib) (cpus nx ny : Nat) (o : Opts) (d : Data) (W : Nat → Nat → ℝ) (hw : d.weights = some W) (b : Bins)
    (image : Nat → Nat → Nat → ℝ) (h0 : FromZero b) (hdis : Disjoint b d.nchan) (hr : d.nrow ≠ 0) (hc : d.nchan ≠ 0) :
    ∃ V VW D DW DWW H HWW,
      modelApi lib cpus nx ny o { d with weights := none } b b.nband image = .ok V ∧
      modelApi lib cpus nx ny o d b b.nband image = .ok VW ∧
      dirtyApi lib cpus nx ny o d b V = .ok D ∧
      dirtyApi lib cpus nx ny o { d with weights := none } b VW = .ok DW ∧
      dirtyApi lib cpus nx ny o d b VW = .ok DWW ∧
      hessianApi lib cpus nx ny o d b b.nband image = .ok H ∧
      hessianApi lib cpus nx ny o { d with weights := some fun r c => W r c ^ 2 } b b.nband image = .ok HWW ∧
      ∀ i < b.nband, ∀ x y, H i x y = D i x y ∧ H i x y = DW i x y ∧ HWW i x y = DWW i x y := by
  have hb : b.nband ≠ 0 := by
    obtain ⟨j, hj, -⟩ := h0
    omega
  have hd : d = { d with weights := some W } := by rw [← hw]
  obtain ⟨V, hV⟩ := model_ok (o.wg lib cpus nx ny) { d with weights := none } b image hb
  obtain ⟨VW, hVW⟩ := model_ok (o.wg lib cpus nx ny) d b image hb
  obtain ⟨D, hD⟩ := dirty_ok (o.wg lib cpus nx ny) d b V hb hr hc
  obtain ⟨DW, hDW⟩ := dirty_ok (o.wg lib cpus nx ny) { d with weights := none } b VW hb hr hc
  obtain ⟨DWW, hDWW⟩ := dirty_ok (o.wg lib cpus nx ny) d b VW hb hr hc
  obtain ⟨H, hH⟩ := hessian_ok (o.wg lib cpus nx ny) d b b.nband image hb le_rfl
  obtain ⟨HWW, hHWW⟩ := hessian_ok (o.wg lib cpus nx ny) { d with weights := some fun r c => W r c ^ 2 } b b.nband image hb le_rfl
  refine ⟨V, VW, D, DW, DWW, H, HWW, hV, hVW, hD, hDW, hDWW, hH, hHWW, fun i hi x y => ?_⟩
  have hci := hdis.1 i hi
  rw [hd] at hVW hD hDWW hH
  rw [hessian_value _ _ _ _ _ _ hH h0 i hi hci, hessian_value _ _ _ _ _ _ hHWW h0 i hi hci,
    dirty_of_model _ d _ _ _ _ _ hV _ hD h0 hdis i hi, dirty_of_model _ d _ _ _ _ _ hVW _ hDW h0 hdis i hi,
    dirty_of_model _ d _ _ _ _ _ hVW _ hDWW h0 hdis i hi]
  simp only [wgtAt, Option.map_some, Option.map_none, Option.getD_some, Option.getD_none, mul_one, one_mul, sq, and_self]

/-- **C206** The residual image is the dirty image of the visibilities minus the ones predicted without weights. -/
theorem C206_residual (lib : Lib) (cpus nx ny : Nat) (o : Opts) (d : Data) (b : Bins) (image : Nat → Nat → Nat → ℝ)
    (vis : Nat → Nat → ℂ) (h0 : FromZero b) (hdis : Disjoint b d.nchan) (hr : d.nrow ≠ 0) (hc : d.nchan ≠ 0) :
    ∃ V D R, modelApi lib cpus nx ny o { d with weights := none } b b.nband image = .ok V ∧
      dirtyApi lib cpus nx ny o d b (fun r c => vis r c - V r c) = .ok D ∧
      residualApi lib cpus nx ny o d b b.nband image vis = .ok R ∧ ∀ i < b.nband, ∀ x y, R i x y = D i x y := by
  have hb : b.nband ≠ 0 := by
    obtain ⟨j, hj, -⟩ := h0
    omega
  obtain ⟨V, hV⟩ := model_ok (o.wg lib cpus nx ny) { d with weights := none } b image hb
  obtain ⟨D, hD⟩ := dirty_ok (o.wg lib cpus nx ny) d b (fun r c => vis r c - V r c) hb hr hc
  obtain ⟨Dv, hDv⟩ := dirty_ok (o.wg lib cpus nx ny) d b vis hb hr hc
  obtain ⟨H, hH⟩ := hessian_ok (o.wg lib cpus nx ny) d b b.nband image hb le_rfl
  obtain ⟨R, hR, hRv⟩ := C81_residual _ d b b.nband image vis Dv H hDv hH
  refine ⟨V, D, R, hV, hD, hR, fun i hi x y => ?_⟩
  have hci := hdis.1 i hi
  rw [hRv i hi, hessian_value _ _ _ _ _ _ hH h0 i hi hci, C107_dirty_partial _ _ _ _ _ hDv h0 i hi hci,
    C107_dirty_partial _ _ _ _ _ hD h0 i hi hci, ← sum_sub_distrib]
  refine sum_congr rfl fun r _ => ?_
  rw [← sum_sub_distrib]
  refine sum_congr rfl fun c hc => ?_
  rw [C107_model_partial _ { d with weights := none } b image V hV h0 hdis r i hi c (mem_Ico.1 hc)]
  by_cases hm : maskAt d.flag r c = true
  · simp only [hm, if_true, wgtAt, Option.map_none, Option.getD_none, Complex.ofReal_one, one_mul, mul_sub, Complex.sub_re]
  · simp only [hm]
    simp

/-- The weighted squares of the differences between two sets of visibilities, over the data that the flags select: the specification of the
misfit that `residual` and `hessian` belong to. -/
noncomputable def misfit (d : Data) (vis V : Nat → Nat → ℂ) : ℝ :=
  ∑ r ∈ range d.nrow, ∑ c ∈ range d.nchan,
    if maskAt d.flag r c then (match d.weights with | none => 1 | some W => W r c) * Complex.normSq (vis r c - V r c) else 0

private theorem model_scale (w : Wg) (d : Data) (W : Option (Nat → Nat → ℝ)) (b : Bins) (image : Nat → Nat → Nat → ℝ) (V VW : Nat → Nat → ℂ)
    (hV : model w { d with weights := none } b b.nband image = .ok V) (hVW : model w { d with weights := W } b b.nband image = .ok VW)
    (h0 : FromZero b) (hdis : Disjoint b d.nchan) (r c : Nat) :
    VW r c = (wgtAt W r c : ℂ) * V r c ∧ (maskAt d.flag r c = false → V r c = 0) := by
  by_cases h : ∃ i < b.nband, b.idx i ≤ c ∧ c < b.idx i + b.counts i
  · obtain ⟨i, hi, hc⟩ := h
    rw [C107_model_partial w { d with weights := none } b image V hV h0 hdis r i hi c hc,
      C107_model_partial w { d with weights := W } b image VW hVW h0 hdis r i hi c hc]
    cases hm : maskAt d.flag r c <;> simp [wgtAt]
  · have h' : ∀ i < b.nband, ¬ (b.idx i ≤ c ∧ c < b.idx i + b.counts i) := fun i hi hc => h ⟨i, hi, hc⟩
    rw [C107_rest_partial w { d with weights := none } b image V hV h0 hdis r c h',
      C107_rest_partial w { d with weights := W } b image VW hVW h0 hdis r c h']
    simp

private theorem model_add (w : Wg) (d : Data) (b : Bins) (p q : Nat → Nat → Nat → ℝ) (P Q S : Nat → Nat → ℂ)
    (hP : model w d b b.nband p = .ok P) (hQ : model w d b b.nband q = .ok Q)
    (hS : model w d b b.nband (fun i x y => p i x y + q i x y) = .ok S) (h0 : FromZero b) (hdis : Disjoint b d.nchan) (r c : Nat) :
    S r c = P r c + Q r c := by
  by_cases h : ∃ i < b.nband, b.idx i ≤ c ∧ c < b.idx i + b.counts i
  · obtain ⟨i, hi, hc⟩ := h
    rw [C107_model_partial w d b _ P hP h0 hdis r i hi c hc, C107_model_partial w d b _ Q hQ h0 hdis r i hi c hc,
      C107_model_partial w d b _ S hS h0 hdis r i hi c hc]
    cases hm : maskAt d.flag r c
    · simp
    · simp only [if_true, predict, Complex.ofReal_add, mul_add, sum_add_distrib]
  · have h' : ∀ i < b.nband, ¬ (b.idx i ≤ c ∧ c < b.idx i + b.counts i) := fun i hi hc => h ⟨i, hi, hc⟩
    rw [C107_rest_partial w d b _ P hP h0 hdis r c h', C107_rest_partial w d b _ Q hQ h0 hdis r c h',
      C107_rest_partial w d b _ S hS h0 hdis r c h', add_zero]

/-- **C206** Changing an image by a step changes the misfit by minus twice the product of the step and the residual image, plus the product
of the step and its Hessian: the residual image is half the direction of steepest descent. -/
theorem C206_descent (lib : Lib) (cpus nx ny : Nat) (o : Opts) (d : Data) (b : Bins) (image step : Nat → Nat → Nat → ℝ)
    (vis : Nat → Nat → ℂ) (h0 : FromZero b) (hdis : Disjoint b d.nchan) (hr : d.nrow ≠ 0) (hc : d.nchan ≠ 0) :
    ∃ V V' R H, modelApi lib cpus nx ny o { d with weights := none } b b.nband image = .ok V ∧
      modelApi lib cpus nx ny o { d with weights := none } b b.nband (fun i x y => image i x y + step i x y) = .ok V' ∧
      residualApi lib cpus nx ny o d b b.nband image vis = .ok R ∧ hessianApi lib cpus nx ny o d b b.nband step = .ok H ∧
      misfit d vis V' = misfit d vis V
        - 2 * ∑ i ∈ range b.nband, ∑ x ∈ range nx, ∑ y ∈ range ny, step i x y * R i x y
        + ∑ i ∈ range b.nband, ∑ x ∈ range nx, ∑ y ∈ range ny, step i x y * H i x y := by
  have hb : b.nband ≠ 0 := by
    obtain ⟨j, hj, -⟩ := h0
    omega
  obtain ⟨V, D, R, hV, hD, hR, hRD⟩ := C206_residual lib cpus nx ny o d b image vis h0 hdis hr hc
  obtain ⟨V', hV'⟩ := model_ok (o.wg lib cpus nx ny) { d with weights := none } b (fun i x y => image i x y + step i x y) hb
  obtain ⟨P, hP⟩ := model_ok (o.wg lib cpus nx ny) { d with weights := none } b step hb
  obtain ⟨PW, hPW⟩ := model_ok (o.wg lib cpus nx ny) d b step hb
  obtain ⟨E, hE⟩ := dirty_ok (o.wg lib cpus nx ny) d b P hb hr hc
  obtain ⟨H, hH⟩ := hessian_ok (o.wg lib cpus nx ny) d b b.nband step hb le_rfl
  have hHE : ∀ i < b.nband, ∀ x y, H i x y = E i x y := by
    intro i hi x y
    rw [hessian_value _ _ _ _ _ _ hH h0 i hi (hdis.1 i hi), dirty_of_model _ d none d.weights _ _ _ hP _ hE h0 hdis i hi]
    simp only [wgtAt, Option.map_none, Option.getD_none, mul_one]
  refine ⟨V, V', R, H, hV, hV', hR, hH, ?_⟩
  have t1 := C107_transpose_partial (o.wg lib cpus nx ny) d b step (fun r c => vis r c - V r c) D PW hD hPW h0 hdis
  have t2 := C107_transpose_partial (o.wg lib cpus nx ny) d b step P E PW hE hPW h0 hdis
  have e1 : ∑ i ∈ range b.nband, ∑ x ∈ range nx, ∑ y ∈ range ny, step i x y * R i x y =
      ∑ r ∈ range d.nrow, ∑ c ∈ range d.nchan, ((starRingEnd ℂ) (PW r c) * (vis r c - V r c)).re := by
    rw [← t1]
    exact sum_congr rfl fun i hi => sum_congr rfl fun x _ => sum_congr rfl fun y _ => by rw [hRD i (mem_range.1 hi)]
  have e2 : ∑ i ∈ range b.nband, ∑ x ∈ range nx, ∑ y ∈ range ny, step i x y * H i x y =
      ∑ r ∈ range d.nrow, ∑ c ∈ range d.nchan, ((starRingEnd ℂ) (PW r c) * P r c).re := by
    rw [← t2]
    exact sum_congr rfl fun i hi => sum_congr rfl fun x _ => sum_congr rfl fun y _ => by rw [hHE i (mem_range.1 hi)]
  rw [e1, e2]
  unfold misfit
  rw [mul_sum, ← sum_sub_distrib, ← sum_add_distrib]
  refine sum_congr rfl fun r _ => ?_
  rw [mul_sum, ← sum_sub_distrib, ← sum_add_distrib]
  refine sum_congr rfl fun c _ => ?_
  obtain ⟨s1, s2⟩ := model_scale (o.wg lib cpus nx ny) d d.weights b step P PW hP hPW h0 hdis r c
  rw [s1, model_add (o.wg lib cpus nx ny) { d with weights := none } b image step V P V' hV hP hV' h0 hdis r c]
  have hw : (match d.weights with | none => 1 | some W => W r c) = wgtAt d.weights r c := by
    cases d.weights <;> rfl
  rw [hw]
  cases hm : maskAt d.flag r c with
  | false => simp [s2 hm]
  | true =>
    simp only [if_true, Complex.normSq_apply, Complex.sub_re, Complex.sub_im, Complex.add_re, Complex.add_im, map_mul, Complex.conj_ofReal,
      Complex.mul_re, Complex.mul_im, Complex.conj_re, Complex.conj_im, Complex.ofReal_re, Complex.ofReal_im]
    ring

/-- **C206** If no weight is negative and the residual image is zero, no other image has a smaller misfit. -/
theorem C206_optimal (lib : Lib) (cpus nx ny : Nat) (o : Opts) (d : Data) (b : Bins) (image other : Nat → Nat → Nat → ℝ)
    (vis : Nat → Nat → ℂ) (h0 : FromZero b) (hdis : Disjoint b d.nchan) (hr : d.nrow ≠ 0) (hc : d.nchan ≠ 0)
    (hw : ∀ W, d.weights = some W → ∀ r c, 0 ≤ W r c) (R : Nat → Nat → Nat → ℝ)
    (hR : residualApi lib cpus nx ny o d b b.nband image vis = .ok R) (hz : ∀ i < b.nband, ∀ x < nx, ∀ y < ny, R i x y = 0) :
    ∃ V V', modelApi lib cpus nx ny o { d with weights := none } b b.nband image = .ok V ∧
      modelApi lib cpus nx ny o { d with weights := none } b b.nband other = .ok V' ∧ misfit d vis V ≤ misfit d vis V' := by
  obtain ⟨V, V', R', H, hV, hV', hR', hH, e⟩ :=
    C206_descent lib cpus nx ny o d b image (fun i x y => other i x y - image i x y) vis h0 hdis hr hc
  rw [hR] at hR'
  obtain rfl := Except.ok.inj hR'
  refine ⟨V, V', hV, by rw [← hV']; congr 1; funext i x y; ring, ?_⟩
  rw [e]
  have z : ∑ i ∈ range b.nband, ∑ x ∈ range nx, ∑ y ∈ range ny, (other i x y - image i x y) * R i x y = 0 :=
    sum_eq_zero fun i hi => sum_eq_zero fun x hx => sum_eq_zero fun y hy => by
      rw [hz i (mem_range.1 hi) x (mem_range.1 hx) y (mem_range.1 hy), mul_zero]
  have hw' : ∀ r c, 0 ≤ wgtAt d.weights r c := by
    intro r c
    cases h : d.weights with
    | none => simp [wgtAt]
    | some W => exact hw W h r c
  have p := sum_nonneg fun i (hi : i ∈ range b.nband) => C103_psd (o.wg lib cpus nx ny) d b b.nband _ H hH hw' i (mem_range.1 hi)
  rw [z]
  have p' : 0 ≤ ∑ i ∈ range b.nband, ∑ x ∈ range nx, ∑ y ∈ range ny, (other i x y - image i x y) * H i x y := p
  linarith

/-- Data that the image explains: the residual image of `C206_optimal` is zero, whatever the library and the image are. -/
example (lib : Lib) (o : Opts) (image : Nat → Nat → Nat → ℝ) : ∃ V R,
    modelApi lib 4 2 2 o ⟨3, 3, fun _ => (1, 2, 3), fun _ => 1, none, none⟩ ⟨2, fun i => i, fun i => i + 1⟩ 2 image = .ok V ∧
    residualApi lib 4 2 2 o ⟨3, 3, fun _ => (1, 2, 3), fun _ => 1, none, none⟩ ⟨2, fun i => i, fun i => i + 1⟩ 2 image V = .ok R ∧
    ∀ i < 2, ∀ x y, R i x y = 0 := by
  have h0 : FromZero ⟨2, fun i => i, fun i => i + 1⟩ := ⟨0, by decide, rfl⟩
  have hd : Disjoint ⟨2, fun i => i, fun i => i + 1⟩ 3 := by
    refine ⟨fun i hi => ?_, fun i hi j hj hij => ?_⟩ <;> simp only at * <;> omega
  obtain ⟨V, hV⟩ := model_ok (o.wg lib 4 2 2) ⟨3, 3, fun _ => (1, 2, 3), fun _ => 1, none, none⟩ ⟨2, fun i => i, fun i => i + 1⟩ image (by decide)
  obtain ⟨V', D, R, hV', hD, hR, e⟩ := C206_residual lib 4 2 2 o ⟨3, 3, fun _ => (1, 2, 3), fun _ => 1, none, none⟩
    ⟨2, fun i => i, fun i => i + 1⟩ image V h0 hd (by decide) (by decide)
  have hVV : V' = V := by
    have : (Except.ok V' : Except PyErr _) = .ok V := hV'.symm.trans hV
    exact Except.ok.inj this
  subst hVV
  refine ⟨V', R, hV', hR, fun i hi x y => ?_⟩
  rw [e i hi, C107_dirty_partial _ _ _ _ _ hD h0 i hi (hd.1 i hi)]
  simp

/-- Two bins of one and two channels, in three rows: the hypotheses of `C206_hessian` and `C206_residual` hold. -/
example : FromZero ⟨2, fun i => i, fun i => i + 1⟩ ∧ Disjoint ⟨2, fun i => i, fun i => i + 1⟩ 3 := by
  refine ⟨⟨0, by decide, rfl⟩, fun i hi => ?_, fun i hi j hj hij => ?_⟩
  · simp only at hi ⊢
    omega
  · simp only at hi hj ⊢
    omega

end Verif.Wgridder
