/-
C117: predict_vis on dask arrays.
-/
import Verif.Dask.PredictLemmas
import Verif.Rime.Props
import Mathlib.Data.Real.Star
import Mathlib.Data.Complex.Basic

set_option autoImplicit false

namespace Verif.Dask

open Verif.Rime

section generic
variable {V : Type} {Q : Type*} [Ring Q] [StarRing Q]

private theorem predictVis_empty (k : Kernel V) (n m : Nat) (t a b : Nat → Nat) (x : Terms V) :
    predictVis k n 0 m t a b x = .error .valueError := by
  unfold predictVis
  split_ifs <;> rfl

private theorem skySum_empty (k : Kernel V) {S : List Nat} (hS : S ≠ []) (m : Nat) (t a b : Nat → Nat) (x : Terms V)
    (st : Strategy) (hst : st.Ok S) : skySum k S 0 m t a b x st = .error .valueError := by
  have hb : ∀ f i, predictBlock k S 0 m t a b x f i = .error .valueError := fun f i => predictVis_empty _ _ _ _ _ _ _
  have hpos : 0 < S.length := List.length_pos_iff.2 hS
  cases st with
  | linear outs out =>
    show linearReduction k S 0 m t a b x outs out = _
    unfold linearReduction
    rw [← lrEntry_last hpos, lrEval_entry _ hst _ (by omega) _ (by omega)]
    generalize S.length - 1 = n
    induction n with
    | zero => exact hb _ _
    | succ n ih => unfold chain; rw [ih]
  | parallel tree =>
    show SumTree.eval k _ tree = _
    clear hst
    induction tree with
    | leaf i => exact hb _ _
    | node l r ihl ihr => unfold SumTree.eval; rw [ihl]

private theorem daskPredict_empty (k : Kernel V) {S : List Nat} (hS : S ≠ []) (m : Nat) (t a b : Nat → Nat) (x : Terms V)
    (st : Strategy) (hst : st.Ok S) : daskPredict k S 0 m t a b x st = .error .valueError := by
  unfold daskPredict
  rw [skySum_empty k hS m t a b x st hst]
  simp only [predictVis_empty]
  obtain ⟨dde, coh, die, bvis⟩ := x
  cases dde <;> cases coh <;> cases die <;> cases bvis <;> rfl

variable {time ant1 ant2 : DArr Nat} {x : Jones (DArr V)} {S R T C : List Nat}

private theorem whole_nchan (h : PredictArgs time ant1 ant2 x S R T C) : x.whole.nchan = C.sum := by
  obtain ⟨dde, coh, die, bvis⟩ := x
  have hs := h.supplied
  unfold Jones.nchan Jones.whole
  rcases dde with _ | ⟨d1, d2⟩
  · rcases coh with _ | c
    · rcases die with _ | ⟨g1, g2⟩
      · simp at hs
      · obtain ⟨n, h1, _⟩ := h.dieChunks _ rfl
        dsimp only at h1
        simp [DArr.whole, h1]
    · have h1 := h.cohChunks c rfl
      simp [DArr.whole, h1]
  · obtain ⟨n, h1, _⟩ := h.ddeChunks _ rfl
    dsimp only at h1
    simp [DArr.whole, h1]

private theorem whole_nsrc (h : PredictArgs time ant1 ant2 x S R T C) (hx : x.dde.isSome ∨ x.coh.isSome) :
    x.whole.nsrc = S.sum := by
  obtain ⟨dde, coh, die, bvis⟩ := x
  unfold Jones.nsrc Jones.whole
  rcases dde with _ | ⟨d1, d2⟩
  · rcases coh with _ | c
    · simp at hx
    · have h1 := h.cohChunks c rfl
      simp [DArr.whole, h1]
  · obtain ⟨n, h1, _⟩ := h.ddeChunks _ rfl
    dsimp only at h1
    simp [DArr.whole, h1]

/-- The components given by a law-abiding map agree. -/
theorem agrees_of_laws [Inhabited V] {k : Kernel V} {φ : V → Q} (hk : Laws k φ) (h : PredictArgs time ant1 ant2 x S R T C)
    (red : Reduction) (hr : red.Ok S) (l : Lazy V) (hlc : l.chunks = [R, C])
    (hlb : ∀ i < R.length, ∀ j < C.length, VisOf (blockSize R i) (blockSize C j) (l.block [i, j])
        (daskPredict k S (blockSize R i) (blockSize C j) (fun r => time.val [blockOff R i + r])
          (fun r => ant1.val [blockOff R i + r]) (fun r => ant2.val [blockOff R i + r]) (blockTerms x R T C i j)
          (red.at R C i j))) :
    (l.map φ).Agrees ((npPredictVis k time.whole ant1.whole ant2.whole x.whole).map (NArr.map φ)) := by
  have hts : time.whole.shape.getD 0 0 = R.sum := by simp [DArr.whole, h.timeChunks]
  have hst : ∀ i < R.length, ∀ j < C.length, (red.at R C i j).Ok S := by
    intro i hi j hj
    cases red with
    | chain => exact mem_product.2 (by simp [hi, hj])
    | tree t => exact hr
  unfold npPredictVis
  rw [hts]
  rcases Nat.eq_zero_or_pos R.sum with h0 | h0
  · rw [h0, predictVis_empty]
    have hR : R = [0] := by
      have := h.goodR.small (by omega)
      rw [h0] at this
      exact this
    have hC : 0 < C.length := List.length_pos_iff.2 h.goodC.ne_nil
    refine ⟨[0, 0], ?_, ?_⟩
    · show IsBlock l.chunks _
      rw [hlc]
      simp [isBlock_cons, isBlock_nil, hR, hC]
    · have := hlb 0 (by simp [hR]) 0 hC
      rw [show blockSize R 0 = 0 by rw [hR]; rfl, daskPredict_empty k h.goodS.ne_nil _ _ _ _ _ _
        (hst 0 (by simp [hR]) 0 hC)] at this
      have h' : l.block [0, 0] = .error .valueError := this
      simp only [Lazy.map, h']
      rfl
  · obtain ⟨tmin, hm⟩ := exists_min (fun r => time.val [r]) h0
    have hne : x.whole.terms.nonempty := by
      have := h.supplied
      unfold Terms.nonempty Jones.terms Jones.whole
      simp only [Option.isSome_map]
      tauto
    obtain ⟨w, e1, e2⟩ := predict_value hk (nsrc := x.whole.nsrc) (nchan := x.whole.nchan)
      (ant1 := fun r => ant1.val [r]) (ant2 := fun r => ant2.val [r]) hm hne
    have e1' : predictVis k x.whole.nsrc R.sum x.whole.nchan (fun r => time.whole.val [r]) (fun r => ant1.whole.val [r])
      (fun r => ant2.whole.val [r]) x.whole.terms = .ok w := e1
    rw [e1', whole_nchan h]
    rw [whole_nchan h] at e2
    refine ⟨by simp [Lazy.map, hlc, visArray, NArr.map], ?_⟩
    intro b hb
    have hb' : IsBlock l.chunks b := hb
    rw [hlc] at hb'
    simp only [isBlock_cons, isBlock_nil] at hb'
    obtain ⟨i, _, rfl, hi, j, _, rfl, hj, rfl⟩ := hb'
    have hmi := h.timeStarts tmin hm i hi
    have hxb : (blockTerms x R T C i j).dde.isSome ∨ (blockTerms x R T C i j).coh.isSome ∨
        (blockTerms x R T C i j).die.isSome := by
      simpa [blockTerms, Terms.block, Jones.terms, Jones.whole] using h.supplied
    obtain ⟨v, f1, f2⟩ := dask_value hk (nchan := blockSize C j) (ant1 := fun r => ant1.val [blockOff R i + r])
      (ant2 := fun r => ant2.val [blockOff R i + r]) hmi hxb h.goodS.ne_nil (hst i hi j hj)
    have := hlb i hi j hj
    rw [f1] at this
    obtain ⟨a, g1, g2, g3⟩ := this
    refine ⟨a.map φ, by simp [Lazy.map, g1, Except.map], by simp [Lazy.map, NArr.map, hlc, g2], ?_⟩
    intro idx hidx
    have hidx' : IsIndex a.shape idx := hidx
    rw [g2] at hidx'
    simp only [isIndex_cons, isIndex_nil] at hidx'
    obtain ⟨r, _, rfl, hr', f, _, rfl, hf', rfl⟩ := hidx'
    have hval : a.val [r, f] = v r f := by rw [← g3]
    simp only [NArr.map, Lazy.map, hlc, List.zipWith_cons_cons, List.zipWith_nil_left, visArray]
    rw [hval, f2 r hr' f hf', e2 _ (blockOff_lt hr') _ (blockOff_lt hf')]
    have hti : time.val [blockOff R i + r] - tmin = blockOff T i + (time.val [blockOff R i + r] - (tmin + blockOff T i)) := by
      have := hmi.2 r hr'
      simp only at this
      omega
    generalize hu : time.val [blockOff R i + r] - (tmin + blockOff T i) = u at hti ⊢
    rw [hti]
    have hn := whole_nsrc h
    clear f1 f2 e1 e1' e2 g1 g2 g3 hlb hval h hxb hne hst hr
    generalize x.whole.nsrc = N at hn ⊢
    obtain ⟨dde, coh, die, bvis⟩ := x
    rcases dde with _ | ⟨d1, d2⟩
    · rcases coh with _ | c
      · clear hn
        cases die <;> cases bvis <;> rfl
      · obtain rfl : N = S.sum := hn (Or.inr rfl)
        cases die <;> cases bvis <;> rfl
    · obtain rfl : N = S.sum := hn (Or.inl rfl)
      cases coh <;> cases die <;> cases bvis <;> rfl

theorem blockCount_clash {l : List Nat} {a b : Nat} (ha : a ∈ l) (hb : b ∈ l) (hab : a ≠ b) (ha1 : a ≠ 1) (hb1 : b ≠ 1) :
    blockCount l = .error .valueError := by
  unfold blockCount
  have key : ∀ m : List Nat, a ∈ m → b ∈ m → (match m with | [n] => (.ok n : Except PyErr Nat) | _ => .error .valueError) =
      .error .valueError := by
    intro m h1 h2
    match m, h1, h2 with
    | [n], h1, h2 => simp at h1 h2; omega
    | [], h1, _ => simp at h1
    | _ :: _ :: _, _, _ => rfl
  split_ifs with h
  · exact key _ (by simp [ha, ha1]) (by simp [hb, hb1])
  · exact key _ (by simp [ha]) (by simp [hb])

theorem countsAlign_clash {args : List Arg} {l : Label} {a b : List Nat} (ha : a ∈ chunksFor args l)
    (hb : b ∈ chunksFor args l) (h : Clash a b) : countsAlign args = false := by
  have hc := blockCount_clash (List.mem_map_of_mem (f := List.length) ha) (List.mem_map_of_mem (f := List.length) hb) h.1
    h.2.1 h.2.2
  obtain ⟨g, hg, hp⟩ := mem_chunksFor.1 ha
  by_contra hne
  rw [Bool.not_eq_false] at hne
  unfold countsAlign at hne
  rw [List.all_eq_true] at hne
  have h1 := hne g hg
  rw [List.all_eq_true] at h1
  have h2 := h1 l (List.of_mem_zip hp).1
  rw [hc] at h2
  simp at h2

theorem badPair_antennas {rows : List Nat} {t a : Nat} {e : DArr V × DArr V} {d : DArr V} (hd : d = e.1 ∨ d = e.2)
    (hg : GoodChunks (d.axis a)) (h1 : 1 < (d.axis a).length) : badPair rows t a (some e) = true := by
  have : d.dim a ≠ (d.axis a).headD 0 := by
    unfold DArr.dim
    rcases hg with hg | ⟨_, hg⟩
    · rw [hg] at h1
      simp at h1
    · revert h1 hg
      rcases d.axis a with _ | ⟨p, _ | ⟨q, l⟩⟩
      · simp
      · simp
      · intro _ hq
        have := hq q (by simp)
        simp only [List.sum_cons, List.headD_cons]
        omega
  unfold badPair
  rcases hd with rfl | rfl
  · exact decide_eq_true (Or.inl this)
  · exact decide_eq_true (Or.inr (Or.inl this))

end generic

variable {K : Type} [CommRing K] [StarRing K] [Inhabited K]

/-- **C117** (2x2). -/
theorem C117_full_partial {time ant1 ant2 : DArr Nat} {x : Jones (DArr (M2 K))} {S R T C : List Nat}
    (h : PredictArgs time ant1 ant2 x S R T C) (red : Reduction) (hr : red.Ok S) :
    ∃ l, daskPredictVis fullKernel time ant1 ant2 x red = .ok l ∧ l.chunks = [R, C] ∧
      l.Agrees (npPredictVis fullKernel time.whole ant1.whole ant2.whole x.whole) := by
  obtain ⟨l, e1, e2, e3⟩ := daskPredictVis_blocks (fullKernel (K := K)) h red hr
  refine ⟨l, e1, e2, ?_⟩
  have := agrees_of_laws full_laws h red hr l e2 e3
  have hid : ∀ r : Except PyErr (NArr (M2 K)), r.map (NArr.map fun v => v) = r := by
    rintro (_ | _) <;> rfl
  rw [hid] at this
  unfold Lazy.map at this
  simp only [hid] at this
  exact this

/-- **C117** (one or two correlations). -/
theorem C117_diag_partial (ncorr : Nat) {time ant1 ant2 : DArr Nat} {x : Jones (DArr (Nat → K))} {S R T C : List Nat}
    (h : PredictArgs time ant1 ant2 x S R T C) (red : Reduction) (hr : red.Ok S) :
    ∃ l, daskPredictVis (diagKernel ncorr) time ant1 ant2 x red = .ok l ∧ l.chunks = [R, C] ∧ ∀ c < ncorr,
      (l.map (· c)).Agrees
        ((npPredictVis (diagKernel ncorr) time.whole ant1.whole ant2.whole x.whole).map (NArr.map (· c))) := by
  obtain ⟨l, e1, e2, e3⟩ := daskPredictVis_blocks (diagKernel (K := K) ncorr) h red hr
  exact ⟨l, e1, e2, fun c hc => agrees_of_laws (diag_laws hc) h red hr l e2 e3⟩

omit [Inhabited K] in
/-- **C117** What the prediction of whole arrays is: the Jones terms of every cell are the entries of its source, time, antenna,
row and channel, whichever of the arrays are supplied. -/
theorem C117_numpy (ns nr nt na nf : Nat) (time ant1 ant2 : List Nat → Nat) (tmin : Nat)
    (hm : IsMin nr (fun r => time [r]) tmin) (dde : Option ((List Nat → M2 K) × (List Nat → M2 K)))
    (coh : Option (List Nat → M2 K)) (die : Option ((List Nat → M2 K) × (List Nat → M2 K))) (bvis : Option (List Nat → M2 K))
    (hx : dde.isSome ∨ coh.isSome ∨ die.isSome ∨ bvis.isSome) :
    ∃ v, npPredictVis fullKernel ⟨[nr], time⟩ ⟨[nr], ant1⟩ ⟨[nr], ant2⟩
        ⟨dde.map fun e => (⟨[ns, nt, na, nf], e.1⟩, ⟨[ns, nt, na, nf], e.2⟩), coh.map fun c => ⟨[ns, nr, nf], c⟩,
          die.map fun g => (⟨[nt, na, nf], g.1⟩, ⟨[nt, na, nf], g.2⟩), bvis.map fun b => ⟨[nr, nf], b⟩⟩ = .ok v ∧
      v.shape = [nr, nf] ∧ ∀ r < nr, ∀ f < nf, v.val [r, f] = rime ns
        (dde.map fun e => (fun s => e.1 [s, time [r] - tmin, ant1 [r], f], fun s => e.2 [s, time [r] - tmin, ant2 [r], f]))
        (coh.map fun c s => c [s, r, f])
        (bvis.map fun b => b [r, f])
        (die.map fun g => (g.1 [time [r] - tmin, ant1 [r], f], g.2 [time [r] - tmin, ant2 [r], f])) := by
  set X : Jones (NArr (M2 K)) := ⟨dde.map fun e => (⟨[ns, nt, na, nf], e.1⟩, ⟨[ns, nt, na, nf], e.2⟩),
    coh.map fun c => ⟨[ns, nr, nf], c⟩, die.map fun g => (⟨[nt, na, nf], g.1⟩, ⟨[nt, na, nf], g.2⟩),
    bvis.map fun b => ⟨[nr, nf], b⟩⟩ with hX
  have hch : X.nchan = nf := by
    rcases dde with _ | e <;> rcases coh with _ | c <;> rcases die with _ | g <;> rcases bvis with _ | b <;>
      first | rfl | simp at hx
  have hsome : X.terms.dde.isSome ∨ X.terms.coh.isSome ∨ X.terms.die.isSome ∨ X.terms.bvis.isSome := by
    simpa [X, Jones.terms] using hx
  obtain ⟨v, h, hv⟩ := C34_predict_full X.nsrc nr nf (fun r => time [r]) (fun r => ant1 [r]) (fun r => ant2 [r]) tmin hm X.terms
    hsome
  refine ⟨visArray nr nf v, ?_, rfl, fun r hr f hf => ?_⟩
  · simp only [npPredictVis, List.getD_cons_zero, hch, h]
  · refine (hv r hr f hf).trans ?_
    rcases dde with _ | e <;> rcases coh with _ | c <;> rcases die with _ | g <;> rcases bvis with _ | b <;>
      rfl

/-- Three rows with times from 4 on: the hypothesis on the times of `C117_numpy` holds. -/
example : IsMin 3 (fun r => (fun i : List Nat => i.getD 0 0 + 4) [r]) 4 := ⟨⟨0, by omega, rfl⟩, fun r _ => by simp⟩

/-- **C117** (refusals). -/
theorem C117_refused {V : Type} [Inhabited V] (k : Kernel V) (time ant1 ant2 : DArr Nat) (x : Jones (DArr V)) (red : Reduction)
    (h : Refused time x) : daskPredictVis k time ant1 ant2 x red = .error .valueError := by
  unfold daskPredictVis
  by_cases h1 : badPair (time.axis 0) 1 2 x.dde = true
  · rw [if_pos h1]
  rw [if_neg h1]
  by_cases h2 : badPair (time.axis 0) 0 1 x.die = true
  · rw [if_pos h2]
  rw [if_neg h2]
  have sky : ∀ c, x.coh = some c → countsAlign (skyArgs time ant1 ant2 x) = false →
      skyLazy k time ant1 ant2 x red = .error .valueError ∧ x.coh.isSome = true := by
    intro c hc ha
    refine ⟨?_, by simp [hc]⟩
    cases red with
    | chain => simp [skyLazy, linearSky, ha]
    | tree t => simp [skyLazy, parallelSky, blockwiseRaw, ha]
  cases h with
  | ddeAntennas e h d hd hg hl => rw [h] at h1; exact absurd (badPair_antennas hd hg hl) h1
  | ddePair e h hc => rw [h] at h1; exact absurd (by simp [badPair, hc]) h1
  | ddeTimes e h hc => rw [h] at h1; exact absurd (by simp [badPair, hc]) h1
  | dieAntennas e h d hd hg hl => rw [h] at h2; exact absurd (badPair_antennas hd hg hl) h2
  | diePair e h hc => rw [h] at h2; exact absurd (by simp [badPair, hc]) h2
  | dieTimes e h hc => rw [h] at h2; exact absurd (by simp [badPair, hc]) h2
  | cohRows c h S R C R' hc ht hr =>
    obtain ⟨h3, h4⟩ := sky c h (countsAlign_clash (l := lRow) (a := R) (b := R')
      (mem_chunksFor.2 ⟨c.arg cohLabels, by simp [skyArgs, h], by simp [DArr.arg, hc, cohLabels]⟩)
      (mem_chunksFor.2 ⟨time.arg [lRow], by simp [skyArgs], by simp [DArr.arg, ht]⟩) hr)
    simp [h3, h4]
  | cohSources c h e he S R C S' T A C' hc hd hr =>
    obtain ⟨h3, h4⟩ := sky c h (countsAlign_clash (l := lSource) (a := S) (b := S')
      (mem_chunksFor.2 ⟨c.arg cohLabels, by simp [skyArgs, h], by simp [DArr.arg, hc, cohLabels]⟩)
      (mem_chunksFor.2 ⟨e.1.arg ddeLabels, by simp [skyArgs, he], by simp [DArr.arg, hd, ddeLabels]⟩) hr)
    simp [h3, h4]
  | cohChans c h e he S R C S' T A C' hc hd hr =>
    obtain ⟨h3, h4⟩ := sky c h (countsAlign_clash (l := lChan) (a := C) (b := C')
      (mem_chunksFor.2 ⟨c.arg cohLabels, by simp [skyArgs, h], by simp [DArr.arg, hc, cohLabels]⟩)
      (mem_chunksFor.2 ⟨e.1.arg ddeLabels, by simp [skyArgs, he], by simp [DArr.arg, hd, ddeLabels]⟩) hr)
    simp [h3, h4]
  | baseOnly h3 h4 h5 => simp [h3, h4, h5]

section violated

/-- Two rows at times 0 and 1 in two blocks, two blocks of times of DDEs equal to one, and coherencies 1 and 2 of the two
rows in one block. -/
def oddTime : DArr Nat := ⟨[[1, 1]], fun i => i.headD 0⟩
def oddAnt : DArr Nat := ⟨[[1, 1]], fun _ => 0⟩
noncomputable def oddDde : DArr (Nat → ℝ) := ⟨[[1], [1, 1], [1], [1]], fun _ _ => 1⟩
noncomputable def oddCoh : DArr (Nat → ℝ) := ⟨[[1], [2], [1]], fun i _ => (i.getD 1 0 : ℝ) + 1⟩
noncomputable def oddJones : Jones (DArr (Nat → ℝ)) := ⟨some (oddDde, oddDde), some oddCoh, none, none⟩

/-- **C117** fails for coherencies in one block of rows: dask accepts the call although the rows are in two blocks, and
uses the first coherency for both rows, so that the second visibility is 1 where numpy gives 2. -/
theorem C117_violated :
    ∃ l, daskPredictVis (diagKernel 1) oddTime oddAnt oddAnt oddJones .chain = .ok l ∧ l.chunks = [[1, 1], [1]] ∧
      (∃ a, l.block [1, 0] = .ok a ∧ a.val [0, 0] 0 = 1) ∧
      ∃ w, npPredictVis (diagKernel 1) oddTime.whole oddAnt.whole oddAnt.whole oddJones.whole = .ok w ∧
        w.shape = [2, 1] ∧ w.val [1, 0] 0 = 2 := by
  refine ⟨_, rfl, rfl, ⟨_, rfl, ?_⟩, _, rfl, rfl, ?_⟩
  · show (0 : ℝ) + 1 * (((0 : ℕ) : ℝ) + 1) * star 1 = 1
    simp
  · show (0 : ℝ) + 1 * (((1 : ℕ) : ℝ) + 1) * star 1 = 2
    simp
    norm_num

/-- The block is not the part of the numpy result. -/
theorem C117_not_agrees :
    ∃ l, daskPredictVis (diagKernel 1) oddTime oddAnt oddAnt oddJones .chain = .ok l ∧
      ¬ (l.map (· 0)).Agrees
        ((npPredictVis (diagKernel 1) oddTime.whole oddAnt.whole oddAnt.whole oddJones.whole).map (NArr.map (· 0))) := by
  obtain ⟨l, e1, e2, ⟨a, e3, e4⟩, w, e5, e6, e7⟩ := C117_violated
  refine ⟨l, e1, ?_⟩
  rw [e5]
  rintro ⟨_, h⟩
  obtain ⟨blk, h1, h2, h3⟩ := h [1, 0] (by simp [Lazy.map, e2, isBlock_cons, isBlock_nil])
  have h4 : blk = a.map (· 0) := by
    simp only [Lazy.map, e3, Except.map] at h1
    cases h1
    rfl
  have h5 := h3 [0, 0] (by
    rw [h2]
    simp [Lazy.map, e2, isIndex_cons, isIndex_nil, blockSize])
  rw [h4] at h5
  simp only [NArr.map, Lazy.map, e2, e4] at h5
  have h6 : (1 : ℝ) = w.val [1, 0] 0 := h5
  rw [e7] at h6
  norm_num at h6

end violated

section examples

/-- Three rows at times 5, 5, 6 in blocks of two and one, with blocks of one time, three sources and three channels, each in
two blocks, and everything supplied. -/
def exTime : DArr Nat := ⟨[[2, 1]], fun i => if i.headD 0 < 2 then 5 else 6⟩
noncomputable def exJones : Jones (DArr (M2 ℝ)) where
  dde := some (⟨[[2, 1], [1, 1], [4], [1, 2]], fun _ => 1⟩, ⟨[[2, 1], [1, 1], [4], [1, 2]], fun _ => 1⟩)
  coh := some ⟨[[2, 1], [2, 1], [1, 2]], fun i => (i.headD 0 : ℝ) • 1⟩
  die := some (⟨[[1, 1], [4], [1, 2]], fun _ => 1⟩, ⟨[[1, 1], [4], [1, 2]], fun _ => 1⟩)
  bvis := some ⟨[[2, 1], [1, 2]], fun _ => 1⟩

example : PredictArgs exTime ⟨[[2, 1]], fun _ => 0⟩ ⟨[[2, 1]], fun _ => 1⟩ exJones [2, 1] [2, 1] [1, 1] [1, 2] where
  timeChunks := rfl
  ant1Chunks := rfl
  ant2Chunks := rfl
  ddeChunks := by rintro e ⟨⟩; exact ⟨4, rfl, rfl⟩
  cohChunks := by rintro e ⟨⟩; rfl
  dieChunks := by rintro e ⟨⟩; exact ⟨4, rfl, rfl⟩
  bvisChunks := by rintro e ⟨⟩; rfl
  goodS := Or.inr (by decide)
  goodR := Or.inr (by decide)
  goodC := Or.inr (by decide)
  timeBlocks := rfl
  timeStarts := by
    intro tmin hm i hi
    have h5 : tmin = 5 := by
      obtain ⟨⟨r, hr, he⟩, hl⟩ := hm
      have h0 := hl 0 (by decide)
      simp only [exTime] at h0 he
      simp at h0
      split_ifs at he <;> omega
    subst h5
    have hi' : i < 2 := hi
    obtain rfl | rfl : i = 0 ∨ i = 1 := by omega
    · exact ⟨⟨0, by decide, rfl⟩, by decide⟩
    · exact ⟨⟨0, by decide, rfl⟩, by decide⟩
  supplied := Or.inl rfl

/-- Both reductions are admissible for the two source blocks. -/
example : Reduction.chain.Ok [2, 1] ∧ (Reduction.tree (.node (.leaf 1) (.leaf 0))).Ok [2, 1] :=
  ⟨trivial, by show List.Perm _ _; decide⟩

/-- Coherencies in three blocks of rows clash with two blocks of rows. -/
example : Refused (V := M2 ℝ) exTime ⟨none, some ⟨[[3], [1, 1, 1], [1]], fun _ => 1⟩, none, none⟩ :=
  .cohRows _ rfl [3] [1, 1, 1] [1] [2, 1] rfl rfl ⟨by decide, by decide, by decide⟩

end examples

end Verif.Dask
