/-
C112: averaging dask arrays.
-/
import Verif.Averaging.DaskLemmas
import Mathlib.Tactic.IntervalCases

set_option autoImplicit false
set_option linter.unusedSectionVars false

namespace Verif.Averaging

open Function

variable {K : Type*} [Field K] [DecidableEq K]

theorem numpy_ok {a : AvgCall K} {i : Nat} {out : AverageOutput K} (h : a.numpy i = .ok out) :
    let b := a.x.block (blockOff a.rowChunks i) 0 0
    ∃ fr, a.flags i = .ok fr ∧ a.rowMeta i = .ok out.rows ∧
      rowChanAverage a.sqrt (blockSize a.rowChunks i) a.chanChunks.sum a.corrChunks.sum out.rows fr
        (channelMapper a.chanChunks.sum a.bin).1 (channelMapper a.chanChunks.sum a.bin).2 b.cubeCols = .ok out.cubeData ∧
      out.rowData = rowAverage a.sqrt a.junk (blockSize a.rowChunks i) out.rows fr b.ant1 b.ant2 b.rowCols a.corrChunks.sum ∧
      out.chanData = chanAverage a.chanChunks.sum (channelMapper a.chanChunks.sum a.bin).1 b.chanFreq b.chanWidth
        b.effectiveBw b.resolution := by
  intro b
  unfold AvgCall.numpy timeAndChannel at h
  simp only at h
  split at h
  · cases h
  · rename_i fr hfr
    split at h
    · cases h
    · rename_i rm hrm
      split at h
      · cases h
      · rename_i cube hcube
        cases h
        have hf : a.flags i = .ok fr := hfr
        refine ⟨fr, hf, ?_, hcube, rfl, rfl⟩
        unfold AvgCall.rowMeta
        rw [hf]
        exact hrm

theorem numpy_error {a : AvgCall K} {i : Nat} {e : PyErr} (h : a.numpy i = .error e)
    (he : e ≠ .rowChannelAverageException) : a.rowMeta i = .error e := by
  unfold AvgCall.numpy timeAndChannel at h
  simp only at h
  unfold AvgCall.rowMeta
  split at h
  · rename_i e' hfr
    cases h
    rw [show a.flags i = .error e from hfr]
  · rename_i fr hfr
    rw [show a.flags i = .ok fr from hfr]
    split at h
    · rename_i e' hrm
      cases h
      exact hrm
    · rename_i rm hrm
      split at h
      · rename_i e' hcube
        cases h
        unfold rowChanAverage at hcube
        simp only at hcube
        split at hcube
        · cases hcube; exact absurd rfl he
        · cases hcube
      · cases h

theorem outChan_lt {bin : Nat} {l : List Nat} (h : BinAligned bin l) (hb : 1 ≤ bin) {k fo : Nat} (hk : k < l.length)
    (hfo : fo < blockSize (outChunks bin l) k) :
    blockOff (outChunks bin l) k + fo < (channelMapper l.sum bin).2 := by
  obtain ⟨⟨q, hq⟩, ho⟩ := aligned_off h hb k hk
  have hs : blockSize (outChunks bin l) k = (blockSize l k + bin - 1) / bin := by
    simp [blockSize, outChunks, List.getElem?_eq_getElem hk]
  rw [hs] at hfo
  rw [ho, hq, Nat.mul_div_cancel_left _ (by omega), (channelMapper_spec hb).2]
  have h1 : (fo + 1) * bin ≤ blockSize l k + bin - 1 := (Nat.le_div_iff_mul_le (by omega)).1 hfo
  have h2 : bin * fo < blockSize l k := by
    rw [Nat.add_mul, Nat.one_mul, Nat.mul_comm fo] at h1; omega
  have h3 := blockOff_lt h2
  refine (Nat.le_div_iff_mul_le (by omega)).2 ?_
  rw [Nat.succ_mul, Nat.add_mul, Nat.mul_comm q, Nat.mul_comm fo]
  omega

/-- A block of `row_chan_average` is the part of the whole result. -/
theorem cube_block {a : AvgCall K} {i k l : Nat} {out : AverageOutput K} (h : a.numpy i = .ok out) (hb : 1 ≤ a.bin)
    (hal : BinAligned a.bin a.chanChunks) (hk : k < a.chanChunks.length) :
    ∃ p, a.cube i k l = .ok p ∧
      List.Forall₂ (fun w v => match w, v with
        | none, none => True
        | some w, some v => Col.PartOf (a.region out.rows.outRows k l) w v
        | _, _ => False) p.tuple out.cubeData.tuple := by
  obtain ⟨fr, hfr, hrm, hcube, -, -⟩ := numpy_ok h
  unfold AvgCall.cube
  rw [hfr, hrm]
  simp only
  rw [block_block]
  generalize a.x.block (blockOff a.rowChunks i) 0 0 = b at *
  have hcm : (a.chanMeta k).2 = blockSize (outChunks a.bin a.chanChunks) k := by
    unfold AvgCall.chanMeta
    rw [(channelMapper_spec hb).2]
    simp [blockSize, outChunks, List.getElem?_eq_getElem hk]
  rw [hcm]
  unfold AvgCall.chanMeta
  have key := fun (fo : Nat) (hfo : fo < blockSize (outChunks a.bin a.chanChunks) k) (o co : Nat)
    (hco : co < blockSize a.corrChunks l) (s : Bool) => cubeLoop_block b (rm := out.rows) (fr := fr)
      (n := blockSize a.rowChunks i) hal hb hk hfo s (nc := blockSize a.corrChunks l) (ncorr := a.corrChunks.sum) o
      (blockOff a.corrChunks l) co hco (blockOff_lt hco)
  unfold rowChanAverage at hcube ⊢
  simp only at hcube ⊢
  generalize hP : cubeLoop (blockSize a.rowChunks i) (blockSize a.chanChunks k) (blockSize a.corrChunks l) out.rows fr
    (channelMapper (blockSize a.chanChunks k) a.bin).1
    (b.block 0 (blockOff a.chanChunks k) (blockOff a.corrChunks l)).cubeCols ⟨CubeAcc.zero, CubeAcc.zero⟩ = P at key ⊢
  generalize hW : cubeLoop (blockSize a.rowChunks i) a.chanChunks.sum a.corrChunks.sum out.rows fr
    (channelMapper a.chanChunks.sum a.bin).1 b.cubeCols ⟨CubeAcc.zero, CubeAcc.zero⟩ = W at key hcube
  split at hcube
  · cases hcube
  · rename_i hno
    rw [if_neg]
    · refine ⟨_, rfl, ?_⟩
      have hout := Except.ok.inj hcube
      rw [← hout]
      have kf := fun fo hfo o co hco => key fo hfo o co hco true
      have ku := fun fo hfo o co hco => key fo hfo o co hco false
      simp only [CubeState.pick, if_true, Bool.false_eq_true, if_false] at kf ku
      unfold RowChanAverageOutput.tuple
      refine .cons ?_ (.cons ?_ (.cons ?_ (.cons ?_ .nil)))
      · simp only [AvgIn.cubeCols, AvgIn.block]
        cases hv : b.vis with
        | none => trivial
        | some v =>
          intro r hr f hf c hc
          obtain ⟨u0, u1, -, -⟩ := ku f hf r c hc
          obtain ⟨-, f1, -, -⟩ := kf f hf r c hc
          obtain ⟨u1, u2⟩ := u1 (by simp [hv])
          obtain ⟨f1, f2⟩ := f1 (by simp [hv])
          simp only [AvgCall.region]
          rw [u0, u1, u2, f1, f2]
          rfl
      · simp only [AvgIn.cubeCols, AvgIn.block]
        cases hv : b.flag with
        | none => trivial
        | some v =>
          intro r hr f hf c hc
          obtain ⟨u0, -, -, -⟩ := ku f hf r c hc
          simp only [AvgCall.region]
          rw [u0]
          rfl
      · simp only [AvgIn.cubeCols, AvgIn.block]
        cases hv : b.weightSpectrum with
        | none => trivial
        | some v =>
          intro r hr f hf c hc
          obtain ⟨u0, -, u1, -⟩ := ku f hf r c hc
          obtain ⟨-, -, f1, -⟩ := kf f hf r c hc
          simp only [AvgCall.region]
          rw [u0, u1 (by simp [hv]), f1 (by simp [hv])]
          rfl
      · simp only [AvgIn.cubeCols, AvgIn.block]
        cases hv : b.sigmaSpectrum with
        | none => trivial
        | some v =>
          intro r hr f hf c hc
          obtain ⟨u0, -, -, u1⟩ := ku f hf r c hc
          obtain ⟨-, -, -, f1⟩ := kf f hf r c hc
          obtain ⟨u1, u2⟩ := u1 (by simp [hv])
          obtain ⟨f1, f2⟩ := f1 (by simp [hv])
          simp only [AvgCall.region]
          rw [u0, u1, u2, f1, f2]
          rfl
    · intro hex
      apply hno
      simp only [List.any_eq_true, List.mem_range, decide_eq_true_eq] at hex ⊢
      obtain ⟨r, hr, f, hf, c, hc, h1, h2⟩ := hex
      refine ⟨r, hr, _, outChan_lt hal hb hk hf, _, blockOff_lt hc, ?_, ?_⟩
      · have := (key f hf r c hc false).1
        simp only [CubeState.pick, Bool.false_eq_true, if_false] at this
        rw [← this]; exact h1
      · have := (key f hf r c hc true).1
        simp only [CubeState.pick, if_true] at this
        rw [← this]; exact h2

theorem rowChanAverage_isSome {sqrt : K → K} {n nchan ncorr : Nat} {rm : RowMapOutput} {fr : Option (Nat → Nat)}
    {cm : Nat → Nat} {oc : Nat} {cols : CubeCols K} {out : RowChanAverageOutput K}
    (h : rowChanAverage sqrt n nchan ncorr rm fr cm oc cols = .ok out) :
    out.vis.isSome = cols.vis.isSome ∧ out.flag.isSome = cols.flag.isSome ∧
    out.weightSpectrum.isSome = cols.weightSpectrum.isSome ∧ out.sigmaSpectrum.isSome = cols.sigmaSpectrum.isSome := by
  unfold rowChanAverage at h
  simp only at h
  split at h
  · cases h
  · cases h
    simp

theorem agrees_opt {α : Type*} {g : Region} {i k l : Nat} {present : Bool} {c : LazyCol K} {p w : Option α}
    {mk mk' : α → Col K} (hblk : c.block i k l = .ok (p.map mk)) (hp : p.isSome = present) (hw : w.isSome = present)
    (hpart : ∀ a b, p = some a → w = some b → Col.PartOf g (mk a) (mk' b))
    (ht : ∀ b, c.trail = (mk' b).trailing := by intro _; rfl) :
    LazyCol.Agrees g i k l (if present then some c else none) (w.map mk') := by
  cases present with
  | false =>
    rw [Option.isSome_eq_false_iff, Option.isNone_iff_eq_none] at hw
    rw [hw]; trivial
  | true =>
    obtain ⟨a, ha⟩ := Option.isSome_iff_exists.1 hp
    obtain ⟨b, hb⟩ := Option.isSome_iff_exists.1 hw
    subst ha hb
    exact ⟨ht b, mk a, hblk, hpart a b rfl rfl⟩

/-- The columns when the graph is built. -/
theorem dask_cols {a : AvgCall K} {cols : List (Option (LazyCol K))} (hd : daskTimeAndChannel a = .ok cols) :
    cols = [some (getItemRow (fun i => (a.rowMeta i).map RowMapOutput.tuple) 1 []),
      some (getItemRow (fun i => (a.rowMeta i).map RowMapOutput.tuple) 2 []),
      if a.x.flagRow.isSome || a.x.flag.isSome then
        some (getItemRow (fun i => (a.rowMeta i).map RowMapOutput.tuple) 3 []) else none] ++
      a.rowAverageCols (a.x.flagRow.isSome || a.x.flag.isSome) ++
      ([a.x.chanFreq.isSome, a.x.chanWidth.isSome, a.x.effectiveBw.isSome, a.x.resolution.isSome].mapIdx
        fun j p => if p then some (getItemChan (fun k => (a.chan k).tuple) j) else none) ++
      ([a.x.vis.isSome, a.x.flag.isSome, a.x.weightSpectrum.isSome, a.x.sigmaSpectrum.isSome].mapIdx
        fun j p => if p then some (getItemRowChan (fun i k l => (a.cube i k l).map RowChanAverageOutput.tuple) j)
          else none) := by
  unfold daskTimeAndChannel AvgCall.rowChanCols AvgCall.chanCols at hd
  by_cases hn : a.noChan = true
  · simp [hn, namedTuple, bind, Except.bind] at hd
  · simp only [hn, if_false, Bool.false_eq_true] at hd
    split at hd
    · cases hd
    · exact (Except.ok.inj hd).symm

/-- **C112** Averaging dask arrays: block `(i, k, l)` of every output is the part of the numpy average of row
chunk `i` that lies in channel chunk `k` and correlation chunk `l`, and outputs are absent for the same inputs,
provided all channel chunks but the last hold whole bins. Row columns with correlations only have the first
correlation chunk. -/
theorem C112_blocks_partial (a : AvgCall K) (cols : List (Option (LazyCol K))) (i k l : Nat) (out : AverageOutput K)
    (hb : 1 ≤ a.bin) (hal : BinAligned a.bin a.chanChunks) (hk : k < a.chanChunks.length)
    (hd : daskTimeAndChannel a = .ok cols) (h : a.numpy i = .ok out) :
    List.Forall₂ (LazyCol.Agrees (a.region out.rows.outRows k l) i k l) cols (out.tuple a.corrChunks.sum) := by
  obtain ⟨p, hp, hcube⟩ := cube_block (l := l) h hb hal hk
  obtain ⟨fr, hfr, hrm, hc, hrow, hchan⟩ := numpy_ok h
  have hsome : out.rows.flagRow.isSome = (a.x.flagRow.isSome || a.x.flag.isSome) := by
    have h1 : a.rowMeta i = .ok out.rows := hrm
    unfold AvgCall.rowMeta at h1
    rw [hfr] at h1
    rw [rowMapper_flagRow h1]
    have h2 : a.flags i = .ok fr := hfr
    unfold AvgCall.flags at h2
    rw [mergeFlags_isSome h2]
    simp [AvgIn.block]
  have hlen : blockSize a.corrChunks 0 ≤ a.corrChunks.sum := by
    cases a.corrChunks <;> simp [blockSize]
  have hrav : a.rowAvg i = .ok (rowAverage a.sqrt a.junk (blockSize a.rowChunks i) out.rows fr
      (a.x.block (blockOff a.rowChunks i) 0 0).ant1 (a.x.block (blockOff a.rowChunks i) 0 0).ant2
      (a.x.block (blockOff a.rowChunks i) 0 0).rowCols (blockSize a.corrChunks 0)) := by
    unfold AvgCall.rowAvg
    rw [hfr, hrm]
    simp [blockOff]
  have hcorr := rowAverage_corr a.sqrt a.junk (blockSize a.rowChunks i) out.rows fr
    (a.x.block (blockOff a.rowChunks i) 0 0).ant1 (a.x.block (blockOff a.rowChunks i) 0 0).ant2
    (a.x.block (blockOff a.rowChunks i) 0 0).rowCols _ _ hlen
  rw [← hrow] at hcorr
  obtain ⟨c1, c2, c3, c4, c5, c6, c7⟩ := hcorr
  rw [dask_cols hd]
  simp only [AvgCall.rowAverageCols, List.filter, List.map_cons, List.map_nil, List.mapIdx_cons, List.mapIdx_nil,
    List.cons_append, List.nil_append, Nat.zero_add, Nat.reduceAdd]
  unfold AverageOutput.tuple
  obtain ⟨s1, s2, s3, s4⟩ := rowChanAverage_isSome hc
  simp only [AvgIn.cubeCols, AvgIn.block, Option.isSome_map] at s1 s2 s3 s4
  unfold RowChanAverageOutput.tuple at hcube
  simp only [List.forall₂_cons] at hcube
  obtain ⟨q1, q2, q3, q4, -⟩ := hcube
  have rowItem : ∀ (idx : Nat) (tr : List Nat), (getItemRow (fun i => (a.rowAvg i).map
      (RowAverageOutput.tuple (blockSize a.corrChunks 0))) idx tr).block i k l = getItem (RowAverageOutput.tuple
        (blockSize a.corrChunks 0) _) idx := fun idx tr => by simp only [getItemRow, hrav]; rfl
  have cubeItem : ∀ (idx : Nat), (getItemRowChan (fun i k l => (a.cube i k l).map RowChanAverageOutput.tuple) idx).block
      i k l = getItem p.tuple idx := fun idx => by simp only [getItemRowChan, hp]; rfl
  have e : ∀ (idx : Nat), (getItemRow (K := K) (fun i => (a.rowMeta i).map RowMapOutput.tuple) idx []).block i k l =
      getItem out.rows.tuple idx := fun idx => by simp only [getItemRow, hrm]; rfl
  refine .cons ?_ (.cons ?_ (.cons ?_ (.cons ?_ (.cons ?_ (.cons ?_ (.cons ?_ (.cons ?_ (.cons ?_ (.cons ?_ (.cons ?_
    (.cons ?_ (.cons ?_ (.cons ?_ (.cons ?_ (.cons ?_ (.cons ?_ (.cons ?_ .nil)))))))))))))))))
  · exact ⟨rfl, _, e 1, fun _ _ => rfl⟩
  · exact ⟨rfl, _, e 2, fun _ _ => rfl⟩
  · rw [← hsome]
    cases hf : out.rows.flagRow with
    | none => trivial
    | some g => exact ⟨rfl, .nats g, (e 3).trans (by simp [getItem, RowMapOutput.tuple, hf]), fun _ _ => rfl⟩
  · exact ⟨rfl, _, rowItem 0 _, fun r _ => congrFun c1 r⟩
  · exact ⟨rfl, _, rowItem 1 _, fun r _ => congrFun c2 r⟩
  · exact agrees_opt (rowItem 2 _) (by simp [rowAverage, AvgIn.rowCols, AvgIn.block]) (by simp [hrow, rowAverage, AvgIn.rowCols, AvgIn.block])
      fun u v hu hv r _ => by rw [c3] at hu; cases hu.symm.trans hv; rfl
  · exact agrees_opt (rowItem 3 _) (by simp [rowAverage, AvgIn.rowCols, AvgIn.block]) (by simp [hrow, rowAverage, AvgIn.rowCols, AvgIn.block])
      fun u v hu hv r _ => by rw [c4] at hu; cases hu.symm.trans hv; rfl
  · exact agrees_opt (rowItem 4 _) (by simp [rowAverage, AvgIn.rowCols, AvgIn.block]) (by simp [hrow, rowAverage, AvgIn.rowCols, AvgIn.block])
      fun u v hu hv r _ => c5 u v hu hv r
  · exact agrees_opt (rowItem 5 _) (by simp [rowAverage, AvgIn.rowCols, AvgIn.block]) (by simp [hrow, rowAverage, AvgIn.rowCols, AvgIn.block])
      fun u v hu hv => ⟨rfl, fun r _ => c6 u v hu hv r⟩
  · exact agrees_opt (rowItem 6 _) (by simp [rowAverage, AvgIn.rowCols, AvgIn.block]) (by simp [hrow, rowAverage, AvgIn.rowCols, AvgIn.block])
      fun u v hu hv => ⟨rfl, fun r _ => c7 u v hu hv r⟩
  · refine agrees_opt (p := (a.chan k).chanFreq) rfl (by simp [AvgCall.chan, chanAverage, AvgIn.block])
      (by simp [hchan, chanAverage, AvgIn.block]) fun u v hu hv f hf => ?_
    simp only [AvgCall.chan, AvgCall.chanMeta, hchan, chanAverage, AvgIn.block] at hu hv
    cases hx : a.x.chanFreq with
    | none => rw [hx] at hu; cases hu
    | some x =>
      rw [hx] at hu hv
      simp only [Option.map_some, Option.some.injEq, Nat.zero_add] at hu hv
      subst hu hv
      have h1 := chanAverage_block hal hb hk hf x
      have h2 := chanAverage_block hal hb hk hf fun _ => (1 : Nat)
      simp only [AvgCall.region]
      rw [h1, h2]
  · refine agrees_opt (p := (a.chan k).chanWidth) rfl (by simp [AvgCall.chan, chanAverage, AvgIn.block])
      (by simp [hchan, chanAverage, AvgIn.block]) fun u v hu hv f hf => ?_
    simp only [AvgCall.chan, AvgCall.chanMeta, hchan, chanAverage, AvgIn.block] at hu hv
    cases hx : a.x.chanWidth with
    | none => rw [hx] at hu; cases hu
    | some x =>
      rw [hx] at hu hv
      simp only [Option.map_some, Option.some.injEq, Nat.zero_add] at hu hv
      subst hu hv
      exact chanAverage_block hal hb hk hf x
  · refine agrees_opt (p := (a.chan k).effectiveBw) rfl (by simp [AvgCall.chan, chanAverage, AvgIn.block])
      (by simp [hchan, chanAverage, AvgIn.block]) fun u v hu hv f hf => ?_
    simp only [AvgCall.chan, AvgCall.chanMeta, hchan, chanAverage, AvgIn.block] at hu hv
    cases hx : a.x.effectiveBw with
    | none => rw [hx] at hu; cases hu
    | some x =>
      rw [hx] at hu hv
      simp only [Option.map_some, Option.some.injEq, Nat.zero_add] at hu hv
      subst hu hv
      exact chanAverage_block hal hb hk hf x
  · refine agrees_opt (p := (a.chan k).resolution) rfl (by simp [AvgCall.chan, chanAverage, AvgIn.block])
      (by simp [hchan, chanAverage, AvgIn.block]) fun u v hu hv f hf => ?_
    simp only [AvgCall.chan, AvgCall.chanMeta, hchan, chanAverage, AvgIn.block] at hu hv
    cases hx : a.x.resolution with
    | none => rw [hx] at hu; cases hu
    | some x =>
      rw [hx] at hu hv
      simp only [Option.map_some, Option.some.injEq, Nat.zero_add] at hu hv
      subst hu hv
      exact chanAverage_block hal hb hk hf x
  · exact agrees_opt (p := p.vis) (cubeItem 0) (by rw [← s1]; cases hu : p.vis <;> cases hv : out.cubeData.vis <;>
      first | rfl | (rw [hu, hv] at q1; exact q1.elim)) s1 fun u v hu hv => by rw [hu, hv] at q1; exact q1
  · exact agrees_opt (p := p.flag) (cubeItem 1) (by rw [← s2]; cases hu : p.flag <;> cases hv : out.cubeData.flag <;>
      first | rfl | (rw [hu, hv] at q2; exact q2.elim)) s2 fun u v hu hv => by rw [hu, hv] at q2; exact q2
  · exact agrees_opt (p := p.weightSpectrum) (cubeItem 2) (by rw [← s3]; cases hu : p.weightSpectrum <;> cases hv : out.cubeData.weightSpectrum <;>
      first | rfl | (rw [hu, hv] at q3; exact q3.elim)) s3 fun u v hu hv => by rw [hu, hv] at q3; exact q3
  · exact agrees_opt (p := p.sigmaSpectrum) (cubeItem 3) (by rw [← s4]; cases hu : p.sigmaSpectrum <;> cases hv : out.cubeData.sigmaSpectrum <;>
      first | rfl | (rw [hu, hv] at q4; exact q4.elim)) s4 fun u v hu hv => by rw [hu, hv] at q4; exact q4

/-- **C112** When the numpy average of row chunk `i` raises, every row and every (row, chan, corr) output raises the
same error in that chunk. (`RowChannelAverageException`, which flags of 0 and 1 exclude, is left out.) -/
theorem C112_errors (a : AvgCall K) (cols : List (Option (LazyCol K))) (i k l : Nat) (e : PyErr)
    (hd : daskTimeAndChannel a = .ok cols) (h : a.numpy i = .error e) (he : e ≠ .rowChannelAverageException)
    (j : Nat) (c : LazyCol K) (hj : j < 10 ∨ 14 ≤ j) (hc : cols[j]? = some (some c)) :
    c.block i k l = .error e := by
  have hrm := numpy_error h he
  have hrav : a.rowAvg i = .error e := by
    unfold AvgCall.rowAvg
    cases hf : a.flags i with
    | error e' =>
      unfold AvgCall.rowMeta at hrm
      rw [hf] at hrm
      simp only
      exact congrArg _ (Except.error.inj hrm)
    | ok fr => simp only [hrm]
  have hcube : a.cube i k l = .error e := by
    unfold AvgCall.cube
    cases hf : a.flags i with
    | error e' =>
      unfold AvgCall.rowMeta at hrm
      rw [hf] at hrm
      simp only
      exact congrArg _ (Except.error.inj hrm)
    | ok fr => simp only [hrm]
  rw [dask_cols hd] at hc
  simp only [AvgCall.rowAverageCols, List.filter, List.map_cons, List.map_nil, List.mapIdx_cons, List.mapIdx_nil,
    List.cons_append, List.nil_append, Nat.zero_add, Nat.reduceAdd] at hc
  have hj' : j < 18 := by
    obtain ⟨h1, _⟩ := List.getElem?_eq_some_iff.1 hc
    simpa using h1
  have opt : ∀ {b : Bool} {x c : LazyCol K}, some (if b = true then some x else none) = some (some c) → x = c := by
    intro b x c h
    cases b
    · cases h
    · cases h; rfl
  have r1 : ∀ idx tr, (getItemRow (K := K) (fun i => (a.rowMeta i).map RowMapOutput.tuple) idx tr).block i k l = .error e :=
    fun idx tr => by simp only [getItemRow, hrm]; rfl
  have r2 : ∀ idx tr, (getItemRow (K := K) (fun i => (a.rowAvg i).map (RowAverageOutput.tuple
      (blockSize a.corrChunks 0))) idx tr).block i k l = .error e :=
    fun idx tr => by simp only [getItemRow, hrav]; rfl
  have r3 : ∀ idx, (getItemRowChan (K := K) (fun i k l => (a.cube i k l).map RowChanAverageOutput.tuple) idx).block i k l =
      .error e := fun idx => by simp only [getItemRowChan, hcube]; rfl
  interval_cases j
  · cases hc; exact r1 _ _
  · cases hc; exact r1 _ _
  · rw [← opt hc]; exact r1 _ _
  · cases hc; exact r2 _ _
  · cases hc; exact r2 _ _
  · rw [← opt hc]; exact r2 _ _
  · rw [← opt hc]; exact r2 _ _
  · rw [← opt hc]; exact r2 _ _
  · rw [← opt hc]; exact r2 _ _
  · rw [← opt hc]; exact r2 _ _
  · omega
  · omega
  · omega
  · omega
  · rw [← opt hc]; exact r3 _
  · rw [← opt hc]; exact r3 _
  · rw [← opt hc]; exact r3 _
  · rw [← opt hc]; exact r3 _

theorem refused_aux (a : AvgCall K) :
    (daskTimeAndChannel a = .error .typeError ↔ a.noChan = true) ∧
    (daskTimeAndChannel a = .error .valueError ↔ a.noChan = false ∧ a.x.weight = none ∧ a.x.vis = none ∧
      a.x.flag = none ∧ a.x.weightSpectrum = none ∧ a.x.sigmaSpectrum = none) := by
  unfold daskTimeAndChannel AvgCall.rowChanCols AvgCall.chanCols
  cases hn : a.noChan
  · by_cases hc : (!(a.x.weight.isSome || a.x.vis.isSome || a.x.flag.isSome || a.x.weightSpectrum.isSome ||
      a.x.sigmaSpectrum.isSome)) = true
    · simp only [hc, if_true, Bool.false_eq_true, if_false, bind, Except.bind]
      simp at hc
      simp [hc]
    · simp only [hc, if_false, Bool.false_eq_true, bind, Except.bind]
      refine ⟨by simp, by simp, ?_⟩
      rintro ⟨-, h1, h2, h3, h4, h5⟩
      simp [h1, h2, h3, h4, h5] at hc
  · simp [namedTuple, bind, Except.bind]

/-- **C112** When the graph is refused: `TypeError` without any array with a channel axis, `ValueError` when only
channel arrays have one and no weights are given. -/
theorem C112_refused (a : AvgCall K) :
    (daskTimeAndChannel a = .error .typeError ↔ a.x.vis = none ∧ a.x.flag = none ∧ a.x.weightSpectrum = none ∧
      a.x.sigmaSpectrum = none ∧ a.x.chanFreq = none ∧ a.x.chanWidth = none ∧ a.x.effectiveBw = none ∧
      a.x.resolution = none) ∧
    (daskTimeAndChannel a = .error .valueError ↔ (a.x.chanFreq.isSome ∨ a.x.chanWidth.isSome ∨ a.x.effectiveBw.isSome ∨
      a.x.resolution.isSome) ∧ a.x.weight = none ∧ a.x.vis = none ∧ a.x.flag = none ∧ a.x.weightSpectrum = none ∧
      a.x.sigmaSpectrum = none) := by
  have key := refused_aux a
  have h1 : a.noChan = true ↔ a.x.vis = none ∧ a.x.flag = none ∧ a.x.weightSpectrum = none ∧
      a.x.sigmaSpectrum = none ∧ a.x.chanFreq = none ∧ a.x.chanWidth = none ∧ a.x.effectiveBw = none ∧
      a.x.resolution = none := by
    simp [AvgCall.noChan, and_assoc]
  refine ⟨key.1.trans h1, key.2.trans ?_⟩
  rw [← Bool.not_eq_true, h1]
  simp only [← Option.ne_none_iff_isSome, ne_eq]
  tauto

/-- **C112** (disagreement) Averaging only channel arrays: numpy accepts the arguments, dask refuses them. -/
theorem C112_chan_only_violated : ∃ (a : AvgCall ℚ) (out : AverageOutput ℚ), a.rowChunks = [2] ∧ a.chanChunks = [4] ∧
    a.x.chanFreq.isSome ∧ a.numpy 0 = .ok out ∧ daskTimeAndChannel a = .error .valueError := by
  let a : AvgCall ℚ :=
    { sqrt := id, junk := fun _ => 0, sentinel := 1000, rowChunks := [2], chanChunks := [4], corrChunks := []
      x := { time := fun r => r, interval := fun _ => 1, ant1 := fun _ => 0, ant2 := fun _ => 1
             chanFreq := some fun f => f }
      secs := 10, bin := 2 }
  obtain ⟨out, h⟩ := (C06_time_and_channel_outcome (K := ℚ) id (fun _ => 0) 1000 2 4 0 (fun r => ((0 + r : Nat) : ℚ)) (fun _ => 1)
    (fun _ => 0) (fun _ => 1) none ⟨none, none, none, none, none⟩ (some fun f => ((0 + f : Nat) : ℚ)) none none none
    ⟨none, none, none, none, none⟩ 10 2 (by unfold IsInt32; decide)
    (by
      have hs : ∀ r < (2 : Nat), ((0 + r : Nat) : ℚ) < 1000 := by decide +kernel
      exact hs)
    (by intro f hf; cases hf) (by omega) True
    (iff_of_true trivial ⟨by unfold NoDup; decide +kernel, fun fr fl h => by cases h⟩)).1 trivial
  exact ⟨a, out, rfl, rfl, rfl, h, (C112_refused a).2.2 ⟨Or.inl rfl, rfl, rfl, rfl, rfl, rfl⟩⟩

/-- **C112** (disagreement) Weights in several correlation chunks: the averaged weights are declared with all
correlations, but every block holds those of the first chunk only. -/
theorem C112_corr_chunks_violated (a : AvgCall K) (cols : List (Option (LazyCol K))) (i k l : Nat)
    (out : AverageOutput K) (hb : 1 ≤ a.bin) (hal : BinAligned a.bin a.chanChunks) (hk : k < a.chanChunks.length)
    (hd : daskTimeAndChannel a = .ok cols) (h : a.numpy i = .ok out) (hw : a.x.weight.isSome)
    (hc : blockSize a.corrChunks 0 ≠ a.corrChunks.sum) :
    ∃ c n w, cols[8]? = some (some c) ∧ c.trail = [a.corrChunks.sum] ∧ c.block i k l = .ok (some (.rowCorr n w)) ∧
      n ≠ a.corrChunks.sum := by
  have hagree := C112_blocks_partial a cols i k l out hb hal hk hd h
  have hcol : cols[8]? = some (some (getItemRow (fun i => (a.rowAvg i).map
      (RowAverageOutput.tuple (blockSize a.corrChunks 0))) 5 [a.corrChunks.sum])) := by
    rw [dask_cols hd]
    simp [AvgCall.rowAverageCols, List.mapIdx_cons, hw]
  have h8 := List.forall₂_iff_get.1 hagree
  obtain ⟨hl, hg⟩ := List.getElem?_eq_some_iff.1 hcol
  have hl2 : 8 < (out.tuple a.corrChunks.sum).length := by rw [← h8.1]; exact hl
  have h8 := h8.2 8 hl hl2
  simp only [List.get_eq_getElem] at h8
  rw [hg] at h8
  have he : (out.tuple a.corrChunks.sum)[8] = out.rowData.weight.map (.rowCorr a.corrChunks.sum) := rfl
  rw [he] at h8
  cases hx : out.rowData.weight with
  | none => rw [hx] at h8; exact h8.elim
  | some v =>
    rw [hx] at h8
    obtain ⟨-, w, hw1, hw2⟩ := h8
    cases w with
    | rowCorr n w => exact ⟨_, n, w, hcol, rfl, hw1, by rw [hw2.1]; exact hc⟩
    | _ => exact hw2.elim

/-- The hypotheses are met: 2 rows in one chunk, 5 channels in chunks of 4 and 1, bins of 2, two correlation
chunks, visibilities and weights. -/
example : ∃ (a : AvgCall ℚ) (cols : List (Option (LazyCol ℚ))) (out : AverageOutput ℚ), 1 ≤ a.bin ∧
    BinAligned a.bin a.chanChunks ∧ a.chanChunks = [4, 1] ∧ a.corrChunks = [1, 1] ∧ daskTimeAndChannel a = .ok cols ∧
    a.numpy 0 = .ok out ∧ a.x.weight.isSome ∧ blockSize a.corrChunks 0 ≠ a.corrChunks.sum := by
  let a : AvgCall ℚ :=
    { sqrt := id, junk := fun _ => 0, sentinel := 1000, rowChunks := [2], chanChunks := [4, 1], corrChunks := [1, 1]
      x := { time := fun r => r, interval := fun _ => 1, ant1 := fun _ => 0, ant2 := fun _ => 1
             weight := some fun _ _ => 1, vis := some fun r f c => r + f + c }
      secs := 10, bin := 2 }
  obtain ⟨out, h⟩ := (C06_time_and_channel_outcome (K := ℚ) id (fun _ => 0) 1000 2 5 2 (fun r => ((0 + r : Nat) : ℚ)) (fun _ => 1)
    (fun _ => 0) (fun _ => 1) none (a.x.block 0 0 0).rowCols none none none none
    (a.x.block 0 0 0).cubeCols 10 2 (by unfold IsInt32; decide)
    (by
      have hs : ∀ r < (2 : Nat), ((0 + r : Nat) : ℚ) < 1000 := by decide +kernel
      exact hs)
    (by intro f hf; cases hf) (by omega) True
    (iff_of_true trivial ⟨by unfold NoDup; decide +kernel, fun fr fl h => by cases h⟩)).1 trivial
  refine ⟨a, _, out, by decide, ?_, rfl, rfl, rfl, h, rfl, by decide⟩
  intro k hk
  have : k = 0 := by
    have : k + 1 < 2 := hk
    omega
  subst this
  decide

end Verif.Averaging
