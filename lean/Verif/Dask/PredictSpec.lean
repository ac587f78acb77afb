/-
Specification for C117: which dask arrays `predict_vis` is meant for, and which it refuses.
-/
import Verif.Dask.Predict
import Verif.Rime.Spec

set_option autoImplicit false

namespace Verif.Dask

open Verif.Rime

variable {V : Type}

/-- Hypotheses of `predict_vis`: `S`, `R`, `T`, `C` are the chunks of sources, rows, times and channels, the antennas are in
one block, and the rows of a block start at the first time of the block of times. -/
structure PredictArgs (time ant1 ant2 : DArr Nat) (x : Jones (DArr V)) (S R T C : List Nat) : Prop where
  timeChunks : time.chunks = [R]
  ant1Chunks : ant1.chunks = [R]
  ant2Chunks : ant2.chunks = [R]
  ddeChunks : ∀ e, x.dde = some e → ∃ n, e.1.chunks = [S, T, [n], C] ∧ e.2.chunks = [S, T, [n], C]
  cohChunks : ∀ c, x.coh = some c → c.chunks = [S, R, C]
  dieChunks : ∀ e, x.die = some e → ∃ n, e.1.chunks = [T, [n], C] ∧ e.2.chunks = [T, [n], C]
  bvisChunks : ∀ b, x.bvis = some b → b.chunks = [R, C]
  goodS : GoodChunks S
  goodR : GoodChunks R
  goodC : GoodChunks C
  timeBlocks : T.length = R.length
  timeStarts : ∀ tmin, IsMin R.sum (fun r => time.val [r]) tmin → ∀ i < R.length,
    IsMin (blockSize R i) (fun r => time.val [blockOff R i + r]) (tmin + blockOff T i)
  supplied : x.dde.isSome ∨ x.coh.isSome ∨ x.die.isSome

/-- The whole arrays. -/
def Jones.whole (x : Jones (DArr V)) : Jones (NArr V) where
  dde := x.dde.map fun e => (e.1.whole, e.2.whole)
  coh := x.coh.map DArr.whole
  die := x.die.map fun e => (e.1.whole, e.2.whole)
  bvis := x.bvis.map DArr.whole

/-- The tree has every source block once. -/
def Reduction.Ok (S : List Nat) : Reduction → Prop
  | .chain => True
  | .tree t => t.leaves.Perm (List.range S.length)

/-- One component of every element. -/
def NArr.map {α β : Type*} (φ : α → β) (a : NArr α) : NArr β := ⟨a.shape, fun i => φ (a.val i)⟩

/-- One component of every element of every block. -/
def Lazy.map {α β : Type*} (φ : α → β) (l : Lazy α) : Lazy β := ⟨l.chunks, fun b => (l.block b).map (NArr.map φ)⟩

/-- Numbers of blocks that cannot go together: they differ, and neither is one. -/
def Clash (a b : List Nat) : Prop := a.length ≠ b.length ∧ a.length ≠ 1 ∧ b.length ≠ 1

/-- Chunks that `predict_vis` refuses: antennas in several blocks, the two arrays of a pair cut differently, another
number of blocks of times than of rows; coherencies whose numbers of blocks clash with those of the other arrays; and no
array besides base visibilities. -/
inductive Refused (time : DArr Nat) (x : Jones (DArr V)) : Prop
  | ddeAntennas (e : DArr V × DArr V) (h : x.dde = some e) (d : DArr V) (hd : d = e.1 ∨ d = e.2) (hg : GoodChunks (d.axis 2))
      (h1 : 1 < (d.axis 2).length)
  | ddePair (e : DArr V × DArr V) (h : x.dde = some e) (hc : e.1.chunks ≠ e.2.chunks)
  | ddeTimes (e : DArr V × DArr V) (h : x.dde = some e) (hc : (e.1.axis 1).length ≠ (time.axis 0).length)
  | dieAntennas (e : DArr V × DArr V) (h : x.die = some e) (d : DArr V) (hd : d = e.1 ∨ d = e.2) (hg : GoodChunks (d.axis 1))
      (h1 : 1 < (d.axis 1).length)
  | diePair (e : DArr V × DArr V) (h : x.die = some e) (hc : e.1.chunks ≠ e.2.chunks)
  | dieTimes (e : DArr V × DArr V) (h : x.die = some e) (hc : (e.1.axis 0).length ≠ (time.axis 0).length)
  | cohRows (c : DArr V) (h : x.coh = some c) (S R C R' : List Nat) (hc : c.chunks = [S, R, C]) (ht : time.chunks = [R'])
      (hr : Clash R R')
  | cohSources (c : DArr V) (h : x.coh = some c) (e : DArr V × DArr V) (he : x.dde = some e) (S R C S' T A C' : List Nat)
      (hc : c.chunks = [S, R, C]) (hd : e.1.chunks = [S', T, A, C']) (hs : Clash S S')
  | cohChans (c : DArr V) (h : x.coh = some c) (e : DArr V × DArr V) (he : x.dde = some e) (S R C S' T A C' : List Nat)
      (hc : c.chunks = [S, R, C]) (hd : e.1.chunks = [S', T, A, C']) (hs : Clash C C')
  | baseOnly (h1 : x.dde = none) (h2 : x.coh = none) (h3 : x.die = none)

end Verif.Dask
