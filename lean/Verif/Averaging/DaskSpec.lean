/-
What it means for a block of a lazy column to be part of a numpy column.
-/
import Verif.Averaging.Dask

set_option autoImplicit false

namespace Verif.Averaging

/-- Extents of a block of averaged data and where it starts: `rows` output rows, `chans` output channels from
`f0`, `corrs` correlations from `c0`; `rowCorrs` is the number of correlations of the row columns. -/
structure Region where
  rows : Nat
  chans : Nat
  f0 : Nat
  corrs : Nat
  c0 : Nat
  rowCorrs : Nat

/-- Column `w` of a block holds the entries of the numpy column `v` that belong to the region. -/
def Col.PartOf {K : Type*} (g : Region) : Col K → Col K → Prop
  | .nats a, .nats b => ∀ r < g.rows, a r = b r
  | .rats a, .rats b => ∀ r < g.rows, a r = b r
  | .ints a, .ints b => ∀ r < g.rows, a r = b r
  | .row a, .row b => ∀ r < g.rows, a r = b r
  | .uvw a, .uvw b => ∀ r < g.rows, ∀ u < 3, a r u = b r u
  | .rowCorr n a, .rowCorr _ b => n = g.rowCorrs ∧ ∀ r < g.rows, ∀ c < n, a r c = b r c
  | .chan a, .chan b => ∀ f < g.chans, a f = b (g.f0 + f)
  | .flags a, .flags b => ∀ r < g.rows, ∀ f < g.chans, ∀ c < g.corrs, a r f c = b r (g.f0 + f) (g.c0 + c)
  | .cube a, .cube b => ∀ r < g.rows, ∀ f < g.chans, ∀ c < g.corrs, a r f c = b r (g.f0 + f) (g.c0 + c)
  | _, _ => False

/-- The extents of the axes after the rows which are known when the graph is built. -/
def Col.trailing {K : Type*} : Col K → List Nat
  | .uvw _ => [3]
  | .rowCorr n _ => [n]
  | _ => []

/-- A lazy column is absent exactly when the numpy column is, and otherwise declares the trailing extents of the
numpy column and its block `(i, k, l)` is the part of the numpy column in the region. -/
def LazyCol.Agrees {K : Type*} (g : Region) (i k l : Nat) : Option (LazyCol K) → Option (Col K) → Prop
  | none, none => True
  | some c, some v => c.trail = v.trailing ∧ ∃ w, c.block i k l = .ok (some w) ∧ w.PartOf g v
  | _, _ => False

/-- The channel chunks of the averaged data: each input chunk divided by the bin size, rounded up. -/
def outChunks (bin : Nat) (chunks : List Nat) : List Nat := chunks.map fun c => (c + bin - 1) / bin

/-- Every channel chunk but the last holds a whole number of bins. -/
def BinAligned (bin : Nat) (chunks : List Nat) : Prop := ∀ k, k + 1 < chunks.length → bin ∣ blockSize chunks k

/-- The part of the averaged data in block `(i, k, l)`: the output channels of channel chunk `k` and the
correlations of correlation chunk `l`. -/
def AvgCall.region {K : Type*} (a : AvgCall K) (rows k l : Nat) : Region where
  rows := rows
  chans := blockSize (outChunks a.bin a.chanChunks) k
  f0 := blockOff (outChunks a.bin a.chanChunks) k
  corrs := blockSize a.corrChunks l
  c0 := blockOff a.corrChunks l
  rowCorrs := blockSize a.corrChunks 0

end Verif.Averaging
