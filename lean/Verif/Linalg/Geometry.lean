/-
Model of africanus/linalg/geometry.py.

Vertices are integer points (as in the package's use; `BoundingBox` insists on it). Pixels of masks are pairs `(y, x)`, points are
pairs `(x, y)`, as in the code. Mask weights and image values are rationals. `scipy.spatial.ConvexHull` is a parameter that gives
the hull's vertices in counter-clockwise order, or raises.
-/
import Verif.Basic
import Mathlib.Data.Rat.Defs
import Mathlib.Algebra.Order.Field.Rat
import Mathlib.Data.List.Dedup

set_option autoImplicit false

namespace Verif.Linalg.Geometry

/-- A point `(x, y)` (linalg/geometry.py:54). -/
abbrev Pt := Int × Int

/-- `spat.ConvexHull` (geometry.py:60, 369): the vertices in counter-clockwise order, or an exception. -/
abbrev HullFn := List Pt → Except PyErr (List Pt)

/-- `np.min` of a non-empty list (hulls have vertices, so the empty case is not met) (linalg/geometry.py:81-84). -/
def listMin : List Int → Int
  | [] => 0
  | a :: l => l.foldl min a

/-- `np.max` of a non-empty list (linalg/geometry.py:81-84). -/
def listMax : List Int → Int
  | [] => 0
  | a :: l => l.foldl max a

/-- Smallest `x`, e.g. geometry.py:80-81: the lines contain each corner twice, which does not change the minimum. -/
def minX (c : List Pt) : Int := listMin (c.map Prod.fst)
/-- Largest `x` (geometry.py:82). -/
def maxX (c : List Pt) : Int := listMax (c.map Prod.fst)
/-- Smallest `y` (geometry.py:83). -/
def minY (c : List Pt) : Int := listMin (c.map Prod.snd)
/-- Largest `y` (geometry.py:84). -/
def maxY (c : List Pt) : Int := listMax (c.map Prod.snd)

/-- A `BoundingConvexHull` or `BoundingBox`: `vertices` (geometry.py:54), `corners` (geometry.py:366-369, clockwise), sparse mask of `(y, x)`
pixels and weights (geometry.py:62-64); `isBox` tells the subclass, whose mask is an array rather than a list; `npx` is the box's
`box_npx` (geometry.py:487-488, 528-529). -/
structure Region where
  vertices : List Pt
  corners : List Pt
  mask : List (Int × Int)
  weights : List Rat
  isBox : Bool
  npx : Int × Int

/-! ### Normals and membership -/

/-- The following corner (geometry.py:376). -/
def nextCorner (c : List Pt) (i : Nat) : Pt := c.getD ((i + 1) % c.length) (0, 0)

/-- The edge vectors (geometry.py:375-377). -/
def edgeVec (c : List Pt) (i : Nat) : Pt :=
  let p := c.getD i (0, 0)
  let q := nextCorner c i
  (q.1 - p.1, q.2 - p.2)

/-- `lnormals` (geometry.py:371-382, 401-404). -/
def lnormals (c : List Pt) : List Pt := (List.range c.length).map fun i => (-(edgeVec c i).2, (edgeVec c i).1)

/-- `rnormals` (geometry.py:371-382, 406-409). -/
def rnormals (c : List Pt) : List Pt := (List.range c.length).map fun i => ((edgeVec c i).2, -(edgeVec c i).1)

/-- `BoundingConvexHull.__contains__` (geometry.py:456-475). -/
def hullContains (c : List Pt) (s : Rat × Rat) : Bool :=
  (List.range c.length).all fun i =>
    let n := (rnormals c).getD i (0, 0)
    let p := c.getD i (0, 0)
    decide ((n.1 : Rat) * (s.1 - p.1) + (n.2 : Rat) * (s.2 - p.2) > -(1 / 2))

/-- `BoundingBox.__contains__` (geometry.py:518-525). -/
def boxContains (c : List Pt) (s : Rat × Rat) : Bool :=
  decide (s.1 ≥ minX c ∧ s.1 ≤ maxX c ∧ s.2 ≥ minY c ∧ s.2 ≤ maxY c)

/-- A half-open integer range, `np.arange(lo, hi, 1)` (linalg/geometry.py:85-86). -/
def arange (lo hi : Int) : List Int := (List.range (hi - lo).toNat).map fun k : Nat => lo + (k : Int)

/-- The bounding mesh, `(y, x)` pixels with `x` varying slowest (geometry.py:85-87). -/
def mesh (c : List Pt) : List (Int × Int) :=
  (arange (minX c) (maxX c + 1)).flatMap fun x => (arange (minY c) (maxY c + 1)).map fun y => (y, x)

/-- `BoundingConvexHull.__init__` (geometry.py:35-64, 76-97, 111-133). -/
def mkHull (hull : HullFn) (pts : List Pt) (mask : Option (List (Int × Int))) (check : Bool) : Except PyErr Region :=
  match hull pts with
  | .error e => .error e
  | .ok vs =>
    let c := vs.reverse
    let m := (mask.getD (mesh c)).filter fun p => !check || hullContains c ((p.2 : Rat), (p.1 : Rat))
    .ok ⟨pts, c, m, m.map fun _ => 1, false, (0, 0)⟩

/-- `BoundingBox.__init__` (geometry.py:479-495, 497-516, 538-573): a given mask is cut to the box. -/
def mkBox (hull : HullFn) (xl xu yl yu : Int) (mask : Option (List (Int × Int))) : Except PyErr Region :=
  match hull [(xl, yl), (xl, yu), (xu, yu), (xu, yl)] with
  | .error e => .error e
  | .ok vs =>
    let c := vs.reverse
    let m := match mask with
      | none => mesh c
      | some m => m.filter fun p => decide (p.2 ≥ minX c ∧ p.2 ≤ maxX c ∧ p.1 ≥ minY c ∧ p.1 ≤ maxY c)
    .ok ⟨[(xl, yl), (xl, yu), (xu, yu), (xu, yl)], c, m, m.map fun _ => 1, true, (|xu - xl + 1|, |yu - yl + 1|)⟩

/-- Membership as the class of the region decides (linalg/geometry.py:456-476, 518-525). -/
def Region.contains (r : Region) (s : Rat × Rat) : Bool := if r.isBox then boxContains r.corners s else hullContains r.corners s

/-! ### Factories -/

/-- The rounding of `centre` towards zero (geometry.py:449-450) of the mean of a list. -/
def meanTrunc (l : List Int) : Int := Int.tdiv l.sum l.length

/-- `centre` (geometry.py:444-452). -/
def centre (r : Region) : Int × Int := (meanTrunc (r.vertices.map Prod.fst), meanTrunc (r.vertices.map Prod.snd))

/-- The limits of `AxisAlignedBoundingBox` (geometry.py:663-685). -/
def alignedLimits (r : Region) (square : Bool) : Int × Int × Int × Int :=
  if square then
    let nx := maxX r.corners - minX r.corners + 1
    let ny := maxY r.corners - minY r.corners + 1
    let diam := max nx ny
    let rad := diam / 2
    let (cx, cy) := centre r
    (cx - rad, cx + diam - rad - 1, cy - rad, cy + diam - rad - 1)
  else (minX r.corners, maxX r.corners, minY r.corners, maxY r.corners)

/-- `AxisAlignedBoundingBox` (geometry.py:655-698). -/
def alignedBox (hull : HullFn) (r : Region) (square odd : Bool) : Except PyErr Region :=
  let (xl, xu, yl, yu) := alignedLimits r square
  mkBox hull xl (xu + if odd then (xu - xl) % 2 else 0) yl (yu + if odd then (yu - yl) % 2 else 0) (some r.mask)

/-- The ceiling of `a / n` (geometry.py:714-719; the float quotient is taken to be exact). -/
def ceilDiv (a n : Int) : Int := -((-a) / n)

/-- The limits of the sub-intervals of one axis (geometry.py:714-735): the last upper limit is replaced. -/
def splitAxis (l u : Int) (n : Nat) : List (Int × Int) :=
  let k := ceilDiv (u - l + 1) n
  (List.range n).map fun i : Nat => (l + i * k,
    if i + 1 = n then max u (min (l + (i + 1) * k - 1) u) else l + (i + 1) * k - 1)

/-- `SplitBox` (geometry.py:700-763). -/
def splitBox (hull : HullFn) (b : Region) (n : Int) : Except PyErr (List Region) :=
  if n ≥ 1 then
    ((splitAxis (minY b.corners) (maxY b.corners) n.toNat).flatMap fun y =>
      (splitAxis (minX b.corners) (maxX b.corners) n.toNat).map fun x => (x, y)).mapM fun p =>
        mkBox hull p.1.1 p.1.2 p.2.1 p.2.2 (some b.mask)
  else .error .valueError

/-- `PadBox` (geometry.py:765-793). -/
def padBox (hull : HullFn) (b : Region) (dnx dny : Int) : Except PyErr Region :=
  if dnx - b.npx.1 < 0 ∨ dny - b.npx.2 < 0 then .error .valueError
  else
    let left := dnx / 2
    let right := dnx - left - 1
    let bottom := dny / 2
    let top := dny - bottom - 1
    let (cx, cy) := centre b
    mkBox hull (cx - left) (cx + right) (cy - bottom) (cy + top) (some b.mask)

/-! ### Masks -/

/-- The last weight given to a pixel (geometry.py:161-165: later assignments overwrite earlier ones), zero if there is none. -/
def weightOf (m : List (Int × Int)) (w : List Rat) (p : Int × Int) : Rat := (((m.zip w).reverse.lookup p).getD 0)

/-- The value at `(y, x)`, relative to the lower corner, of the filled `mask` (geometry.py:135-166), not cached. -/
def filledMask (r : Region) (y x : Int) : Rat :=
  if 0 ≤ y ∧ y < maxY r.corners - minY r.corners + 1 ∧ 0 ≤ x ∧ x < maxX r.corners - minX r.corners + 1 then
    weightOf r.mask r.weights (minY r.corners + y, minX r.corners + x)
  else 0

/-- The flat index (geometry.py:299-301). -/
def flatten (nx : Int) (p : Int × Int) : Int := p.1 * nx + p.2

/-- numpy's integer quotient and remainder (geometry.py:316); both are zero for a zero divisor. -/
def unflatten (nx : Int) (f : Int) : Int × Int := if nx = 0 then (0, 0) else (Int.fdiv f nx, Int.fmod f nx)

/-- The pixels that are painted, with the reciprocal counts (geometry.py:298-319). `np.unique` sorts; the order does not matter
here, because the pixels are different, and is not modelled. -/
def paintCounts (all : List (Int × Int)) (onlyOverlapped : Bool) : List (Rat × (Int × Int)) :=
  let nx := listMax (all.map Prod.snd) + 1
  let flat := all.map (flatten nx)
  let uniq := flat.dedup.filter fun f => !onlyOverlapped || decide (flat.count f > 1)
  uniq.map fun f => (1 / (flat.count f : Rat), unflatten nx f)

/-- Setting the weights of one pixel (geometry.py:329-335): the first occurrence in a list, all occurrences in an array. -/
def setWeight (isBox : Bool) (m : List (Int × Int)) (w : List Rat) (px : Int × Int) (v : Rat) : List Rat :=
  if isBox then (m.zip w).map fun q => if q.1 = px then v else q.2
  else w.set (m.idxOf px) v

/-- Updating one region (geometry.py:322-335). For an array `in` also holds for some pixels that are not in the mask; setting
their weights does nothing. -/
def updateRegion (counts : List (Rat × (Int × Int))) (r : Region) : Region :=
  { r with weights := (counts.filter fun x => decide (x.2 ∈ r.mask)).foldl (fun w x => setWeight r.isBox r.mask w x.2 x.1) r.weights }

/-- `normalize_masks` (geometry.py:274-335); indexing an empty array with two indices raises `IndexError`. -/
def normalizeMasks (regions : List Region) (onlyOverlapped : Bool) : Except PyErr (List Region) :=
  let all := regions.flatMap Region.mask
  if all = [] then .error .indexError else .ok (regions.map (updateRegion (paintCounts all onlyOverlapped)))

/-! ### Extracting and projecting data -/

/-- The two image axes of a cube; other axes are carried along. `ny` and `nx` are the extents of the first and second image axis
(linalg/geometry.py:168-272). -/
structure Image where
  ny : Int
  nx : Int
  at' : Int → Int → Rat

/-- The bounds of a Python slice `start:stop` of an axis of length `n` (linalg/geometry.py:168-272). -/
def pySlice (n start stop : Int) : Int × Int :=
  let f := fun i : Int => if i < 0 then max 0 (i + n) else min i n
  (f start, max (f start) (f stop))

/-- The source index for a position in an assigned slice: an axis of length one is broadcast (linalg/geometry.py:575-646). -/
def bcast (len i : Int) : Int := if len = 1 then 0 else i

/-- Whether an axis of length `src` can be assigned to one of length `dst` (linalg/geometry.py:575-646). -/
def bcastOk (src dst : Int) : Bool := decide (src = dst ∨ src = 1)

/-- The padded data before the mask is applied (geometry.py:194-241). `zero` is the value of `0 * oob_value`. -/
def paddedData (c : List Pt) (img : Image) (zero : Rat) : Except PyErr Image :=
  let padLeft := max 0 (0 - minX c)
  let padBottom := max 0 (0 - minY c)
  let padRight := max 0 (maxX c - img.nx + 1)
  let padTop := max 0 (maxY c - img.ny + 1)
  if minX c > img.ny ∨ minY c > img.nx ∨ maxY c < 0 ∨ maxX c < 0 then .error .valueError
  else
    let sy := pySlice img.ny (minY c + padBottom) (maxY c - padTop + 1)
    let sx := pySlice img.nx (minX c + padLeft) (maxX c - padRight + 1)
    let sel : Image := ⟨sy.2 - sy.1, sx.2 - sx.1, fun y x => img.at' (sy.1 + y) (sx.1 + x)⟩
    if padLeft > 0 ∨ padBottom > 0 ∨ padRight > 0 ∨ padTop > 0 then
      let ny := maxY c - minY c + 1
      let nx := maxX c - minX c + 1
      let py := pySlice ny padBottom (-minY c + maxY c + 1 - padTop)
      let px := pySlice nx padLeft (-minX c + maxX c + 1 - padRight)
      if bcastOk sel.ny (py.2 - py.1) && bcastOk sel.nx (px.2 - px.1) then
        .ok ⟨ny, nx, fun y x => if py.1 ≤ y ∧ y < py.2 ∧ px.1 ≤ x ∧ x < px.2 then
          sel.at' (bcast sel.ny (y - py.1)) (bcast sel.nx (x - px.1)) else zero⟩
      else .error .valueError
    else .ok sel

/-- `regional_data` (geometry.py:168-272): the padded data times the mask, whose zeros are replaced, and the window. The data
must have the extents of the mask, or be broadcast by in-place multiplication, which cannot change its shape. -/
def regionalData (r : Region) (img : Image) (oob zero : Rat) : Except PyErr (Image × (Int × Int × Int × Int)) :=
  match paddedData r.corners img zero with
  | .error e => .error e
  | .ok p =>
    let ny := maxY r.corners - minY r.corners + 1
    let nx := maxX r.corners - minX r.corners + 1
    if (p.ny = ny ∨ ny = 1) ∧ (p.nx = nx ∨ nx = 1) then
      .ok (⟨p.ny, p.nx, fun y x =>
        let m := filledMask r (bcast ny y) (bcast nx x)
        p.at' y x * (if m = 0 then oob else m)⟩,
        (minX r.corners, maxX r.corners, minY r.corners, maxY r.corners))
    else .error .valueError

/-- One region of `project_regions` (geometry.py:624-641). -/
def projectStep (minx miny npxx npxy : Int) (acc : Int → Int → Rat) (f : Image) (r : Region) : Except PyErr (Int → Int → Rat) :=
  let xl := max 0 (-minx + minX r.corners)
  let xu := min (-minx + maxX r.corners + 1) npxx
  let yl := max 0 (-miny + minY r.corners)
  let yu := min (-miny + maxY r.corners + 1) npxy
  let fnx := xu - xl + 1
  let fny := yu - yl + 1
  if f.ny ≠ fny - 1 ∨ f.nx ≠ fnx - 1 then .error .valueError
  else .ok fun y x => if yl ≤ y ∧ y < yu ∧ xl ≤ x ∧ x < xu then acc y x + f.at' (y - yl) (x - xl) else acc y x

/-- The loop over the regions (geometry.py:624-641). -/
def projectLoop (minx miny npxx npxy : Int) : (Int → Int → Rat) → List (Image × Region) → Except PyErr (Int → Int → Rat)
  | acc, [] => .ok acc
  | acc, (f, r) :: l => match projectStep minx miny npxx npxy acc f r with
    | .error e => .error e
    | .ok acc => projectLoop minx miny npxx npxy acc l

/-- `project_regions` (geometry.py:575-646) of a non-empty list. NaNs, which are set to zero in the given data, are not modelled. -/
def projectRegions (hull : HullFn) (data : List Image) (regions : List Region) : Except PyErr (Image × Region) :=
  if data.length ≠ regions.length then .error .typeError
  else
    let minx := listMin (regions.map fun r => minX r.corners)
    let maxx := listMax (regions.map fun r => maxX r.corners)
    let miny := listMin (regions.map fun r => minY r.corners)
    let maxy := listMax (regions.map fun r => maxY r.corners)
    let npxx := maxx - minx + 1
    let npxy := maxy - miny + 1
    match projectLoop minx miny npxx npxy (fun _ _ => 0) (data.zip regions) with
    | .error e => .error e
    | .ok acc => match mkBox hull minx maxx miny maxy (some (regions.flatMap Region.mask)) with
      | .error e => .error e
      | .ok b => .ok (⟨npxy, npxx, acc⟩, b)

end Verif.Linalg.Geometry
