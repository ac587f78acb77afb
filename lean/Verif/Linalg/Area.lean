/-
Model of the measures of a hull: edges, edge_midpoints, circumference, area and box_npx of africanus/linalg/geometry.py.
Lengths are real numbers.
-/
import Verif.Linalg.Geometry
import Mathlib.Analysis.Real.Sqrt
import Mathlib.Algebra.BigOperators.Group.Finset.Basic

set_option autoImplicit false

namespace Verif.Linalg.Geometry

/-- `edges` (geometry.py:384-393): each corner with the following one. -/
def edges (c : List Pt) : List (Pt × Pt) := (List.range c.length).map fun i => (c.getD i (0, 0), nextCorner c i)

/-- `edge_midpoints` (geometry.py:395-399). -/
def edgeMidpoints (c : List Pt) : List (ℚ × ℚ) :=
  (edges c).map fun e => (((e.1.1 : ℚ) + e.2.1) / 2, ((e.1.2 : ℚ) + e.2.2) / 2)

/-- The length of an edge, `np.linalg.norm` (linalg/geometry.py:337-343, 345-356). -/
noncomputable def edgeLength (e : Pt × Pt) : ℝ :=
  Real.sqrt (((e.2.1 - e.1.1 : Int) : ℝ) ^ 2 + ((e.2.2 - e.1.2 : Int) : ℝ) ^ 2)

/-- `circumference` (geometry.py:337-343). -/
noncomputable def circumference (c : List Pt) : ℝ := ((edges c).map fun e => edgeLength e + 1).sum

/-- The sum in `area` (geometry.py:348-352); the pairs of corners are the same as those of `edges`. -/
def shoelace (c : List Pt) : Int := ((edges c).map fun e => e.1.1 * e.2.2 - e.2.1 * e.1.2).sum

/-- `area` (geometry.py:345-356). -/
noncomputable def area (c : List Pt) : ℝ := 1 / 2 * |(shoelace c : ℝ)| + 1 / 2 * circumference c - 1

end Verif.Linalg.Geometry
