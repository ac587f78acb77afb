/-
Specification vocabulary for correlation schemas.
-/
import Verif.ModelData.Coherency

set_option autoImplicit false

namespace Verif.ModelData

/-- The nested list found by following a path of positions. -/
def listAt (l : List Schema) : List Nat → Option (List Schema)
  | [] => some l
  | i :: is => match l[i]? with
    | some (.list l') => listAt l' is
    | _ => none

/-- The element `e`, not itself a list, is at position `p` of the schema. -/
def LeafAt (l : List Schema) (p : List Nat) (e : Schema) : Prop :=
  (∀ l', e ≠ .list l') ∧ ∃ q i cur, p = q ++ [i] ∧ listAt l q = some cur ∧ cur[i]? = some e

/-- All lists at the same depth have the same length. -/
def Regular (l : List Schema) : Prop :=
  ∀ p q c d, p.length = q.length → listAt l p = some c → listAt l q = some d → c.length = d.length

/-- Every element is a name or a valid identifier. -/
def ValidLeaves (l : List Schema) : Prop := ∀ p e, LeafAt l p e → ∃ s, e.name = .ok s

/-- No name occurs twice. -/
def DistinctNames (l : List Schema) : Prop :=
  ∀ p q e f s, LeafAt l p e → LeafAt l q f → e.name = .ok s → f.name = .ok s → p = q

/-- The schema is acceptable. -/
def GoodSchema (l : List Schema) : Prop := Regular l ∧ ValidLeaves l ∧ DistinctNames l

/-- The Stokes parameter or correlation `s` is at position `p` of the schema. -/
def Has (l : List Schema) (s : String) (p : List Nat) : Prop := ∃ e, LeafAt l p e ∧ e.name = .ok s

/-- The pairs of inputs each output can be computed from, in order of preference. -/
def requires : String → List (String × String)
  | "RR" => [("I", "V")]
  | "RL" => [("Q", "U")]
  | "LR" => [("Q", "U")]
  | "LL" => [("I", "V")]
  | "XX" => [("I", "Q")]
  | "XY" => [("U", "V")]
  | "YX" => [("U", "V")]
  | "YY" => [("I", "Q")]
  | "I" => [("XX", "YY"), ("RR", "LL")]
  | "Q" => [("XX", "YY"), ("RL", "LR")]
  | "U" => [("XY", "YX"), ("RL", "LR")]
  | "V" => [("XY", "YX"), ("RR", "LL")]
  | _ => []

/-- The outputs `convert` can compute. -/
def knownOutputs : List String :=
  ["RR", "RL", "LR", "LL", "XX", "XY", "YX", "YY", "I", "Q", "U", "V"]

/-- The correlation types of casacore (`Stokes.h`), number by number. -/
def casaStokes : List (Int × String) :=
  [(0, "Undefined"), (1, "I"), (2, "Q"), (3, "U"), (4, "V"), (5, "RR"), (6, "RL"), (7, "LR"), (8, "LL"), (9,
   "XX"), (10, "XY"), (11, "YX"), (12, "YY"), (13, "RX"), (14, "RY"), (15, "LX"), (16, "LY"), (17, "XR"),
   (18, "XL"), (19, "YR"), (20, "YL"), (21, "PP"), (22, "PQ"), (23, "QP"), (24, "QQ"), (25, "RCircular"),
   (26, "LCircular"), (27, "Linear"), (28, "Ptotal"), (29, "Plinear"), (30, "PFtotal"), (31, "PFlinear"),
   (32, "Pangle")]

end Verif.ModelData
