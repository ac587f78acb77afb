/-
Model of africanus/model/coherency/conversion.py.

Schemas are nested lists of names and CASA identifiers. The leading axes of the input (the `Ellipsis`) are
independent of each other: the input is modelled at one position of the leading axes, as a function of the index
into the trailing (schema) axes. Index tuples shorter than the schema's shape, which numpy would treat as partial
indices, occur only for schemas with elements at different depths. The result's dtype is not modelled: real
results are complex numbers with zero imaginary part.
-/
import Verif.Basic
import Mathlib.Data.Complex.Basic

set_option autoImplicit false

namespace Verif.ModelData

/-- A schema element: string, integer, nested list or tuple, or anything else (model/coherency/conversion.py:47-96). -/
inductive Schema
  | str (s : String)
  | num (i : Int)
  | list (l : List Schema)
  | other

mutual
/-- Number of lists inside an element (model/coherency/conversion.py:47-96). -/
def Schema.nodes : Schema → Nat
  | .list l => 1 + nodesList l
  | .str _ => 0
  | .num _ => 0
  | .other => 0
/-- Number of lists inside the elements of a list (model/coherency/conversion.py:47-96). -/
def nodesList : List Schema → Nat
  | [] => 0
  | s :: l => s.nodes + nodesList l
end

/-- `STOKES_TYPES` (util/casa_types.py:4-37). -/
def stokesTypes : List String :=
  ["Undefined", "I", "Q", "U", "V", "RR", "RL", "LR", "LL", "XX", "XY", "YX", "YY", "RX", "RY", "LX", "LY",
   "XR", "XL", "YR", "YL", "PP", "PQ", "QP", "QQ", "RCircular", "LCircular", "Linear", "Ptotal", "Plinear",
   "PFtotal", "PFlinear", "Pangle"]

/-- `STOKES_ID_MAP[e]` (util/casa_types.py:44-57); `none` is `KeyError`. -/
def stokesId (i : Int) : Option String := if i < 0 then none else stokesTypes[i.toNat]?

/-- The name an element stands for (conversion.py:73-90). -/
def Schema.name : Schema → Except PyErr String
  | .str s => .ok s
  | .num i => match stokesId i with
    | some s => .ok s
    | none => .error .valueError
  | .list _ => .error .typeError
  | .other => .error .typeError

/-- A queue entry `(current, current_idx, depth)`; `depth` is the length of the index (model/coherency/conversion.py:47-96). -/
abbrev QItem := List Schema × List Nat

/-- The loop over the elements of one list (conversion.py:66-94): lists are queued, names recorded. -/
def scan (idx : List Nat) : List Schema → Nat → List QItem → List (String × List Nat) →
    Except PyErr (List QItem × List (String × List Nat))
  | [], _, queue, result => .ok (queue, result)
  | .list l :: rest, i, queue, result => scan idx rest (i + 1) (queue ++ [(l, idx ++ [i])]) result
  | e :: rest, i, queue, result =>
    match e.name with
    | .error err => .error err
    | .ok s =>
      if (result.map Prod.fst).contains s then .error .valueError
      else scan idx rest (i + 1) queue (result ++ [(s, idx ++ [i])])

/-- Shape inference (conversion.py:59-63). -/
def growShape (shape : List Nat) (depth len : Nat) : Except PyErr (List Nat) :=
  match shape[depth]? with
  | none => .ok (shape ++ [len])
  | some n => if n ≠ len then .error .dimensionMismatch else .ok shape

/-- The `while` loop (conversion.py:55-94). Every iteration takes one list from the queue, so the number of lists in
the schema bounds the iterations. -/
def bfs : Nat → List QItem → List Nat → List (String × List Nat) →
    Except PyErr (List (String × List Nat) × List Nat)
  | _, [], shape, result => .ok (result, shape)
  | 0, _ :: _, _, _ => .error .stopIteration
  | fuel + 1, (cur, idx) :: queue, shape, result =>
    match growShape shape idx.length cur.length with
    | .error e => .error e
    | .ok shape =>
      match scan idx cur 0 queue result with
      | .error e => .error e
      | .ok (queue, result) => bfs fuel queue shape result

/-- `_element_indices_and_shape` (conversion.py:47-96). -/
def elementIndices (data : Schema) : Except PyErr (List (String × List Nat) × List Nat) :=
  let data := match data with
    | .list l => l
    | e => [e]
  bfs (1 + nodesList data) [(data, [])] [] []

/-! ### conversions -/

/-- `stokes_conv` (conversion.py:13-36), alternatives in order. -/
noncomputable def stokesConv (okey : String) : Option (List ((String × String) × (ℂ → ℂ → ℂ))) :=
  match okey with
  | "RR" => some [(("I", "V"), fun i v => i + v)]
  | "RL" => some [(("Q", "U"), fun q u => q + u * Complex.I)]
  | "LR" => some [(("Q", "U"), fun q u => q - u * Complex.I)]
  | "LL" => some [(("I", "V"), fun i v => i - v)]
  | "XX" => some [(("I", "Q"), fun i q => i + q)]
  | "XY" => some [(("U", "V"), fun u v => u + v * Complex.I)]
  | "YX" => some [(("U", "V"), fun u v => u - v * Complex.I)]
  | "YY" => some [(("I", "Q"), fun i q => i - q)]
  | "I" => some [(("XX", "YY"), fun xx yy => (((xx + yy).re / 2 : ℝ) : ℂ)),
                 (("RR", "LL"), fun rr ll => (((rr + ll).re / 2 : ℝ) : ℂ))]
  | "Q" => some [(("XX", "YY"), fun xx yy => (((xx - yy).re / 2 : ℝ) : ℂ)),
                 (("RL", "LR"), fun rl lr => (((rl + lr).re / 2 : ℝ) : ℂ))]
  | "U" => some [(("XY", "YX"), fun xy yx => (((xy + yx).re / 2 : ℝ) : ℂ)),
                 (("RL", "LR"), fun rl lr => (((rl - lr).im / 2 : ℝ) : ℂ))]
  | "V" => some [(("XY", "YX"), fun xy yx => (((xy - yx).im / 2 : ℝ) : ℂ)),
                 (("RR", "LL"), fun rr ll => (((rr - ll).re / 2 : ℝ) : ℂ))]
  | _ => none

/-- `input_indices[c]` (model/coherency/conversion.py:115-131). -/
def indexOf? (indices : List (String × List Nat)) (c : String) : Option (List Nat) :=
  (indices.find? fun e => e.1 = c).map Prod.snd

/-- An entry of `mapping` (conversion.py:136). -/
abbrev MapEntry := List Nat × List Nat × List Nat × (ℂ → ℂ → ℂ)

/-- The search for an alternative (conversion.py:119-139). -/
noncomputable def findConv (inputs : List (String × List Nat)) (outIdx : List Nat) :
    List ((String × String) × (ℂ → ℂ → ℂ)) → Option MapEntry
  | [] => none
  | ((c1, c2), fn) :: rest =>
    match indexOf? inputs c1 with
    | none => findConv inputs outIdx rest
    | some i1 =>
      match indexOf? inputs c2 with
      | none => findConv inputs outIdx rest
      | some i2 => some (i1, i2, outIdx, fn)

/-- The loop over outputs (conversion.py:110-148). `bound` says whether `deps` has been assigned by an earlier iteration:
the message of the `ValueError` for unknown outputs mentions `deps`, which is unbound in the first iteration. -/
noncomputable def buildMapping (inputs : List (String × List Nat)) (bound : Bool) :
    List (String × List Nat) → List MapEntry → Except PyErr (List MapEntry)
  | [], mapping => .ok mapping
  | (okey, outIdx) :: rest, mapping =>
    match stokesConv okey with
    | none => .error (if bound then .valueError else .unboundLocalError)
    | some deps =>
      match findConv inputs outIdx deps with
      | none => .error .missingConversionInputs
      | some e => buildMapping inputs true rest (mapping ++ [e])

/-- `convert_setup` (conversion.py:99-150); `np.result_type` of nothing raises `ValueError`. -/
noncomputable def convertSetup (inputShape : List Nat) (inSchema outSchema : Schema) :
    Except PyErr (List MapEntry × List Nat) := do
  let i ← elementIndices inSchema
  let o ← elementIndices outSchema
  if inputShape.drop (inputShape.length - i.2.length) ≠ i.2 then throw .valueError
  let mapping ← buildMapping i.1 false o.1 []
  if mapping.isEmpty then throw .valueError
  pure (mapping, o.2)

/-- The assignments of `convert_impl` (conversion.py:153-161); `none` is memory left unassigned by `np.empty`. -/
noncomputable def runMapping (input : List Nat → ℂ) (mapping : List MapEntry) : List Nat → Option ℂ :=
  mapping.foldl (fun out e => Function.update out e.2.2.1 (some (e.2.2.2 (input e.1) (input e.2.1)))) fun _ => none

/-- `convert` (conversion.py:164-172). -/
noncomputable def convert (inputShape : List Nat) (input : List Nat → ℂ) (inSchema outSchema : Schema) :
    Except PyErr (List Nat → Option ℂ) :=
  match convertSetup inputShape inSchema outSchema with
  | .error e => .error e
  | .ok m => .ok (runMapping input m.1)

end Verif.ModelData
