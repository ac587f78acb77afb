/-
Model of africanus/rime/examples/predict.py: the terms of the baseline Jones matrices and the sky model.

Numbers are elements of a commutative ring. Dask arrays are functions of their indices; the sizes of the axes named by one
letter are assumed to agree.
-/
import Verif.Basic
import Mathlib.Algebra.BigOperators.Group.Finset.Basic
import Mathlib.Algebra.Ring.Defs

set_option autoImplicit false

namespace Verif.Examples

open Finset

/-! ### einsum -/

/-- The sum over all values of the given labels (for `einsum`, rime/examples/predict.py:126). -/
def sumOver {K : Type*} [AddCommMonoid K] (dim : Char → Nat) : List Char → ((Char → Nat) → K) → (Char → Nat) → K
  | [], f, σ => f σ
  | c :: cs, f, σ => ∑ v ∈ range (dim c), sumOver dim cs f (Function.update σ c v)

/-- The labels used by the program (predict.py:35-69), in the order in which sums over them are written here. -/
def alphabet : List Char := ['s', 'r', 'f', 'i', 'j', 'k', 'l']

/-- The values of the output labels at an index of the result (for `einsum`, rime/examples/predict.py:126). -/
def assign (out : List Char) (idx : List Nat) (c : Char) : Nat := ((out.zip idx).lookup c).getD 0

/-- `da.einsum` (an external function) of arrays with explicit input and output labels: labels missing from the output
are summed over. An output label that is repeated or is no input label is a `ValueError` (rime/examples/predict.py:126). -/
def einsum {K : Type*} [CommSemiring K] (dim : Char → Nat) (ins : List (List Char)) (out : List Char)
    (arrays : List (List Nat → K)) : Except PyErr (List Nat → K) :=
  if ¬ out.Nodup ∨ ¬ (∀ c ∈ out, c ∈ ins.flatten) then .error .valueError
  else .ok fun idx =>
    sumOver dim (alphabet.filter fun c => c ∈ ins.flatten ∧ c ∉ out)
      (fun σ => ((ins.zip arrays).map fun e => e.2 (e.1.map σ)).prod) (assign out idx)

/-! ### baseline_jones_multiply -/

/-- `_einsum_corr_indices` (predict.py:35). -/
def corrIndices : List Char := ['i', 'j', 'k', 'l']

/-- `_rime_term_map` and the four functions of it (predict.py:38-69): the labels of a term and the next correlation
index, or `None` for an unknown name. -/
def termSchema (corrs : Nat) (index : Nat) (name : String) : Option (List Char × Nat) :=
  if name = "brightness" then
    if corrs = 4 then some (['s', 'f'] ++ (corrIndices.drop index).take 2, index + 1)
    else some (['s', 'f', 'i'], index)
  else if name = "phase_delay" then some (['s', 'r', 'f'], index)
  else if name = "spi" then some (['s'], index)
  else if name = "gauss_shape" then some (['s', 'r', 'f'], index)
  else none

/-- A named array and its number of dimensions (rime/examples/predict.py:38-126). -/
structure Term (K : Type*) where
  name : String
  ndim : Nat
  array : List Nat → K

/-- The loop over the terms (predict.py:107-121), from a correlation index. -/
def schemas {K : Type*} (corrs : Nat) : Nat → List (Term K) → Except PyErr (List (List Char) × Nat)
  | index, [] => .ok ([], index)
  | index, x :: xs => match termSchema corrs index x.name with
    | none => .error .valueError
    | some (labels, next) =>
      if labels.length ≠ x.ndim then .error .valueError
      else match schemas corrs next xs with
        | .error e => .error e
        | .ok (rest, last) => .ok (labels :: rest, last)

/-- `_bl_jones_output_schema` (predict.py:57-61); `_einsum_corr_indices[index]` is an `IndexError` outside the string. -/
def outputSchema (corrs index : Nat) : Except PyErr (List Char) :=
  if corrs = 4 then match corrIndices[index]? with
    | none => .error .indexError
    | some c => .ok ['s', 'r', 'f', 'i', c]
  else .ok ['s', 'r', 'f', 'i']

/-- `baseline_jones_multiply` (predict.py:100-126), with names and arrays already paired. -/
def baselineJonesMultiply {K : Type*} [CommSemiring K] (dim : Char → Nat) (corrs : Nat) (terms : List (Term K)) :
    Except PyErr (List Nat → K) :=
  match schemas corrs 0 terms with
  | .error e => .error e
  | .ok (ins, last) => match outputSchema corrs last with
    | .error e => .error e
    | .ok out => einsum dim ins out (terms.map Term.array)

/-! ### corr_schema and feed types -/

/-- `corr_schema` (predict.py:72-97): rows of the 2x2 arrangement for four correlations, one row otherwise. -/
def corrSchema (corrs : Nat) (types : Nat → Int) : Except PyErr (List (List Int)) :=
  if corrs = 4 then .ok [[types 0, types 1], [types 2, types 3]]
  else if corrs = 2 then .ok [[types 0, types 1]]
  else if corrs = 1 then .ok [[types 0]]
  else .error .valueError

/-- The decisions of `dde_factory` (predict.py:385-408) before any array is computed: no beam, or the kind of feed. -/
def ddeFeed (beam : Bool) (corrType : List Int) : Except PyErr (Option String) :=
  if beam = false then .ok none
  else if corrType.length ≠ 4 then .error .valueError
  else if corrType.all (· ∈ [9, 10, 11, 12]) then .ok (some "linear")
  else if corrType.all (· ∈ [5, 6, 7, 8]) then .ok (some "circular")
  else .error .valueError

/-! ### parse_sky_model -/

/-- What is read of a Tigger source (predict.py:265-291): `spectrum` is `none` when the attribute is missing, `None` or
otherwise false, `spi` and `freq0` are `none` when the spectrum has no such attribute. -/
structure TiggerSource (K : Type*) where
  ra : K
  dec : K
  typecode : String
  stokes : K × K × K × K
  spectrum : Option (Option K × Option K)
  shape : K × K × K

/-- One parsed source: `radec`, `stokes`, `spi`, `ref_freq` and, for Gaussians, `shape` (rime/examples/predict.py:233-332). -/
structure Parsed (K : Type*) where
  radec : K × K
  stokes : K × K × K × K
  spi : K × K × K × K
  refFreq : K
  shape : Option (K × K × K)
  deriving DecidableEq

/-- The two lists being filled (predict.py:254-263). -/
structure SkyLists (K : Type*) where
  point : List (Parsed K)
  gauss : List (Parsed K)

/-- One iteration of the source loop (predict.py:265-309); `lower` is `str.lower`. -/
def skyStep {K : Type*} [Zero K] (lower : String → String) (freq0 : K) (acc : SkyLists K) (source : TiggerSource K) :
    Except PyErr (SkyLists K) :=
  let typecode := lower source.typecode
  let refFreq := match source.spectrum with
    | some (some f, _) => f
    | _ => freq0
  let spi := match source.spectrum with
    | some (_, some a) => (a, a, a, a)
    | _ => (0, 0, 0, 0)
  if typecode = "gau" then
    .ok { acc with gauss := acc.gauss ++ [⟨(source.ra, source.dec), source.stokes, spi, refFreq, some source.shape⟩] }
  else if typecode = "pnt" then
    .ok { acc with point := acc.point ++ [⟨(source.ra, source.dec), source.stokes, spi, refFreq, none⟩] }
  else .error .valueError

/-- The source loop (predict.py:265-309). -/
def skyLoop {K : Type*} [Zero K] (lower : String → String) (freq0 : K) :
    List (TiggerSource K) → SkyLists K → Except PyErr (SkyLists K)
  | [], acc => .ok acc
  | x :: xs, acc => match skyStep lower freq0 acc x with
    | .error e => .error e
    | .ok acc => skyLoop lower freq0 xs acc

/-- `parse_sky_model` (predict.py:233-332) after `Tigger.load`: the entries of the dictionary in order. Chunks are not
modelled here. -/
def parseSkyModel {K : Type*} [Zero K] (lower : String → String) (freq0 : K) (sources : List (TiggerSource K)) :
    Except PyErr (List (String × List (Parsed K))) :=
  match skyLoop lower freq0 sources ⟨[], []⟩ with
  | .error e => .error e
  | .ok l => .ok ((if l.point.length > 0 then [("point", l.point)] else []) ++
      (if l.gauss.length > 0 then [("gauss", l.gauss)] else []))

/-! ### the joins of predict -/

/-- The join of one dataset (predict.py:529-534) with its tables. `nddid` is the number of rows of DATA_DESCRIPTION, whose
`spwId` and `polId` are the columns; the table is read as one dataset that holds all its rows (`xds_from_table` without
`group_cols`, an external function), so that the list of datasets has one element. FIELD, SPECTRAL_WINDOW and POLARIZATION
are lists of one dataset for each row. Returns the rows of FIELD, SPECTRAL_WINDOW and POLARIZATION that are used. -/
def joins (nddid nfield nspw npol : Nat) (spwId polId : Nat → Nat) (fieldId ddid : Nat) : Except PyErr (Nat × Nat × Nat) :=
  if ¬ fieldId < nfield then .error .indexError
  else if ¬ ddid < 1 then .error .indexError
  else if nddid = 0 then .error .indexError
  else if ¬ spwId 0 < nspw then .error .indexError
  else if ¬ polId 0 < npol then .error .indexError
  else .ok (fieldId, spwId 0, polId 0)

end Verif.Examples
