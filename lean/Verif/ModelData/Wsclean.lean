/-
Model of africanus/model/wsclean/file_model.py.

Text is a list of characters; a file is the list of its lines. Files are ASCII: white space and digits are the ASCII ones
(`str.strip`, `\s` and `\d` also know Unicode ones). Column headers contain no line breaks. The regular expressions are
written as the deterministic scanners they amount to; the comment of each says why. Python's `float` and `literal_eval`
are parameters. Decimal numbers in angles are exact rationals and the result of a conversion is a real number.
-/
import Verif.Basic
import Mathlib.Analysis.SpecialFunctions.Trigonometric.Basic

set_option autoImplicit false

namespace Verif.ModelData.Wsclean

/-- White space as known to `str.strip` and `\s` (file_model.py:73-113). -/
def isWs (c : Char) : Bool :=
  c == ' ' || (9 ≤ c.toNat && c.toNat ≤ 13) || (28 ≤ c.toNat && c.toNat ≤ 31)

/-- `\d` (file_model.py:10-18). -/
def isDigit (c : Char) : Bool := 48 ≤ c.toNat && c.toNat ≤ 57

/-- `str.strip` (file_model.py:81, 101, 113, 190). -/
def strip (s : List Char) : List Char := ((s.dropWhile isWs).reverse.dropWhile isWs).reverse

/-- `s.split(sep)` for a single character (file_model.py:81). -/
def splitOn (sep : Char) : List Char → List (List Char)
  | [] => [[]]
  | c :: t =>
    if c = sep then [] :: splitOn sep t
    else match splitOn sep t with
      | h :: r => (c :: h) :: r
      | [] => [[c]]

/-- The lookahead `(?=[^\]]*(?:\[|$))` of `_COMMA_SPLIT_RE` (file_model.py:73): the first bracket in what follows, if there
is one, is an opening one. -/
def lookahead : List Char → Bool
  | [] => true
  | c :: t => if c = ']' then false else if c = '[' then true else lookahead t

/-- `re.split(_COMMA_SPLIT_RE, line)` (file_model.py:73, 113). The separator also takes the white space after the comma; the
components are stripped immediately (line 113), so it is left to the component here. -/
def splitComma : List Char → List (List Char)
  | [] => [[]]
  | c :: t =>
    if c = ',' && lookahead t then [] :: splitComma t
    else match splitComma t with
      | h :: r => (c :: h) :: r
      | [] => [[c]]

/-- `.*?'\s*?$` after the opening quote (file_model.py:77): the shortest text such that a quote and only white space follow. -/
def closeQuote : List Char → Option (List Char)
  | [] => none
  | c :: t => if c = '\'' && t.all isWs then some [] else (closeQuote t).map (c :: ·)

/-- The optional group `\s*?=\s*?'(?P<default>.*?)'\s*?$` (file_model.py:77) at the start of the text. -/
def matchDefault (s : List Char) : Option (List Char) :=
  match s.dropWhile isWs with
  | [] => none
  | c :: s2 => if c = '=' then
      match s2.dropWhile isWs with
      | [] => none
      | c' :: s4 => if c' = '\'' then closeQuote s4 else none
    else none

/-- `_COL_HEADER_RE` (file_model.py:76-77): the name is the shortest prefix after which the default group or nothing
follows. The header is stripped, so the leading `\s*?` matches nothing. -/
def colHeader (s : List Char) : List Char × Option (List Char) :=
  match matchDefault s with
  | some d => ([], some d)
  | none => match s with
    | [] => ([], none)
    | c :: t => (c :: (colHeader t).1, (colHeader t).2)

/-- `_parse_col_descriptor` (file_model.py:80-97). -/
def parseCols (s : List Char) : List (List Char × Option (List Char)) :=
  (splitOn ',' s).map fun c => colHeader (strip c)

/-- `_parse_header` (file_model.py:100-106); without `=` there is one component and unpacking fails. -/
def parseHeader (header : List Char) : Except PyErr (List (List Char × Option (List Char))) :=
  match header.dropWhile (· ≠ '=') with
  | [] => .error .valueError
  | _ :: desc =>
    if strip (header.takeWhile (· ≠ '=')) ≠ "Format".toList then .error .valueError
    else .ok (parseCols (strip desc))

/-! ### angles -/

/-- `float` of a string of digits (file_model.py:27-28). -/
def digitsVal (s : List Char) : Nat := s.foldl (fun a c => 10 * a + (c.toNat - 48)) 0

/-- `float` of text matching `\d+\.?\d*`, given its two parts (file_model.py:29, 45). -/
def decimalVal (i f : List Char) : ℚ := digitsVal i + (digitsVal f : ℚ) / 10 ^ f.length

/-- `[+-]` (file_model.py:10, 15). -/
def isSign (c : Char) : Bool := c == '+' || c == '-'

/-- Digits, separator, digits, separator, digits, optional point and digits: the part the two expressions share
(file_model.py:10-18). Digits and separators are different characters, so greedy matching without backtracking decides.
Returns the three numbers. Text after the match is ignored: the expressions are not anchored at the end. -/
def scanAngle (sep : Char) (s : List Char) : Option (Nat × Nat × ℚ) :=
  let a := s.takeWhile isDigit
  if a = [] then none
  else match s.dropWhile isDigit with
    | [] => none
    | c :: s2 => if c ≠ sep then none
      else
        let b := s2.takeWhile isDigit
        if b = [] then none
        else match s2.dropWhile isDigit with
          | [] => none
          | c' :: s4 => if c' ≠ sep then none
            else
              let i := s4.takeWhile isDigit
              if i = [] then none
              else match s4.dropWhile isDigit with
                | [] => some (digitsVal a, digitsVal b, decimalVal i [])
                | c'' :: s6 =>
                  some (digitsVal a, digitsVal b, decimalVal i (if c'' = '.' then s6.takeWhile isDigit else []))

/-- The sum of the three parts in turns, with the sign applied (file_model.py:27-32, 43-48). -/
def turns (full : ℚ) (neg : Bool) (p : Nat × Nat × ℚ) : ℚ :=
  let value := (p.1 : ℚ) / full + (p.2.1 : ℚ) / (full * 60) + p.2.2 / (full * 60 * 60)
  if neg then -value else value

/-- `_hour_converter` in turns (file_model.py:21-34); the sign group is the whole run of signs. -/
def hourTurns (s : List Char) : Option ℚ :=
  (scanAngle ':' (s.dropWhile isSign)).map (turns 24 (s.takeWhile isSign == ['-']))

/-- `_deg_converter` in turns (file_model.py:37-50); the repeated sign group is the last of the signs. -/
def degTurns (s : List Char) : Option ℚ :=
  (scanAngle '.' (s.dropWhile isSign)).map (turns 360 ((s.takeWhile isSign).getLast? == some '-'))

/-! ### columns -/

/-- Keys of `_COLUMN_CONVERTERS` (file_model.py:57-69). -/
inductive Column
  | name | type | ra | dec | i | spectralIndex | logarithmicSI | referenceFrequency | majorAxis | minorAxis | orientation
  deriving DecidableEq

/-- Lookup in `_COLUMN_CONVERTERS` (file_model.py:57-69, 204). -/
def columnOf (s : List Char) : Option Column :=
  if s = "Name".toList then some .name
  else if s = "Type".toList then some .type
  else if s = "Ra".toList then some .ra
  else if s = "Dec".toList then some .dec
  else if s = "I".toList then some .i
  else if s = "SpectralIndex".toList then some .spectralIndex
  else if s = "LogarithmicSI".toList then some .logarithmicSI
  else if s = "ReferenceFrequency".toList then some .referenceFrequency
  else if s = "MajorAxis".toList then some .majorAxis
  else if s = "MinorAxis".toList then some .minorAxis
  else if s = "Orientation".toList then some .orientation
  else none

/-- A converted value: what the converters return (file_model.py:57-69). -/
inductive Val (V : Type)
  | str (s : List Char)
  | num (x : ℝ)
  | bool (b : Bool)
  | lit (v : V)

/-- Python's `float` and `ast.literal_eval` on text (file_model.py:62-68), parameters of the model. -/
structure Ext (V : Type) where
  pyFloat : List Char → Option ℝ
  literalEval : List Char → Except PyErr V

variable {V : Type}

/-- `float(s)` followed by arithmetic (file_model.py:54, 62, 65, 68). -/
noncomputable def floatOf (x : Ext V) (f : ℝ → ℝ) (s : List Char) : Except PyErr (Val V) :=
  match x.pyFloat s with
  | none => .error .valueError
  | some v => .ok (.num (f v))

/-- `np.deg2rad` (file_model.py:54, 68). -/
noncomputable def deg2rad (v : ℝ) : ℝ := v * (Real.pi / 180)

/-- A converter applied to text (file_model.py:57-69). -/
noncomputable def convText (x : Ext V) : Column → List Char → Except PyErr (Val V)
  | .name, s => .ok (.str s)
  | .type, s => .ok (.str s)
  | .ra, s => match hourTurns s with
    | none => .error .valueError
    | some t => .ok (.num (2 * Real.pi * (t : ℝ)))
  | .dec, s => match degTurns s with
    | none => .error .valueError
    | some t => .ok (.num (2 * Real.pi * (t : ℝ)))
  | .i, s => floatOf x (fun v => v) s
  | .spectralIndex, s => match x.literalEval s with
    | .error e => .error e
    | .ok v => .ok (.lit v)
  | .logarithmicSI, s => .ok (.bool (s = "true".toList))
  | .referenceFrequency, s => floatOf x (fun v => v) s
  | .majorAxis, s => floatOf x (fun v => deg2rad (v / 3600)) s
  | .minorAxis, s => floatOf x (fun v => deg2rad (v / 3600)) s
  | .orientation, s => floatOf x deg2rad s

/-- A converter without argument, then applied to its own result (file_model.py:124-139): `str()`, `float()` and the two
converters with default arguments succeed, the others raise `TypeError`, reported as `ValueError`. -/
noncomputable def convDefault : Column → Except PyErr (Val V)
  | .name => .ok (.str [])
  | .type => .ok (.str [])
  | .i => .ok (.num 0)
  | .referenceFrequency => .ok (.num 0)
  | .majorAxis => .ok (.num (deg2rad (deg2rad (0 / 3600) / 3600)))
  | .minorAxis => .ok (.num (deg2rad (deg2rad (0 / 3600) / 3600)))
  | .orientation => .ok (.num (deg2rad (deg2rad 0)))
  | _ => .error .valueError

/-- One component of one line (file_model.py:123-139). -/
noncomputable def cell (x : Ext V) (col : Column) (default : Option (List Char)) (comp : List Char) :
    Except PyErr (Val V) :=
  if comp = [] then
    match default with
    | none => convDefault col
    | some d => convText x col d
  else convText x col comp

/-- The components of a line (file_model.py:113). -/
def components (line : List Char) : List (List Char) := (splitComma line).map strip

/-- The loop over the columns of one line (file_model.py:120-139); the two lists have the same length. -/
noncomputable def rowVals (x : Ext V) : List (Column × Option (List Char)) → List (List Char) → Except PyErr (List (Val V))
  | (col, d) :: cols, c :: comps =>
    match cell x col d c with
    | .error e => .error e
    | .ok v => match rowVals x cols comps with
      | .error e => .error e
      | .ok vs => .ok (v :: vs)
  | _, _ => .ok []

/-- One line (file_model.py:113-139). -/
noncomputable def parseLine (x : Ext V) (cols : List (Column × Option (List Char))) (line : List Char) :
    Except PyErr (List (Val V)) :=
  if (components line).length ≠ cols.length then .error .valueError
  else rowVals x cols (components line)

/-- `_parse_lines` (file_model.py:109-141): values are appended to the columns. -/
noncomputable def parseLines (x : Ext V) (cols : List (Column × Option (List Char))) :
    List (List Char) → List (List (Val V)) → Except PyErr (List (List (Val V)))
  | [], data => .ok data
  | line :: rest, data =>
    match parseLine x cols line with
    | .error e => .error e
    | .ok row => parseLines x cols rest (List.zipWith (fun l v => l ++ [v]) data row)

/-- The search for the header (file_model.py:185-199): comments are removed. -/
def findHeader : List (List Char) → Option (List Char × List (List Char))
  | [] => none
  | l :: rest =>
    let header := strip (l.takeWhile (· ≠ '#'))
    if header ≠ [] then some (header, rest) else findHeader rest

/-- The lookup of the converters (file_model.py:203-206). -/
def lookupCols : List (List Char × Option (List Char)) → Except PyErr (List (Column × Option (List Char)))
  | [] => .ok []
  | (n, d) :: rest =>
    match columnOf n with
    | none => .error .valueError
    | some c => match lookupCols rest with
      | .error e => .error e
      | .ok cs => .ok ((c, d) :: cs)

/-- `load` (file_model.py:144-211) on the lines of the file. -/
noncomputable def load (x : Ext V) (lines : List (List Char)) : Except PyErr (List (List Char × List (Val V))) :=
  match findHeader lines with
  | none => .error .valueError
  | some (header, rest) =>
    match parseHeader header with
    | .error e => .error e
    | .ok hdr =>
      match lookupCols hdr with
      | .error e => .error e
      | .ok cols =>
        match parseLines x cols rest (cols.map fun _ => []) with
        | .error e => .error e
        | .ok data => .ok ((hdr.map Prod.fst).zip data)

end Verif.ModelData.Wsclean
