/-
Model of util/files.py, format_code of util/code.py and util/docs.py.
-/
import Verif.Basic

set_option autoImplicit false

namespace Verif.Util.Text

/-! ## util/files.py -/

/-- An object of `hashlib`: the state `sha1()`, `.update(bytes)` and `.hexdigest()`. The two laws are hashlib's documentation:
"Repeated calls are equivalent to a single call with the concatenation of all the arguments" (util/files.py:7-15). -/
structure Hasher (B S D : Type*) where
  init : S
  update : S → List B → S
  digest : S → D
  update_nil : ∀ s, update s [] = s
  update_append : ∀ s a b, update (update s a) b = update s (a ++ b)

/-- `for chunk in iter(lambda: f.read(size), b""): hash_sha.update(chunk)` (util/files.py:11-12), where `rest` is what has not
been read yet: `f.read(size)` returns the next `size` bytes, or what is left. -/
def hashLoop {B S D : Type*} (h : Hasher B S D) (size : Nat) (rest : List B) (s : S) : S :=
  if _hc : rest.take size = [] then s
  else hashLoop h size (rest.drop size) (h.update s (rest.take size))
termination_by rest.length
decreasing_by
  have hc := _hc
  rcases rest with _ | ⟨b, rest⟩
  · simp at hc
  · cases size with
    | zero => simp at hc
    | succ k => simp only [List.length_drop, List.length_cons]; omega

/-- `sha_hash_file(filename)` (util/files.py:7-14). A file system maps names to contents; `open` of a missing file raises
(FileNotFoundError, here `none`). -/
def shaHashFile {N B S D : Type*} (h : Hasher B S D) (fs : N → Option (List B)) (filename : N) : Option D :=
  (fs filename).map fun content => h.digest (hashLoop h (1024 * 1024) content h.init)

/-! ## format_code -/

/-- `code.split('\n')` (util/code.py:42). -/
def splitLines : List Char → List (List Char)
  | [] => [[]]
  | c :: r =>
    if c = '\n' then [] :: splitLines r
    else match splitLines r with
      | [] => [[c]]
      | l :: ls => (c :: l) :: ls

/-- `'\n'.join(lines)` (util/code.py:43). -/
def joinLines : List (List Char) → List Char
  | [] => []
  | [l] => l
  | l :: m :: ls => l ++ '\n' :: joinLines (m :: ls)

/-- `"%-5d %s" % (i, l)` (util/code.py:41): the number, padded with blanks on the right to five characters, a blank and the
line. -/
def numbered (i : Nat) (l : List Char) : List Char :=
  let d := Nat.toDigits 10 i
  d ++ List.replicate (5 - d.length) ' ' ++ ' ' :: l

/-- `["%-5d %s" % (i, l) for i, l in enumerate(lines, start)]` (util/code.py:41-42). -/
def numberedFrom : Nat → List (List Char) → List (List Char)
  | _, [] => []
  | i, l :: ls => numbered i l :: numberedFrom (i + 1) ls

/-- `format_code(code)` (util/code.py:26-43). -/
def formatCode (code : List Char) : List Char := joinLines ([] :: numberedFrom 1 (splitLines code))

/-! ## util/docs.py -/

/-- What is left of `s` after the prefix `p`, if `p` is one (util/docs.py:15-19). -/
def stripPrefix : List Char → List Char → Option (List Char)
  | [], s => some s
  | _ :: _, [] => none
  | a :: p, b :: s => if a = b then stripPrefix p s else none

/-- `s.replace(a :: p, r)` (Python, used in util/docs.py:17): occurrences are replaced from left to right without overlap. The
fuel is the length of the string. -/
def replaceGo (p r : List Char) : Nat → List Char → List Char
  | 0, s => s
  | _ + 1, [] => []
  | fuel + 1, c :: s =>
    match stripPrefix p (c :: s) with
    | some rest => r ++ replaceGo p r fuel rest
    | none => c :: replaceGo p r fuel s

/-- `s.replace(p, r)`; an empty `p` occurs before each character and at the end (util/docs.py:15-19). -/
def pyReplace (p r s : List Char) : List Char :=
  if p = [] then s.foldr (fun c t => r ++ c :: t) r else replaceGo p r s.length s

/-- `mod_docs(docstring, replacements)` (util/docs.py:15-19). -/
def modDocs (docstring : List Char) (replacements : List (List Char × List Char)) : List Char :=
  replacements.foldl (fun d sr => pyReplace sr.1 sr.2 d) docstring

/-- The argument of `doc_tuple_to_str`: a namedtuple (its fields in order), a dict (its values in insertion order) or something
else (util/docs.py:22-33). -/
inductive DocArg
  | namedtuple (fields : List (List Char))
  | dict (values : List (List Char))
  | other

/-- `doc_tuple_to_str(doc_tuple, replacements)` (util/docs.py:22-33). For other arguments `fields` stays `None`, which can
neither be iterated over nor joined: TypeError. -/
def docTupleToStr (arg : DocArg) (replacements : Option (List (List Char × List Char))) : Except PyErr (List Char) :=
  let fields := match arg with
    | .namedtuple fs => some fs
    | .dict vs => some vs
    | .other => none
  match fields with
  | none => .error .typeError
  | some fs =>
    match replacements with
    | none => .ok fs.flatten
    | some r => .ok (fs.map fun f => modDocs f r).flatten

/-- First character of `Template.idpattern` `(?a:[_a-z][_a-z0-9]*)`, with `re.IGNORECASE` (util/docs.py:46-60). -/
def idStart (c : Char) : Bool := c = '_' || ('a' ≤ c && c ≤ 'z') || ('A' ≤ c && c ≤ 'Z')

/-- Further characters of `Template.idpattern` (util/docs.py:46-60). -/
def idChar (c : Char) : Bool := idStart c || ('0' ≤ c && c ≤ '9')

/-- A greedy match of `idpattern` at the start of the text: the identifier and what follows (util/docs.py:46-60). -/
def matchId : List Char → Option (List Char × List Char)
  | [] => none
  | c :: s => if idStart c then some (c :: s.takeWhile idChar, s.dropWhile idChar) else none

/-- What follows a delimiter: the alternatives of the pattern (util/docs.py:51-57) in their order. -/
inductive Found
  | escaped (rest : List Char)
  | name (id rest : List Char)
  | invalid

/-- The alternatives `escaped`, `named`, `braced` and `invalid` (util/docs.py:53-56). -/
def afterDelim : List Char → Found
  | [] => .invalid
  | c :: t =>
    if c = '$' then .escaped t
    else match matchId (c :: t) with
      | some (id, rest) => .name id rest
      | none =>
        if c = '(' then
          match matchId t with
          | some (id, d :: rest) => if d = ')' then .name id rest else .invalid
          | _ => .invalid
        else .invalid

/-- `DocstringTemplate(template).substitute(mapping)` (util/docs.py:46-59; `string.Template.substitute`): `pattern.sub` with the
first match from left to right, values are not looked at again. A missing name raises KeyError, an ill-formed placeholder
ValueError. The fuel is the length of the template. -/
def substGo (env : List Char → Option (List Char)) : Nat → List Char → Except PyErr (List Char)
  | _, [] => .ok []
  | 0, _ :: _ => .ok []
  | fuel + 1, c :: s =>
    if c = '$' then
      match afterDelim s with
      | .escaped rest => (substGo env fuel rest).map ('$' :: ·)
      | .name id rest =>
        match env id with
        | none => .error .keyError
        | some v => (substGo env fuel rest).map (v ++ ·)
      | .invalid => .error .valueError
    else (substGo env fuel s).map (c :: ·)

/-- `substitute` (util/docs.py:46-60). -/
def substitute (env : List Char → Option (List Char)) (template : List Char) : Except PyErr (List Char) :=
  substGo env template.length template

end Verif.Util.Text
