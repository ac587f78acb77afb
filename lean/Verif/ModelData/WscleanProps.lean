/-
C49 for the model of africanus/model/wsclean/file_model.py: source lists are parsed positionally.
-/
import Verif.ModelData.Wsclean
import Mathlib.Data.List.TakeWhile
import Mathlib.Data.Nat.Digits.Defs
import Mathlib.Tactic.IntervalCases
import Mathlib.Tactic.Linarith
import Mathlib.Tactic.NormNum

set_option autoImplicit false

namespace Verif.ModelData.Wsclean

variable {V : Type}

/-! ### Specification -/

/-- A line without content: nothing but white space before the comment sign. -/
def Blank (l : List Char) : Prop := ∀ c ∈ l.takeWhile (· ≠ '#'), isWs c = true

/-- A field without commas and brackets. -/
def Plain (f : List Char) : Prop := ∀ c ∈ f, c ≠ ',' ∧ c ≠ '[' ∧ c ≠ ']'

/-- A field with one bracketed part, in which commas are allowed. -/
def Bracketed (f : List Char) : Prop :=
  ∃ a b d, f = a ++ '[' :: (b ++ ']' :: d) ∧ Plain a ∧ Plain d ∧ ∀ c ∈ b, c ≠ '[' ∧ c ≠ ']'

/-- One of the ten digits. -/
def Digit (c : Char) : Prop := c ∈ ['0', '1', '2', '3', '4', '5', '6', '7', '8', '9']

/-- A non-empty string of digits. -/
def Digits (s : List Char) : Prop := s ≠ [] ∧ ∀ c ∈ s, Digit c

/-- The number a string of digits stands for. -/
def number (s : List Char) : ℕ := Nat.ofDigits 10 (s.reverse.map fun c => c.toNat - 48)

/-- Seconds with an optional decimal part. -/
def secsText (i : List Char) : Option (List Char) → List Char
  | none => i
  | some f => i ++ '.' :: f

/-- The value of seconds with an optional decimal part. -/
def secsVal (i : List Char) : Option (List Char) → ℚ
  | none => number i
  | some f => number i + (number f : ℚ) / 10 ^ f.length

/-- The sign texts and their values. -/
inductive SignText : List Char → ℚ → Prop
  | none : SignText [] 1
  | plus : SignText ['+'] 1
  | minus : SignText ['-'] (-1)

/-- What `load` should produce from a file whose header declares `hdr` for the data lines `rest`: for every column the name
from the header and one value per line, the k-th value coming from the k-th line's field in that column. -/
structure Loaded (x : Ext V) (hdr : List (List Char × Option (List Char))) (rest : List (List Char))
    (out : List (List Char × List (Val V))) : Prop where
  names : out.map Prod.fst = hdr.map Prod.fst
  counts : ∀ col ∈ out, col.2.length = rest.length
  fields : ∀ line ∈ rest, (components line).length = hdr.length
  value : ∀ (k j : Nat) (n : List Char) (d : Option (List Char)) (line : List Char),
    hdr[k]? = some (n, d) → rest[j]? = some line →
    ∃ (c : Column) (f : List Char) (vals : List (Val V)) (v : Val V), columnOf n = some c ∧
      (components line)[k]? = some f ∧ out[k]? = some (n, vals) ∧ vals[j]? = some v ∧ cell x c d f = .ok v

/-! ### White space -/

theorem strip_eq_nil (s : List Char) : strip s = [] ↔ ∀ c ∈ s, isWs c = true := by
  unfold strip
  rw [List.reverse_eq_nil_iff, List.dropWhile_eq_nil_iff]
  constructor
  · intro h c hc
    by_contra hn
    have : s.dropWhile isWs ≠ [] := by
      intro h0; rw [List.dropWhile_eq_nil_iff] at h0; exact hn (h0 c hc)
    have h2 := List.head_dropWhile_not isWs this
    rw [h _ (by simpa using List.head_mem this)] at h2
    cases h2
  · intro h c hc
    exact h c ((List.dropWhile_sublist _).subset (by simpa using hc))

theorem dropWhile_append_ws {a s : List Char} (ha : ∀ c ∈ a, isWs c = true) :
    (a ++ s).dropWhile isWs = s.dropWhile isWs := by
  induction a with
  | nil => rfl
  | cons c a ih =>
    simp only [List.mem_cons, forall_eq_or_imp] at ha
    rw [List.cons_append, List.dropWhile_cons, if_pos ha.1, ih ha.2]

theorem dropWhile_stop {s : List Char} (h : ∀ c, s.head? = some c → isWs c = false) : s.dropWhile isWs = s := by
  cases s with
  | nil => rfl
  | cons c s => rw [List.dropWhile_cons, if_neg (by simp [h c rfl])]

theorem strip_pad {a b s : List Char} (ha : ∀ c ∈ a, isWs c = true) (hb : ∀ c ∈ b, isWs c = true)
    (h1 : ∀ c, s.head? = some c → isWs c = false) (h2 : ∀ c, s.getLast? = some c → isWs c = false) :
    strip (a ++ s ++ b) = s := by
  unfold strip
  rw [List.append_assoc, dropWhile_append_ws ha]
  by_cases hs : s = []
  · subst hs
    rw [List.nil_append, List.dropWhile_eq_nil_iff.2 hb]; rfl
  · rw [dropWhile_stop (s := s ++ b), List.reverse_append, dropWhile_append_ws (by simpa using hb), dropWhile_stop,
      List.reverse_reverse]
    · simpa [List.head?_reverse] using h2
    · intro c hc
      apply h1
      rw [List.head?_append] at hc
      cases s with
      | nil => exact absurd rfl hs
      | cons x s => simpa using hc

/-! ### Splitting -/

/-- Prepend text to the first component. -/
def prepend (a : List Char) : List (List Char) → List (List Char)
  | h :: r => (a ++ h) :: r
  | [] => [a]

theorem splitComma_ne_nil (s : List Char) : splitComma s ≠ [] := by
  cases s with
  | nil => simp [splitComma]
  | cons c t =>
    unfold splitComma
    split
    · simp
    · split <;> simp

theorem splitComma_cons {c : Char} {t : List Char} (h : ¬ (c = ',' ∧ lookahead t = true)) :
    splitComma (c :: t) = prepend [c] (splitComma t) := by
  rw [splitComma, if_neg (by simpa using h)]
  cases splitComma t <;> rfl

theorem prepend_prepend {a b : List Char} {l : List (List Char)} : prepend a (prepend b l) = prepend (a ++ b) l := by
  cases l <;> simp [prepend]

theorem prepend_nil {l : List (List Char)} (h : l ≠ []) : prepend [] l = l := by
  cases l with
  | nil => exact absurd rfl h
  | cons a l => rfl

theorem split_plain {a s : List Char} (ha : ∀ c ∈ a, c ≠ ',') : splitComma (a ++ s) = prepend a (splitComma s) := by
  induction a with
  | nil => rw [List.nil_append, prepend_nil (splitComma_ne_nil s)]
  | cons c a ih =>
    simp only [List.mem_cons, forall_eq_or_imp] at ha
    rw [List.cons_append, splitComma_cons (by simp [ha.1]), ih ha.2, prepend_prepend]
    rfl

theorem lookahead_append {a s : List Char} (ha : ∀ c ∈ a, c ≠ '[' ∧ c ≠ ']') : lookahead (a ++ s) = lookahead s := by
  induction a with
  | nil => rfl
  | cons c a ih =>
    simp only [List.mem_cons, forall_eq_or_imp] at ha
    rw [List.cons_append, lookahead, if_neg ha.1.2, if_neg ha.1.1, ih ha.2]

theorem split_inner {b s : List Char} (hb : ∀ c ∈ b, c ≠ '[' ∧ c ≠ ']') :
    splitComma (b ++ ']' :: s) = prepend b (splitComma (']' :: s)) := by
  induction b with
  | nil => rw [List.nil_append, prepend_nil (splitComma_ne_nil _)]
  | cons c b ih =>
    simp only [List.mem_cons, forall_eq_or_imp] at hb
    have hl : lookahead (b ++ ']' :: s) = false := by
      rw [lookahead_append hb.2]; simp [lookahead]
    rw [List.cons_append, splitComma_cons (by simp [hl]), ih hb.2, prepend_prepend]
    rfl

theorem split_field {f s : List Char} (hf : Plain f ∨ Bracketed f) : splitComma (f ++ s) = prepend f (splitComma s) := by
  rcases hf with hf | ⟨a, b, d, rfl, ha, hd, hb⟩
  · exact split_plain fun c hc => (hf c hc).1
  · have e : a ++ '[' :: (b ++ ']' :: d) ++ s = (a ++ ['[']) ++ (b ++ ']' :: (d ++ s)) := by simp
    rw [e, split_plain, split_inner hb, show ']' :: (d ++ s) = (']' :: d) ++ s from rfl, split_plain, prepend_prepend,
      prepend_prepend]
    · congr 1; simp
    · intro c hc
      rcases List.mem_cons.1 hc with rfl | hc
      · decide
      · exact (hd c hc).1
    · intro c hc
      rcases List.mem_append.1 hc with hc | hc
      · exact (ha c hc).1
      · rw [List.mem_singleton.1 hc]; decide

theorem lookahead_field {f s : List Char} (hf : Plain f ∨ Bracketed f) (hs : lookahead s = true) :
    lookahead (f ++ s) = true := by
  rcases hf with hf | ⟨a, b, d, rfl, ha, hd, hb⟩
  · rw [lookahead_append fun c hc => (hf c hc).2, hs]
  · rw [List.append_assoc, lookahead_append fun c hc => (ha c hc).2]
    simp [lookahead]

/-- Fields separated by commas. -/
def joinFields : List (List Char) → List Char
  | [] => []
  | [f] => f
  | f :: g :: r => f ++ ',' :: joinFields (g :: r)

theorem lookahead_join {fs : List (List Char)} (h : ∀ f ∈ fs, Plain f ∨ Bracketed f) : lookahead (joinFields fs) = true := by
  induction fs with
  | nil => rfl
  | cons f fs ih =>
    have h' : ∀ f ∈ fs, Plain f ∨ Bracketed f := fun g hg => h g (List.mem_cons_of_mem _ hg)
    cases fs with
    | nil =>
      have := lookahead_field (s := []) (h f (by simp)) rfl
      simpa [joinFields] using this
    | cons g r =>
      rw [joinFields]
      apply lookahead_field (h f (by simp))
      rw [lookahead, if_neg (by decide), if_neg (by decide)]
      exact ih h'

theorem split_join {fs : List (List Char)} (hne : fs ≠ []) (h : ∀ f ∈ fs, Plain f ∨ Bracketed f) :
    splitComma (joinFields fs) = fs := by
  induction fs with
  | nil => exact absurd rfl hne
  | cons f fs ih =>
    have h' : ∀ f ∈ fs, Plain f ∨ Bracketed f := fun g hg => h g (List.mem_cons_of_mem _ hg)
    cases fs with
    | nil =>
      have := split_field (s := []) (h f (by simp))
      simpa [joinFields, splitComma, prepend] using this
    | cons g r =>
      rw [joinFields, split_field (h f (by simp)), splitComma, if_pos (by simp [lookahead_join h']), ih (by simp) h']
      simp [prepend]

/-- **C49** A line made of fields separated by commas, where commas inside a bracketed part do not separate, has exactly
those fields, without the white space around them. -/
theorem C49_fields (fs : List (List Char)) (hne : fs ≠ []) (h : ∀ f ∈ fs, Plain f ∨ Bracketed f) :
    components (joinFields fs) = fs.map strip ∧
    ∀ a b s : List Char, (∀ c ∈ a, isWs c = true) → (∀ c ∈ b, isWs c = true) →
      (∀ c, s.head? = some c → isWs c = false) → (∀ c, s.getLast? = some c → isWs c = false) →
      strip (a ++ s ++ b) = s :=
  ⟨by rw [components, split_join hne h], fun _ _ _ => strip_pad⟩

/-- Non-vacuity: a field with a comma in brackets is one field. -/
example : components " s0, POINT,[-0.7, 0.1],\n".toList =
    ["s0".toList, "POINT".toList, "[-0.7, 0.1]".toList, []] := by decide +kernel

/-! ### Angles -/

theorem digitsVal_append (s : List Char) (c : Char) : digitsVal (s ++ [c]) = 10 * digitsVal s + (c.toNat - 48) := by
  simp [digitsVal]

theorem digitsVal_eq (s : List Char) : digitsVal s = number s := by
  induction s using List.reverseRecOn with
  | nil => rfl
  | append_singleton s c ih =>
    rw [digitsVal_append, ih]
    simp [number, Nat.ofDigits_cons]
    omega

theorem digit_iff (c : Char) : isDigit c = true ↔ Digit c := by
  constructor
  · intro h
    simp only [isDigit, Bool.and_eq_true, decide_eq_true_eq] at h
    obtain ⟨n, hn⟩ : ∃ n, n = c.toNat := ⟨_, rfl⟩
    have hc : c = Char.ofNat n := by rw [hn, Char.ofNat_toNat]
    rw [← hn] at h
    obtain ⟨h1, h2⟩ := h
    subst hc
    clear hn
    interval_cases n <;> (unfold Digit; decide)
  · intro h
    unfold Digit at h
    simp only [List.mem_cons, List.not_mem_nil, or_false] at h
    rcases h with rfl | rfl | rfl | rfl | rfl | rfl | rfl | rfl | rfl | rfl <;> decide

theorem span_digits {a s : List Char} (ha : ∀ c ∈ a, Digit c)
    (hs : ∀ c, s.head? = some c → isDigit c = false) :
    (a ++ s).takeWhile isDigit = a ∧ (a ++ s).dropWhile isDigit = s := by
  induction a with
  | nil =>
    cases s with
    | nil => exact ⟨rfl, rfl⟩
    | cons c s => simp [hs c rfl]
  | cons c a ih =>
    simp only [List.mem_cons, forall_eq_or_imp] at ha
    simp [(digit_iff c).2 ha.1, ih ha.2]

theorem scan_text (sep : Char) (hsep : isDigit sep = false) {a b i : List Char} (f : Option (List Char))
    (ha : Digits a) (hb : Digits b) (hi : Digits i) (hf : ∀ g, f = some g → ∀ c ∈ g, Digit c) :
    scanAngle sep (a ++ sep :: (b ++ sep :: secsText i f)) = some (number a, number b, secsVal i f) := by
  have e1 := span_digits (s := sep :: (b ++ sep :: secsText i f)) ha.2 (by simpa using hsep)
  have e2 := span_digits (s := sep :: secsText i f) hb.2 (by simpa using hsep)
  unfold scanAngle
  simp only [e1.1, e1.2, e2.1, e2.2, if_neg ha.1, if_neg hb.1, ne_eq, not_true_eq_false, if_false]
  cases f with
  | none =>
    have e3 := span_digits (s := []) hi.2 (by simp)
    rw [List.append_nil] at e3
    simp only [secsText, e3.1, e3.2, if_neg hi.1]
    simp [digitsVal_eq, decimalVal, secsVal, number]
  | some g =>
    have e3 := span_digits (s := '.' :: g) hi.2 (by simp; decide)
    have e4 := span_digits (s := []) (hf g rfl) (by simp)
    rw [List.append_nil] at e4
    simp only [secsText, e3.1, e3.2, if_neg hi.1, if_true, e4.1]
    simp [digitsVal_eq, decimalVal, secsVal]

theorem sign_of {c : Char} (h : isSign c = true) : c = '+' ∨ c = '-' := by
  simpa [isSign] using h

theorem digit_not_sign {c : Char} (h : isDigit c = true) : isSign c = false := by
  by_contra hn
  simp only [Bool.not_eq_false, isSign, Bool.or_eq_true, beq_iff_eq] at hn
  rcases hn with rfl | rfl <;> revert h <;> decide

theorem sign_split {sg s : List Char} {q : ℚ} (h : SignText sg q) (hs : ∀ c, s.head? = some c → isSign c = false) :
    (sg ++ s).takeWhile isSign = sg ∧ (sg ++ s).dropWhile isSign = s := by
  have h0 : s.takeWhile isSign = [] ∧ s.dropWhile isSign = s := by
    cases s with
    | nil => exact ⟨rfl, rfl⟩
    | cons c s => simp [hs c rfl]
  cases h <;> simp [h0, isSign]

theorem head_angle {a s : List Char} (ha : Digits a) : ∀ c, (a ++ s).head? = some c → isSign c = false := by
  intro c hc
  cases a with
  | nil => exact absurd rfl ha.1
  | cons d a =>
    simp only [List.cons_append, List.head?_cons, Option.some.injEq] at hc
    exact digit_not_sign ((digit_iff c).2 (hc ▸ ha.2 d (by simp)))

/-- **C49** A right ascension `±hh:mm:ss[.fff]` is converted to the angle `±(hh/24 + mm/1440 + ss.fff/86400)` turns, the sign
applying to all parts. -/
theorem C49_hours (x : Ext V) (sg h m i : List Char) (f : Option (List Char)) (q : ℚ) (hs : SignText sg q)
    (hh : Digits h) (hm : Digits m) (hi : Digits i) (hf : ∀ g, f = some g → ∀ c ∈ g, Digit c) :
    convText x .ra (sg ++ (h ++ ':' :: (m ++ ':' :: secsText i f))) =
      .ok (.num (2 * Real.pi *
        (q * (number h / 24 + number m / 1440 + secsVal i f / 86400) : ℚ))) := by
  have e := sign_split (s := h ++ ':' :: (m ++ ':' :: secsText i f)) hs (head_angle hh)
  have hv : hourTurns (sg ++ (h ++ ':' :: (m ++ ':' :: secsText i f))) =
      some (q * (number h / 24 + number m / 1440 + secsVal i f / 86400)) := by
    unfold hourTurns
    rw [e.1, e.2, scan_text ':' (by decide) f hh hm hi hf, Option.map_some]
    cases hs <;> simp [turns] <;> norm_num
  unfold convText
  simp only [hv]

/-- **C49** A declination `±dd.mm.ss[.fff]` is converted to the angle `±(dd/360 + mm/21600 + ss.fff/1296000)` turns, the sign
applying to all parts. -/
theorem C49_degrees (x : Ext V) (sg h m i : List Char) (f : Option (List Char)) (q : ℚ) (hs : SignText sg q)
    (hh : Digits h) (hm : Digits m) (hi : Digits i) (hf : ∀ g, f = some g → ∀ c ∈ g, Digit c) :
    convText x .dec (sg ++ (h ++ '.' :: (m ++ '.' :: secsText i f))) =
      .ok (.num (2 * Real.pi *
        (q * (number h / 360 + number m / 21600 + secsVal i f / 1296000) : ℚ))) := by
  have e := sign_split (s := h ++ '.' :: (m ++ '.' :: secsText i f)) hs (head_angle hh)
  have hv : degTurns (sg ++ (h ++ '.' :: (m ++ '.' :: secsText i f))) =
      some (q * (number h / 360 + number m / 21600 + secsVal i f / 1296000)) := by
    unfold degTurns
    rw [e.1, e.2, scan_text '.' (by decide) f hh hm hi hf, Option.map_some]
    cases hs <;> simp [turns] <;> norm_num
  unfold convText
  simp only [hv]

/-- Non-vacuity: minus zero degrees, thirty minutes. -/
example : degTurns "-00.30.00.0".toList = some (-(1 / 720)) ∧ hourTurns "12:00:36.0".toList = some (1201 / 2400) := by
  decide +kernel

theorem scan_some {sep : Char} {s : List Char} {p : Nat × Nat × ℚ} (h : scanAngle sep s = some p) :
    ∃ a b i t, Digits a ∧ Digits b ∧ Digits i ∧ s = a ++ sep :: (b ++ sep :: (i ++ t)) := by
  have hd : ∀ s : List Char, ∀ c ∈ s.takeWhile isDigit, Digit c := fun s c hc =>
    (digit_iff c).1 (List.mem_takeWhile_imp hc)
  unfold scanAngle at h
  simp only at h
  split at h
  · cases h
  rename_i ha
  split at h
  · cases h
  rename_i c s2 h1
  split at h
  · cases h
  rename_i hc
  split at h
  · cases h
  rename_i hb
  split at h
  · cases h
  rename_i c' s4 h2
  split at h
  · cases h
  rename_i hc'
  split at h
  · cases h
  rename_i hi
  push Not at hc hc'
  subst hc; subst hc'
  refine ⟨s.takeWhile isDigit, s2.takeWhile isDigit, s4.takeWhile isDigit, s4.dropWhile isDigit, ⟨ha, hd _⟩, ⟨hb, hd _⟩,
    ⟨hi, hd _⟩, ?_⟩
  rw [List.takeWhile_append_dropWhile, ← h2, List.takeWhile_append_dropWhile, ← h1, List.takeWhile_append_dropWhile]

/-- **C49**, in part: a right ascension or declination that does not begin with three numbers in the stated form, after any
signs, is rejected with `ValueError`. Missing: text after such a beginning should be rejected too (`C49_violated`). -/
theorem C49_angle_reject_partial (x : Ext V) (s : List Char) :
    ((¬ ∃ sg a b i t, (∀ c ∈ sg, c = '+' ∨ c = '-') ∧ Digits a ∧ Digits b ∧ Digits i ∧
        s = sg ++ (a ++ ':' :: (b ++ ':' :: (i ++ t)))) → convText x .ra s = .error .valueError) ∧
    ((¬ ∃ sg a b i t, (∀ c ∈ sg, c = '+' ∨ c = '-') ∧ Digits a ∧ Digits b ∧ Digits i ∧
        s = sg ++ (a ++ '.' :: (b ++ '.' :: (i ++ t)))) → convText x .dec s = .error .valueError) := by
  constructor
  · intro h
    have : hourTurns s = none := by
      unfold hourTurns
      rw [Option.map_eq_none_iff]
      by_contra hn
      obtain ⟨p, hp⟩ := Option.ne_none_iff_exists'.1 hn
      obtain ⟨a, b, i, t, ha, hb, hi, e⟩ := scan_some hp
      exact h ⟨s.takeWhile isSign, a, b, i, t, fun c hc => sign_of (List.mem_takeWhile_imp hc), ha, hb, hi, by
        rw [← e, List.takeWhile_append_dropWhile]⟩
    unfold convText
    simp only [this]
  · intro h
    have : degTurns s = none := by
      unfold degTurns
      rw [Option.map_eq_none_iff]
      by_contra hn
      obtain ⟨p, hp⟩ := Option.ne_none_iff_exists'.1 hn
      obtain ⟨a, b, i, t, ha, hb, hi, e⟩ := scan_some hp
      exact h ⟨s.takeWhile isSign, a, b, i, t, fun c hc => sign_of (List.mem_takeWhile_imp hc), ha, hb, hi, by
        rw [← e, List.takeWhile_append_dropWhile]⟩
    unfold convText
    simp only [this]

/-- Non-vacuity: a decimal number of degrees is not accepted. -/
example : hourTurns "12.5".toList = none ∧ degTurns "-30.5".toList = none := by decide +kernel

/-! ### Loading -/

theorem rowVals_ok {x : Ext V} {cols : List (Column × Option (List Char))} {comps : List (List Char)}
    {row : List (Val V)} (hl : comps.length = cols.length) (h : rowVals x cols comps = .ok row) :
    row.length = cols.length ∧ ∀ (k : Nat) (c : Column) (d : Option (List Char)), cols[k]? = some (c, d) →
      ∃ (f : List Char) (v : Val V), comps[k]? = some f ∧ row[k]? = some v ∧ cell x c d f = .ok v := by
  induction cols generalizing comps row with
  | nil =>
    cases comps with
    | nil => simp only [rowVals, Except.ok.injEq] at h; subst h; simp
    | cons a b => simp at hl
  | cons cd cols ih =>
    obtain ⟨c0, d0⟩ := cd
    cases comps with
    | nil => simp at hl
    | cons f comps =>
      simp only [rowVals] at h
      cases hc : cell x c0 d0 f with
      | error e => rw [hc] at h; cases h
      | ok v =>
        rw [hc] at h
        simp only at h
        cases hr : rowVals x cols comps with
        | error e => rw [hr] at h; cases h
        | ok vs =>
          rw [hr] at h
          simp only [Except.ok.injEq] at h
          subst h
          obtain ⟨h1, h2⟩ := ih (by simpa using hl) hr
          refine ⟨by simp [h1], ?_⟩
          intro k c d hk
          cases k with
          | zero =>
            simp only [List.getElem?_cons_zero, Option.some.injEq, Prod.mk.injEq] at hk
            obtain ⟨rfl, rfl⟩ := hk
            exact ⟨f, v, rfl, rfl, hc⟩
          | succ k =>
            simpa using h2 k c d (by simpa using hk)

theorem rowVals_total {x : Ext V} {cols : List (Column × Option (List Char))} {comps : List (List Char)}
    (h : ∀ (k : Nat) (c : Column) (d : Option (List Char)) (f : List Char), cols[k]? = some (c, d) → comps[k]? = some f →
      ∃ v, cell x c d f = .ok v) : ∃ row, rowVals x cols comps = .ok row := by
  induction cols generalizing comps with
  | nil => exact ⟨[], by simp [rowVals]⟩
  | cons cd cols ih =>
    obtain ⟨c0, d0⟩ := cd
    cases comps with
    | nil => exact ⟨[], by simp [rowVals]⟩
    | cons f comps =>
      obtain ⟨v, hv⟩ := h 0 c0 d0 f rfl rfl
      obtain ⟨vs, hvs⟩ := ih (comps := comps) fun k c d g hk hg => h (k + 1) c d g (by simpa using hk) (by simpa using hg)
      exact ⟨v :: vs, by simp [rowVals, hv, hvs]⟩

theorem parseLines_ok {x : Ext V} {cols : List (Column × Option (List Char))} {lines : List (List Char)}
    {data out : List (List (Val V))} (hd : data.length = cols.length) (h : parseLines x cols lines data = .ok out) :
    out.length = cols.length ∧ (∀ line ∈ lines, (components line).length = cols.length) ∧
    ∀ (k : Nat) (c : Column) (d : Option (List Char)) (col0 : List (Val V)), cols[k]? = some (c, d) → data[k]? = some col0 →
      ∃ vals : List (Val V), out[k]? = some (col0 ++ vals) ∧ vals.length = lines.length ∧
        ∀ (j : Nat) (line : List Char), lines[j]? = some line →
          ∃ (f : List Char) (v : Val V), (components line)[k]? = some f ∧ vals[j]? = some v ∧ cell x c d f = .ok v := by
  induction lines generalizing data with
  | nil =>
    simp only [parseLines, Except.ok.injEq] at h
    subst h
    refine ⟨hd, by simp, ?_⟩
    intro k c d col0 _ hk
    exact ⟨[], by simpa using hk, rfl, by simp⟩
  | cons line lines ih =>
    simp only [parseLines] at h
    cases hp : parseLine x cols line with
    | error e => rw [hp] at h; cases h
    | ok row =>
      rw [hp] at h
      simp only at h
      unfold parseLine at hp
      split at hp
      · cases hp
      rename_i hl
      push Not at hl
      obtain ⟨hrl, hrv⟩ := rowVals_ok hl hp
      obtain ⟨h1, h2, h3⟩ := ih (by simp [hd, hrl]) h
      refine ⟨h1, ?_, ?_⟩
      · intro l hm
        rcases List.mem_cons.1 hm with rfl | hm
        · exact hl
        · exact h2 l hm
      · intro k c d col0 hc hk
        obtain ⟨f, v, hf, hv, hcell⟩ := hrv k c d hc
        obtain ⟨vals, e1, e2, e3⟩ := h3 k c d (col0 ++ [v]) hc (by simp [List.getElem?_zipWith, hk, hv])
        refine ⟨v :: vals, by simpa using e1, by simp [e2], ?_⟩
        intro j l hj
        cases j with
        | zero =>
          simp only [List.getElem?_cons_zero, Option.some.injEq] at hj
          subst hj
          exact ⟨f, v, hf, rfl, hcell⟩
        | succ j =>
          simpa using e3 j l (by simpa using hj)

theorem parseLines_total {x : Ext V} {cols : List (Column × Option (List Char))} {lines : List (List Char)}
    (data : List (List (Val V))) (hl : ∀ line ∈ lines, (components line).length = cols.length)
    (h : ∀ line ∈ lines, ∀ (k : Nat) (c : Column) (d : Option (List Char)) (f : List Char), cols[k]? = some (c, d) →
      (components line)[k]? = some f → ∃ v, cell x c d f = .ok v) : ∃ out, parseLines x cols lines data = .ok out := by
  induction lines generalizing data with
  | nil => exact ⟨data, rfl⟩
  | cons line lines ih =>
    obtain ⟨row, hr⟩ := rowVals_total (x := x) (cols := cols) (comps := components line)
      (h line (by simp))
    have hp : parseLine x cols line = .ok row := by
      unfold parseLine; rw [if_neg (by simpa using hl line (by simp)), hr]
    simp only [parseLines, hp]
    exact ih _ (fun l hm => hl l (List.mem_cons_of_mem _ hm)) fun l hm => h l (List.mem_cons_of_mem _ hm)

theorem lookup_ok {hdr : List (List Char × Option (List Char))} {cols : List (Column × Option (List Char))}
    (h : lookupCols hdr = .ok cols) : cols.length = hdr.length ∧
    ∀ (k : Nat) (n : List Char) (d : Option (List Char)), hdr[k]? = some (n, d) →
      ∃ c, columnOf n = some c ∧ cols[k]? = some (c, d) := by
  induction hdr generalizing cols with
  | nil => simp only [lookupCols, Except.ok.injEq] at h; subst h; simp
  | cons nd hdr ih =>
    obtain ⟨n0, d0⟩ := nd
    simp only [lookupCols] at h
    cases hc : columnOf n0 with
    | none => rw [hc] at h; cases h
    | some c0 =>
      rw [hc] at h
      simp only at h
      cases hr : lookupCols hdr with
      | error e => rw [hr] at h; cases h
      | ok cs =>
        rw [hr] at h
        simp only [Except.ok.injEq] at h
        subst h
        obtain ⟨h1, h2⟩ := ih hr
        refine ⟨by simp [h1], ?_⟩
        intro k n d hk
        cases k with
        | zero =>
          simp only [List.getElem?_cons_zero, Option.some.injEq, Prod.mk.injEq] at hk
          obtain ⟨rfl, rfl⟩ := hk
          exact ⟨c0, hc, rfl⟩
        | succ k => simpa using h2 k n d (by simpa using hk)

theorem lookup_total {hdr : List (List Char × Option (List Char))} (h : ∀ nd ∈ hdr, ∃ c, columnOf nd.1 = some c) :
    ∃ cols, lookupCols hdr = .ok cols := by
  induction hdr with
  | nil => exact ⟨[], rfl⟩
  | cons nd hdr ih =>
    obtain ⟨c, hc⟩ := h nd (by simp)
    obtain ⟨cs, hcs⟩ := ih fun nd' hm => h nd' (List.mem_cons_of_mem _ hm)
    exact ⟨(c, nd.2) :: cs, by obtain ⟨n, d⟩ := nd; simp only [lookupCols]; simp only at hc; simp [hc, hcs]⟩

theorem blank_iff (l : List Char) : strip (l.takeWhile (· ≠ '#')) = [] ↔ Blank l := strip_eq_nil _

theorem findHeader_some {lines : List (List Char)} {header : List Char} {rest : List (List Char)}
    (h : findHeader lines = some (header, rest)) : ∃ pre hl, lines = pre ++ hl :: rest ∧ (∀ l ∈ pre, Blank l) ∧
      ¬ Blank hl ∧ header = strip (hl.takeWhile (· ≠ '#')) := by
  induction lines with
  | nil => cases h
  | cons l lines ih =>
    simp only [findHeader] at h
    split at h
    · rename_i hb
      simp only [Option.some.injEq, Prod.mk.injEq] at h
      obtain ⟨rfl, rfl⟩ := h
      exact ⟨[], l, rfl, by simp, fun hh => hb ((blank_iff l).2 hh), rfl⟩
    · rename_i hb
      push Not at hb
      obtain ⟨pre, hl, rfl, h1, h2, h3⟩ := ih h
      exact ⟨l :: pre, hl, rfl, by simpa using ⟨(blank_iff l).1 hb, h1⟩, h2, h3⟩

theorem findHeader_of {pre rest : List (List Char)} {hl : List Char} (h1 : ∀ l ∈ pre, Blank l) (h2 : ¬ Blank hl) :
    findHeader (pre ++ hl :: rest) = some (strip (hl.takeWhile (· ≠ '#')), rest) := by
  induction pre with
  | nil =>
    simp only [List.nil_append, findHeader]
    rw [if_pos fun hh => h2 ((blank_iff hl).1 hh)]
  | cons l pre ih =>
    simp only [List.cons_append, findHeader]
    rw [if_neg (by simpa using (blank_iff l).2 (h1 l (by simp)))]
    exact ih fun l' hm => h1 l' (List.mem_cons_of_mem _ hm)

/-- **C49** A file is loaded exactly when, after blank and comment lines, there is a header with known column names and every
line after it has one field per column, each convertible to its column's type. -/
theorem C49_accept_iff (x : Ext V) (lines : List (List Char)) :
    (∃ out, load x lines = .ok out) ↔
    ∃ pre hl rest hdr, lines = pre ++ hl :: rest ∧ (∀ l ∈ pre, Blank l) ∧ ¬ Blank hl ∧
      parseHeader (strip (hl.takeWhile (· ≠ '#'))) = .ok hdr ∧ (∀ nd ∈ hdr, ∃ c, columnOf nd.1 = some c) ∧
      (∀ line ∈ rest, (components line).length = hdr.length) ∧
      ∀ line ∈ rest, ∀ (k : Nat) (n : List Char) (d : Option (List Char)) (f : List Char) (c : Column),
        hdr[k]? = some (n, d) → columnOf n = some c → (components line)[k]? = some f → ∃ v, cell x c d f = .ok v := by
  constructor
  · rintro ⟨out, h⟩
    unfold load at h
    split at h
    · cases h
    rename_i header rest hf
    split at h
    · cases h
    rename_i hdr hh
    split at h
    · cases h
    rename_i cols hc
    split at h
    · cases h
    rename_i data hd
    obtain ⟨pre, hl, rfl, hp, hb, rfl⟩ := findHeader_some hf
    obtain ⟨c1, c2⟩ := lookup_ok hc
    obtain ⟨d1, d2, d3⟩ := parseLines_ok (by simp) hd
    refine ⟨pre, hl, rest, hdr, rfl, hp, hb, hh, ?_, fun l hm => (d2 l hm).trans c1, ?_⟩
    · intro nd hnd
      obtain ⟨k, hk⟩ := List.getElem?_of_mem hnd
      obtain ⟨c, h1, _⟩ := c2 k nd.1 nd.2 hk
      exact ⟨c, h1⟩
    · intro line hm k n d f c hk hn hf'
      obtain ⟨c', h1, h2⟩ := c2 k n d hk
      obtain rfl : c' = c := Option.some.inj (h1.symm.trans hn)
      have hcol : (cols.map fun _ => ([] : List (Val V)))[k]? = some [] := by
        rw [List.getElem?_map, h2]; rfl
      obtain ⟨vals, _, _, e3⟩ := d3 k c' d [] h2 hcol
      obtain ⟨j, hj⟩ := List.getElem?_of_mem hm
      obtain ⟨f', v, g1, _, g3⟩ := e3 j line hj
      obtain rfl : f' = f := Option.some.inj (g1.symm.trans hf')
      exact ⟨v, g3⟩
  · rintro ⟨pre, hl, rest, hdr, rfl, hp, hb, hh, hn, hc, hv⟩
    obtain ⟨cols, hcols⟩ := lookup_total hn
    obtain ⟨c1, c2⟩ := lookup_ok hcols
    obtain ⟨data, hd⟩ := parseLines_total (x := x) (cols := cols) (lines := rest) (cols.map fun _ => [])
      (fun l hm => (hc l hm).trans c1.symm) (by
        intro line hm k c d f hk hf
        have hlt : k < hdr.length := by
          rw [← c1]; exact (List.getElem?_eq_some_iff.1 hk).1
        have hk' : hdr[k]? = some ((hdr[k]).1, (hdr[k]).2) := by rw [List.getElem?_eq_getElem hlt]
        obtain ⟨c', h1, h2⟩ := c2 k _ _ hk'
        rw [hk] at h2
        simp only [Option.some.injEq, Prod.mk.injEq] at h2
        obtain ⟨rfl, e⟩ := h2
        rw [e]
        exact hv line hm k _ _ f c hk' h1 hf)
    exact ⟨_, by unfold load; simp only [findHeader_of hp hb, hh, hcols, hd]; rfl⟩

/-- **C49** The result of loading: the columns named in the header, each with one value for each line after the header, which
is the converted field of that line in that position. -/
theorem C49_content (x : Ext V) (lines : List (List Char)) (out : List (List Char × List (Val V)))
    (h : load x lines = .ok out) :
    ∃ pre hl rest hdr, lines = pre ++ hl :: rest ∧ (∀ l ∈ pre, Blank l) ∧ ¬ Blank hl ∧
      parseHeader (strip (hl.takeWhile (· ≠ '#'))) = .ok hdr ∧ Loaded x hdr rest out := by
  unfold load at h
  split at h
  · cases h
  rename_i header rest hf
  split at h
  · cases h
  rename_i hdr hh
  split at h
  · cases h
  rename_i cols hc
  split at h
  · cases h
  rename_i data hd
  simp only [Except.ok.injEq] at h
  subst h
  obtain ⟨pre, hl, rfl, hp, hb, rfl⟩ := findHeader_some hf
  obtain ⟨c1, c2⟩ := lookup_ok hc
  obtain ⟨d1, d2, d3⟩ := parseLines_ok (by simp) hd
  refine ⟨pre, hl, rest, hdr, rfl, hp, hb, hh, ?_, ?_, fun l hm => (d2 l hm).trans c1, ?_⟩
  · rw [List.map_fst_zip]; simp [d1, c1]
  · intro col hm
    obtain ⟨k, hk⟩ := List.getElem?_of_mem hm
    rw [List.getElem?_zip_eq_some] at hk
    obtain ⟨h1, h2⟩ := hk
    rw [List.getElem?_map, Option.map_eq_some_iff] at h1
    obtain ⟨⟨n, d⟩, h1, _⟩ := h1
    obtain ⟨c, _, h3⟩ := c2 k n d h1
    obtain ⟨vals, e1, e2, _⟩ := d3 k c d [] h3 (by rw [List.getElem?_map, h3]; rfl)
    rw [List.nil_append] at e1
    rw [Option.some.inj (h2.symm.trans e1), e2]
  · intro k j n d line hk hj
    obtain ⟨c, h1, h2⟩ := c2 k n d hk
    obtain ⟨vals, e1, _, e3⟩ := d3 k c d [] h2 (by rw [List.getElem?_map, h2]; rfl)
    rw [List.nil_append] at e1
    obtain ⟨f, v, g1, g2, g3⟩ := e3 j line hj
    exact ⟨c, f, vals, v, h1, g1, by rw [List.getElem?_zip_eq_some]; exact ⟨by simp [hk], e1⟩, g2, g3⟩

/-! ### Fields and headers -/

/-- **C49** What a field becomes. Text fields are kept; `I` and `ReferenceFrequency` are read as numbers; axes are given in
arc seconds and the orientation in degrees, both returned in radians; `LogarithmicSI` is the comparison with `true`. An empty
field takes the default of the header if there is one; otherwise text, numbers and extents have a zero default and the other
columns are rejected. -/
theorem C49_convert (x : Ext V) (s : List Char) (r : ℝ) (hr : x.pyFloat s = some r) (hs : s ≠ []) (d : Option (List Char)) :
    cell x .name d s = .ok (.str s) ∧ cell x .type d s = .ok (.str s) ∧
    cell x .i d s = .ok (.num r) ∧ cell x .referenceFrequency d s = .ok (.num r) ∧
    cell x .majorAxis d s = .ok (.num (r * Real.pi / 648000)) ∧ cell x .minorAxis d s = .ok (.num (r * Real.pi / 648000)) ∧
    cell x .orientation d s = .ok (.num (r * Real.pi / 180)) ∧
    cell x .logarithmicSI d s = .ok (.bool (s = "true".toList)) ∧
    (∀ v, x.literalEval s = .ok v → cell x .spectralIndex d s = .ok (.lit v)) := by
  simp only [cell, if_neg hs, convText, floatOf, hr, deg2rad]
  refine ⟨trivial, trivial, trivial, trivial, ?_, ?_, ?_, trivial, fun v hv => by rw [hv]⟩
  all_goals
    refine congrArg (fun t => Except.ok (Val.num t)) ?_
    ring

/-- **C49** Empty fields: the header's default stands in for them; without one, columns of text and numbers have an empty or
zero default, and positions, spectral indices and `LogarithmicSI` are rejected with `ValueError`. Text that is not a number
is rejected in a number column. -/
theorem C49_empty (x : Ext V) (s : List Char) :
    (∀ c d, cell x c (some d) [] = convText x c d) ∧
    (cell x .name none [] = .ok (.str []) ∧ cell x .type none [] = .ok (.str [])) ∧
    (∀ c ∈ [Column.i, .referenceFrequency, .majorAxis, .minorAxis, .orientation], cell x c none [] = .ok (.num 0)) ∧
    (∀ c ∈ [Column.ra, .dec, .spectralIndex, .logarithmicSI], cell x c none [] = .error .valueError) ∧
    (x.pyFloat s = none → ∀ c ∈ [Column.i, .referenceFrequency, .majorAxis, .minorAxis, .orientation],
      convText x c s = .error .valueError) := by
  refine ⟨fun c d => rfl, ⟨rfl, rfl⟩, ?_, ?_, ?_⟩
  · intro c hc
    simp only [List.mem_cons, List.not_mem_nil, or_false] at hc
    rcases hc with rfl | rfl | rfl | rfl | rfl <;> simp [cell, convDefault, deg2rad]
  · intro c hc
    simp only [List.mem_cons, List.not_mem_nil, or_false] at hc
    rcases hc with rfl | rfl | rfl | rfl <;> rfl
  · intro h c hc
    simp only [List.mem_cons, List.not_mem_nil, or_false] at hc
    rcases hc with rfl | rfl | rfl | rfl | rfl <;> simp [convText, floatOf, h]

theorem splitOn_ne_nil (sep : Char) (s : List Char) : splitOn sep s ≠ [] := by
  cases s with
  | nil => simp [splitOn]
  | cons c t =>
    unfold splitOn
    split
    · simp
    · split <;> simp

theorem splitOn_append {sep : Char} {a s : List Char} (ha : ∀ c ∈ a, c ≠ sep) :
    splitOn sep (a ++ s) = prepend a (splitOn sep s) := by
  induction a with
  | nil => rw [List.nil_append, prepend_nil (splitOn_ne_nil sep s)]
  | cons c a ih =>
    simp only [List.mem_cons, forall_eq_or_imp] at ha
    rw [List.cons_append, splitOn, if_neg ha.1, ih ha.2]
    cases splitOn sep s <;> rfl

theorem splitOn_join {fs : List (List Char)} (hne : fs ≠ []) (h : ∀ f ∈ fs, ∀ c ∈ f, c ≠ ',') :
    splitOn ',' (joinFields fs) = fs := by
  induction fs with
  | nil => exact absurd rfl hne
  | cons f fs ih =>
    have h' : ∀ f ∈ fs, ∀ c ∈ f, c ≠ ',' := fun g hg => h g (List.mem_cons_of_mem _ hg)
    cases fs with
    | nil =>
      have := splitOn_append (s := []) (h f (by simp))
      simpa [joinFields, splitOn, prepend] using this
    | cons g r =>
      rw [joinFields, splitOn_append (h f (by simp)), splitOn, if_pos rfl, ih (by simp) h']
      simp [prepend]

/-- White space. -/
def AllWs (s : List Char) : Prop := ∀ c ∈ s, isWs c = true

/-- A column with a default, as documented: the name, `=`, and the default in quotes; white space around the two signs and at the
end is ignored. -/
def DefaultText (s n d : List Char) : Prop :=
  ∃ a b z, AllWs a ∧ AllWs b ∧ AllWs z ∧ s = n ++ (a ++ '=' :: (b ++ '\'' :: (d ++ '\'' :: z)))

private theorem closeQuote_spec (s : List Char) :
    (∀ d, closeQuote s = some d → ∃ z, AllWs z ∧ s = d ++ '\'' :: z) ∧
    (closeQuote s = none → ¬ ∃ d z, AllWs z ∧ s = d ++ '\'' :: z) := by
  induction s with
  | nil => simp [closeQuote]
  | cons c t ih =>
    unfold closeQuote
    by_cases h : (decide (c = '\'') && t.all isWs) = true
    · rw [if_pos h]
      simp only [Bool.and_eq_true, decide_eq_true_eq, List.all_eq_true] at h
      refine ⟨fun d hd => ?_, by simp⟩
      cases hd
      exact ⟨t, h.2, by rw [h.1]; rfl⟩
    · rw [if_neg h]
      constructor
      · intro d hd
        obtain ⟨d', h1, rfl⟩ := Option.map_eq_some_iff.1 hd
        obtain ⟨z, hz, e⟩ := ih.1 d' h1
        exact ⟨z, hz, by rw [e]; rfl⟩
      · rintro hn ⟨d, z, hz, e⟩
        cases d with
        | nil =>
          cases e
          exact h (by simp only [Bool.and_eq_true, decide_eq_true_eq, List.all_eq_true]; exact ⟨trivial, hz⟩)
        | cons x d =>
          cases e
          exact ih.2 (Option.map_eq_none_iff.1 hn) ⟨d, z, hz, rfl⟩

private theorem matchDefault_spec (s : List Char) :
    (∀ d, matchDefault s = some d → DefaultText s [] d) ∧ (matchDefault s = none → ¬ ∃ d, DefaultText s [] d) := by
  have ws : ∀ l : List Char, AllWs (l.takeWhile isWs) := fun l c hc => List.mem_takeWhile_imp hc
  constructor
  · intro d h
    unfold matchDefault at h
    split at h
    · cases h
    rename_i c s2 h2
    split_ifs at h with hc
    split at h
    · cases h
    rename_i c' s4 h4
    split_ifs at h with hc'
    obtain ⟨z, hz, e⟩ := (closeQuote_spec s4).1 d h
    refine ⟨s.takeWhile isWs, s2.takeWhile isWs, z, ws _, ws _, hz, ?_⟩
    subst hc hc'
    rw [← e, ← h4, List.takeWhile_append_dropWhile, ← h2, List.nil_append, List.takeWhile_append_dropWhile]
  · rintro h ⟨d, a, b, z, ha, hb, hz, rfl⟩
    unfold matchDefault at h
    rw [List.nil_append, List.dropWhile_append_of_pos ha, List.dropWhile_cons_of_neg (by decide)] at h
    simp only [if_true] at h
    rw [List.dropWhile_append_of_pos hb, List.dropWhile_cons_of_neg (by decide)] at h
    simp only [if_true] at h
    exact (closeQuote_spec _).2 h ⟨d, z, hz, rfl⟩

/-- **C49** A column of the header is read as a name with a default exactly if it ends in `=` and a quoted text; everything else is
the name. -/
theorem C49_column (s : List Char) :
    (∀ d, (colHeader s).2 = some d → DefaultText s (colHeader s).1 d) ∧
    ((colHeader s).2 = none → (colHeader s).1 = s ∧ ¬ ∃ n d, DefaultText s n d) := by
  induction s with
  | nil =>
    refine ⟨fun d h => ?_, fun _ => ⟨rfl, ?_⟩⟩
    · simp [colHeader, matchDefault] at h
    · rintro ⟨n, d, a, b, z, -, -, -, e⟩
      simp at e
  | cons c t ih =>
    unfold colHeader
    cases hm : matchDefault (c :: t) with
    | some d =>
      refine ⟨fun d' h => ?_, fun h => by simp at h⟩
      dsimp only at h ⊢
      cases h
      exact (matchDefault_spec _).1 d hm
    | none =>
      dsimp only
      refine ⟨fun d h => ?_, fun h => ?_⟩
      · obtain ⟨a, b, z, ha, hb, hz, e⟩ := ih.1 d h
        exact ⟨a, b, z, ha, hb, hz, by rw [List.cons_append, ← e]⟩
      · obtain ⟨h1, h2⟩ := ih.2 h
        refine ⟨by rw [h1], ?_⟩
        rintro ⟨n, d, a, b, z, ha, hb, hz, e⟩
        cases n with
        | nil => exact (matchDefault_spec _).2 hm ⟨d, a, b, z, ha, hb, hz, e⟩
        | cons x n =>
          cases e
          exact h2 ⟨n, d, a, b, z, ha, hb, hz, rfl⟩

example : colHeader "ReferenceFrequency = '125584411.62'".toList = ("ReferenceFrequency".toList, some "125584411.62".toList) ∧
    colHeader "I='1' x".toList = ("I='1' x".toList, none) := by decide +kernel

/-- A column of the header: a name, and possibly a default in quotes. -/
def headerText (n : List Char) : Option (List Char) → List Char
  | none => n
  | some d => n ++ '=' :: '\'' :: (d ++ ['\''])

theorem matchDefault_name {c : Char} {s : List Char} (hc : c ≠ '=') (hw : isWs c = false) : matchDefault (c :: s) = none := by
  unfold matchDefault
  rw [dropWhile_stop (by simpa using hw)]
  simp [hc]

theorem closeQuote_text (d : List Char) (hd : ∀ c ∈ d, c ≠ '\'') : closeQuote (d ++ ['\'']) = some d := by
  induction d with
  | nil => rfl
  | cons c d ih =>
    simp only [List.mem_cons, forall_eq_or_imp] at hd
    rw [List.cons_append, closeQuote, if_neg (by simp [hd.1]), ih hd.2]
    rfl

theorem colHeader_text (n : List Char) (d : Option (List Char)) (hn : ∀ c ∈ n, c ≠ '=' ∧ isWs c = false)
    (hd : ∀ t, d = some t → ∀ c ∈ t, c ≠ '\'') : colHeader (headerText n d) = (n, d) := by
  induction n with
  | nil =>
    cases d with
    | none => decide
    | some t =>
      have : matchDefault (headerText [] (some t)) = some t := by
        unfold matchDefault headerText
        rw [dropWhile_stop (by simp; decide)]
        simp only [List.nil_append, if_true]
        rw [dropWhile_stop (by simp; decide)]
        simp only [if_true]
        exact closeQuote_text t (hd t rfl)
      unfold colHeader
      rw [this]
  | cons c n ih =>
    simp only [List.mem_cons, forall_eq_or_imp] at hn
    have e : headerText (c :: n) d = c :: headerText n d := by cases d <;> rfl
    rw [e, colHeader, matchDefault_name hn.1.1 hn.1.2]
    simp only
    rw [ih hn.2]

/-- **C49** The header: `Format = c1, c2='default', ...` declares the columns in that order with their defaults, white space
around each being irrelevant. -/
theorem C49_header (a b : List Char) (cols : List (List Char × Option (List Char))) (pads : List (List Char × List Char))
    (hne : cols ≠ []) (hlen : pads.length = cols.length) (ha : ∀ c ∈ a, isWs c = true) (hb : ∀ c ∈ b, isWs c = true)
    (hp : ∀ p ∈ pads, (∀ c ∈ p.1, isWs c = true) ∧ ∀ c ∈ p.2, isWs c = true)
    (hpa : ∀ p, pads.head? = some p → p.1 = []) (hpb : ∀ p, pads.getLast? = some p → p.2 = [])
    (hc : ∀ nd ∈ cols, nd.1 ≠ [] ∧ (∀ c ∈ nd.1, c ≠ '=' ∧ c ≠ ',' ∧ isWs c = false) ∧
      ∀ t, nd.2 = some t → ∀ c ∈ t, c ≠ '\'' ∧ c ≠ ',') :
    parseHeader ("Format".toList ++ a ++ '=' :: (b ++
      joinFields (List.zipWith (fun p nd => p.1 ++ headerText nd.1 nd.2 ++ p.2) pads cols))) = .ok cols := by
  set fs := List.zipWith (fun p nd => p.1 ++ headerText nd.1 nd.2 ++ p.2) pads cols with hfs
  have hnoeq : ∀ c ∈ "Format".toList ++ a, (c ≠ '=') := by
    intro c hm
    rcases List.mem_append.1 hm with hm | hm
    · exact (by decide : ∀ c ∈ "Format".toList, c ≠ '=') c hm
    · rintro rfl; have := ha _ hm; revert this; decide
  have ht : ∀ (l s : List Char), (∀ c ∈ l, c ≠ '=') → (l ++ '=' :: s).takeWhile (· ≠ '=') = l ∧
      (l ++ '=' :: s).dropWhile (· ≠ '=') = '=' :: s := by
    intro l s hl
    induction l with
    | nil => simp
    | cons c l ih =>
      simp only [List.mem_cons, forall_eq_or_imp] at hl
      simpa [hl.1] using ih hl.2
  obtain ⟨e1, e2⟩ := ht _ (b ++ joinFields fs) hnoeq
  have hend : ∀ n d, n ≠ [] → (∀ c ∈ n, isWs c = false) → (∀ c, (headerText n d).head? = some c → isWs c = false) ∧
      (∀ c, (headerText n d).getLast? = some c → isWs c = false) := by
    intro n d hn hw
    constructor
    · intro c h
      apply hw
      cases n with
      | nil => exact absurd rfl hn
      | cons x n => cases d <;> (simp [headerText] at h; subst h; simp)
    · intro c h
      cases d with
      | none => exact hw c (List.mem_of_getLast? h)
      | some t =>
        have e : headerText n (some t) = (n ++ '=' :: '\'' :: t) ++ ['\''] := by simp [headerText]
        rw [e, List.getLast?_concat] at h
        obtain rfl := Option.some.inj h
        decide
  have hget : ∀ (k : Nat) (f : List Char), fs[k]? = some f →
      ∃ (p : List Char × List Char) (nd : List Char × Option (List Char)), pads[k]? = some p ∧ cols[k]? = some nd ∧
      f = p.1 ++ headerText nd.1 nd.2 ++ p.2 := by
    intro k f hk
    rw [hfs, List.getElem?_zipWith] at hk
    cases h1 : pads[k]? with
    | none => rw [h1] at hk; cases hk
    | some p =>
      cases h2 : cols[k]? with
      | none => rw [h1, h2] at hk; cases hk
      | some nd =>
        rw [h1, h2] at hk
        exact ⟨p, nd, rfl, rfl, (Option.some.inj hk).symm⟩
  have hfne : fs ≠ [] := by
    intro h
    have : fs.length = cols.length := by simp [hfs, hlen]
    rw [h] at this
    exact hne (List.length_eq_zero_iff.1 this.symm)
  have hcomma : ∀ f ∈ fs, ∀ c ∈ f, c ≠ ',' := by
    intro f hf c hm
    obtain ⟨k, hk⟩ := List.getElem?_of_mem hf
    obtain ⟨p, nd, h1, h2, rfl⟩ := hget k f hk
    have hp' := hp p (List.mem_of_getElem? h1)
    have hc' := hc nd (List.mem_of_getElem? h2)
    have hws : ∀ c, isWs c = true → c ≠ ',' := by rintro c h rfl; revert h; decide
    simp only [List.mem_append] at hm
    rcases hm with (hm | hm) | hm
    · exact hws c (hp'.1 c hm)
    · cases hd : nd.2 with
      | none => rw [hd] at hm; exact (hc'.2.1 c hm).2.1
      | some t =>
        rw [hd] at hm
        simp only [headerText, List.mem_append, List.mem_cons, List.not_mem_nil, or_false] at hm
        rcases hm with hm | rfl | rfl | hm | rfl
        · exact (hc'.2.1 c hm).2.1
        · decide
        · decide
        · exact (hc'.2.2 t hd c hm).2
        · decide
    · exact hws c (hp'.2 c hm)
  have hjoin : strip (b ++ joinFields fs) = joinFields fs := by
    have hx := strip_pad (a := b) (b := []) (s := joinFields fs) hb (by simp) ?_ ?_
    · simpa using hx
    · intro c h
      cases hcase : fs with
      | nil => exact absurd hcase hfne
      | cons f r =>
        obtain ⟨p, nd, h1, h2, rfl⟩ := hget 0 f (by rw [hcase]; rfl)
        have hc' := hc nd (List.mem_of_getElem? h2)
        have hp0 : p.1 = [] := hpa p (by rw [List.head?_eq_getElem?]; exact h1)
        have hd := (hend nd.1 nd.2 hc'.1 fun c hm => (hc'.2.1 c hm).2.2).1
        have hne' : headerText nd.1 nd.2 ≠ [] := by
          have := hc'.1
          cases nd.2 <;> simp [headerText, this]
        have e : ∀ s : List Char, (headerText nd.1 nd.2 ++ s).head? = (headerText nd.1 nd.2).head? := by
          intro s
          cases hh : headerText nd.1 nd.2 with
          | nil => exact absurd hh hne'
          | cons y z => rfl
        apply hd c
        rw [hcase, hp0] at h
        cases r with
        | nil => rw [joinFields, List.nil_append, e] at h; exact h
        | cons g r => rw [joinFields, List.nil_append, List.append_assoc, e] at h; exact h
    · intro c h
      have hlast : ∀ fs : List (List Char), fs ≠ [] → (∀ f ∈ fs, f ≠ []) → ∃ f, fs.getLast? = some f ∧
          (joinFields fs).getLast? = f.getLast? := by
        intro fs
        induction fs with
        | nil => intro h; exact absurd rfl h
        | cons f r ih =>
          intro _ hn
          cases r with
          | nil => exact ⟨f, rfl, rfl⟩
          | cons g r =>
            obtain ⟨z, h1, h2⟩ := ih (by simp) fun f hf => hn f (List.mem_cons_of_mem _ hf)
            refine ⟨z, by simpa using h1, ?_⟩
            have hz : z ≠ [] := hn z (List.mem_cons_of_mem _ (List.mem_of_getLast? h1))
            rw [joinFields, List.getLast?_append, List.getLast?_cons, h2]
            cases hzl : z.getLast? with
            | none => rw [List.getLast?_eq_none_iff] at hzl; exact absurd hzl hz
            | some y => rfl
      have hnonempty : ∀ f ∈ fs, f ≠ [] := by
        intro f hf
        obtain ⟨k, hk⟩ := List.getElem?_of_mem hf
        obtain ⟨p, nd, h1, h2, rfl⟩ := hget k f hk
        have := (hc nd (List.mem_of_getElem? h2)).1
        cases nd.2 <;> simp [headerText, this]
      obtain ⟨f, h1, h2⟩ := hlast fs hfne hnonempty
      rw [h2] at h
      rw [List.getLast?_eq_getElem?] at h1
      obtain ⟨p, nd, g1, g2, rfl⟩ := hget _ f h1
      have hfl : fs.length = pads.length := by simp [hfs, hlen]
      have hp0 : p.2 = [] := hpb p (by rw [List.getLast?_eq_getElem?, ← hfl]; exact g1)
      have hc' := hc nd (List.mem_of_getElem? g2)
      have hne' : headerText nd.1 nd.2 ≠ [] := by
        have := hc'.1
        cases nd.2 <;> simp [headerText, this]
      rw [hp0, List.append_nil, List.getLast?_append] at h
      apply (hend nd.1 nd.2 hc'.1 fun c hm => (hc'.2.1 c hm).2.2).2 c
      cases hzl : (headerText nd.1 nd.2).getLast? with
      | none => rw [List.getLast?_eq_none_iff] at hzl; exact absurd hzl hne'
      | some y => rw [hzl] at h; simpa using h
  have hfmt : strip ("Format".toList ++ a) = "Format".toList := by
    have hx := strip_pad (a := []) (b := a) (s := "Format".toList) (by simp) ha (by decide) (by decide)
    simpa using hx
  unfold parseHeader
  rw [e1, e2, hfmt]
  simp only [ne_eq, not_true_eq_false, if_false]
  rw [hjoin, parseCols, splitOn_join hfne hcomma]
  refine congrArg Except.ok ?_
  apply List.ext_getElem?
  intro k
  rw [List.getElem?_map]
  by_cases hk : k < cols.length
  · have hkf : k < fs.length := by simp [hfs, hlen, hk]
    obtain ⟨p, nd, h1, h2, h3⟩ := hget k fs[k] (List.getElem?_eq_getElem hkf)
    rw [List.getElem?_eq_getElem hkf, h2, h3, Option.map_some]
    have hp' := hp p (List.mem_of_getElem? h1)
    have hc' := hc nd (List.mem_of_getElem? h2)
    have hd := hend nd.1 nd.2 hc'.1 fun c hm => (hc'.2.1 c hm).2.2
    rw [strip_pad hp'.1 hp'.2 hd.1 hd.2, colHeader_text nd.1 nd.2 (fun c hm => ⟨(hc'.2.1 c hm).1, (hc'.2.1 c hm).2.2⟩)
      fun t ht c hm => (hc'.2.2 t ht c hm).1]
  · rw [List.getElem?_eq_none (by simpa [hfs, hlen] using hk), List.getElem?_eq_none (by simpa using hk)]
    rfl

/-- Non-vacuity: a header as written by wsclean. -/
example : parseHeader "Format = Name, Type, I, ReferenceFrequency='125584411.621094', Ra".toList =
    .ok [("Name".toList, none), ("Type".toList, none), ("I".toList, none),
      ("ReferenceFrequency".toList, some "125584411.621094".toList), ("Ra".toList, none)] := by
  rfl

/-- The columns of a file: name and content. -/
def columnTable : List (String × Column) :=
  [("Name", .name), ("Type", .type), ("Ra", .ra), ("Dec", .dec), ("I", .i), ("SpectralIndex", .spectralIndex),
    ("LogarithmicSI", .logarithmicSI), ("ReferenceFrequency", .referenceFrequency), ("MajorAxis", .majorAxis),
    ("MinorAxis", .minorAxis), ("Orientation", .orientation)]

/-- **C49** The column names, and what white space is: blank, tab, line feed, vertical tab, form feed, carriage return and
the four information separators. -/
theorem C49_names (s : String) (c : Column) (ch : Char) :
    (columnOf s.toList = some c ↔ (s, c) ∈ columnTable) ∧
    (isWs ch = true ↔ ch.toNat ∈ [32, 9, 10, 11, 12, 13, 28, 29, 30, 31]) := by
  constructor
  · have inj : ∀ t : String, s.toList = t.toList ↔ s = t := fun t => String.toList_inj
    unfold columnOf columnTable
    simp only [inj, List.mem_cons, Prod.mk.injEq, List.not_mem_nil, or_false]
    split_ifs with h1 h2 h3 h4 h5 h6 h7 h8 h9 h10 h11
    all_goals first
      | (subst s; simp [eq_comm])
      | simp_all
  · unfold isWs
    have e : (ch == ' ') = decide (ch.toNat = 32) := by
      rw [Bool.eq_iff_iff, beq_iff_eq, decide_eq_true_iff]
      constructor
      · rintro rfl; rfl
      · intro h
        have h' : ch.toNat = ' '.toNat := h
        exact Char.toNat_inj.1 h'
    simp only [e, Bool.or_eq_true, Bool.and_eq_true, decide_eq_true_eq, List.mem_cons, List.not_mem_nil, or_false]
    omega

/-- **C49** Header errors: a file without content, a header without `=`, one that does not start with `Format` and one naming
an unknown column raise `ValueError`. -/
theorem C49_header_errors (x : Ext V) (lines : List (List Char)) :
    ((∀ l ∈ lines, Blank l) → load x lines = .error .valueError) ∧
    (∀ header : List Char, '=' ∉ header → parseHeader header = .error .valueError) ∧
    (∀ a b : List Char, '=' ∉ a → strip a ≠ "Format".toList → parseHeader (a ++ '=' :: b) = .error .valueError) ∧
    (∀ hdr : List (List Char × Option (List Char)), (∃ nd ∈ hdr, columnOf nd.1 = none) →
      lookupCols hdr = .error .valueError) := by
  refine ⟨?_, ?_, ?_, ?_⟩
  · intro h
    have : findHeader lines = none := by
      induction lines with
      | nil => rfl
      | cons l lines ih =>
        simp only [findHeader]
        rw [if_neg (by simpa using (blank_iff l).2 (h l (by simp)))]
        exact ih fun l' hm => h l' (List.mem_cons_of_mem _ hm)
    unfold load
    rw [this]
  · intro header h
    unfold parseHeader
    rw [List.dropWhile_eq_nil_iff.2]
    intro c hc
    simp only [ne_eq, decide_not, Bool.not_eq_eq_eq_not, Bool.not_true, decide_eq_false_iff_not]
    rintro rfl
    exact h hc
  · intro a b ha hs
    have ht : (a ++ '=' :: b).takeWhile (· ≠ '=') = a ∧ (a ++ '=' :: b).dropWhile (· ≠ '=') = '=' :: b := by
      clear hs
      induction a with
      | nil => simp
      | cons c a ih =>
        simp only [List.mem_cons, not_or] at ha
        have hc : c ≠ '=' := fun h => ha.1 h.symm
        simpa [hc] using ih ha.2
    unfold parseHeader
    rw [ht.1, ht.2]
    simp only [ne_eq, hs, not_false_eq_true, if_true]
  · intro hdr h
    induction hdr with
    | nil => obtain ⟨nd, hm, _⟩ := h; cases hm
    | cons nd0 hdr ih =>
      obtain ⟨n0, d0⟩ := nd0
      simp only [lookupCols]
      cases hc : columnOf n0 with
      | none => rfl
      | some c =>
        obtain ⟨nd, hm, hn⟩ := h
        rcases List.mem_cons.1 hm with rfl | hm
        · rw [hc] at hn; cases hn
        · simp [ih ⟨nd, hm, hn⟩]

/-- **C49** is refuted in two respects: a malformed position is accepted (text after the seconds is ignored, and with two minus
signs the right ascension is positive), and a comment line after the header is not skipped but makes a file with two or more
columns fail. -/
theorem C49_violated (x : Ext V) :
    hourTurns "12:00:00xyz".toList = some (1 / 2) ∧ hourTurns "--12:00:00".toList = some (1 / 2) ∧
    degTurns "12.00.00.0.7".toList = some (1 / 30) ∧
    load x ["Format = Name, Type".toList, "# comment".toList, "s0, POINT".toList] = .error .valueError := by
  refine ⟨by decide +kernel, by decide +kernel, by decide +kernel, ?_⟩
  have h1 : (components "# comment".toList).length ≠ 2 := by decide +kernel
  have hf : findHeader ["Format = Name, Type".toList, "# comment".toList, "s0, POINT".toList] =
    some ("Format = Name, Type".toList, ["# comment".toList, "s0, POINT".toList]) := by decide +kernel
  have hh : parseHeader "Format = Name, Type".toList = .ok [("Name".toList, none), ("Type".toList, none)] := by rfl
  have hc : lookupCols [("Name".toList, none), ("Type".toList, none)] = .ok [(.name, none), (.type, none)] := by rfl
  unfold load
  simp only [hf, hh, hc]
  simp only [parseLines, parseLine]
  rw [if_pos (by simpa using h1)]

end Verif.ModelData.Wsclean
