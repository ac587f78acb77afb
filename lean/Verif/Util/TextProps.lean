/-
C142: hashes of files, numbered listings and templates of documentation.
-/
import Verif.Util.Text

set_option autoImplicit false

namespace Verif.Util.Text

/-! ## Hashes -/

theorem hashLoop_eq {B S D : Type*} (h : Hasher B S D) (size : Nat) (hs : 0 < size) :
    ∀ k (rest : List B) s, rest.length ≤ k → hashLoop h size rest s = h.update s rest := by
  intro k
  induction k with
  | zero =>
    intro rest s hk
    have : rest = [] := List.length_eq_zero_iff.1 (by omega)
    subst this
    rw [hashLoop, dif_pos (by simp), h.update_nil]
  | succ k ih =>
    intro rest s hk
    rw [hashLoop]
    by_cases hc : rest.take size = []
    · have : rest = [] := by
        rcases List.take_eq_nil_iff.1 hc with h0 | h0
        · omega
        · exact h0
      subst this
      rw [dif_pos (by simp), h.update_nil]
    · rw [dif_neg hc, ih _ _ (by
        have h1 : rest.length ≠ 0 := by
          intro h0
          rw [List.length_eq_zero_iff] at h0
          subst h0
          simp at hc
        rw [List.length_drop]
        omega), h.update_append, List.take_append_drop]

/-- C142. The hash of a file is that of its whole content, however long it is: that of one call of `update`. A missing file
raises. -/
theorem C142_hash {N B S D : Type*} (h : Hasher B S D) (fs : N → Option (List B)) (filename : N) :
    shaHashFile h fs filename = (fs filename).map fun content => h.digest (h.update h.init content) := by
  unfold shaHashFile
  congr 1
  funext content
  rw [hashLoop_eq h _ (by decide) content.length content _ (Nat.le_refl _)]

/-- A hash that is sensitive to order and position meets the laws. -/
example : ∃ h : Hasher Nat (List Nat) Nat,
    shaHashFile h (fun n : Nat => if n = 0 then some [3, 5] else none) 0 ≠
      shaHashFile h (fun n : Nat => if n = 0 then some [5, 3] else none) 0 := by
  refine ⟨⟨[], fun s b => s ++ b, fun s => s.foldl (fun a b => 10 * a + b) 0, fun s => List.append_nil s,
    fun s a b => List.append_assoc s a b⟩, ?_⟩
  rw [C142_hash, C142_hash]
  decide

/-! ## Listings -/

theorem splitLines_ne (s : List Char) : splitLines s ≠ [] := by
  cases s with
  | nil => simp [splitLines]
  | cons c r =>
    rw [splitLines]
    split
    · simp
    · split <;> simp

theorem splitLines_append (l r : List Char) (hl : '\n' ∉ l) :
    splitLines (l ++ r) = match splitLines r with
      | [] => [l]
      | m :: ms => (l ++ m) :: ms := by
  induction l with
  | nil =>
    rw [List.nil_append]
    cases h : splitLines r with
    | nil => exact absurd h (splitLines_ne r)
    | cons m ms => rfl
  | cons c l ih =>
    rw [List.mem_cons, not_or] at hl
    rw [List.cons_append, splitLines, if_neg (fun h => hl.1 h.symm), ih hl.2]
    cases h : splitLines r with
    | nil => rfl
    | cons m ms => rfl

theorem splitLines_joinLines (ls : List (List Char)) (hne : ls ≠ []) (h : ∀ l ∈ ls, '\n' ∉ l) :
    splitLines (joinLines ls) = ls := by
  induction ls with
  | nil => exact absurd rfl hne
  | cons l ls ih =>
    cases ls with
    | nil =>
      have := splitLines_append l [] (h l (by simp))
      rw [List.append_nil] at this
      rw [joinLines, this]
      simp [splitLines]
    | cons m ls =>
      rw [joinLines, splitLines_append _ _ (h l (by simp)), splitLines, if_pos rfl,
        ih (by simp) (fun l' hl' => h l' (List.mem_cons_of_mem _ hl'))]
      simp

theorem joinLines_splitLines (s : List Char) : joinLines (splitLines s) = s := by
  induction s with
  | nil => rfl
  | cons c r ih =>
    rw [splitLines]
    split
    · rename_i hc
      cases h : splitLines r with
      | nil => exact absurd h (splitLines_ne r)
      | cons m ms => rw [h] at ih; rw [joinLines, ih, hc]; rfl
    · cases h : splitLines r with
      | nil => exact absurd h (splitLines_ne r)
      | cons m ms =>
        rw [h] at ih
        cases ms with
        | nil => simp only [joinLines] at ih ⊢; rw [ih]
        | cons m' ms => simp only [joinLines] at ih ⊢; rw [List.cons_append, ih]

theorem not_mem_splitLines (s : List Char) : ∀ l ∈ splitLines s, '\n' ∉ l := by
  induction s with
  | nil => simp [splitLines]
  | cons c r ih =>
    rw [splitLines]
    split
    · intro l hl
      rcases List.mem_cons.1 hl with rfl | hl
      · simp
      · exact ih l hl
    · rename_i hc
      cases h : splitLines r with
      | nil => exact absurd h (splitLines_ne r)
      | cons m ms =>
        rw [h] at ih
        intro l hl
        rcases List.mem_cons.1 hl with rfl | hl
        · rw [List.mem_cons, not_or]
          exact ⟨fun h' => hc h'.symm, ih m (by simp)⟩
        · exact ih l (by simp [hl])

theorem numberedFrom_length (ls : List (List Char)) : ∀ i, (numberedFrom i ls).length = ls.length := by
  induction ls with
  | nil => intro i; rfl
  | cons l ls ih => intro i; rw [numberedFrom, List.length_cons, ih, List.length_cons]

theorem numberedFrom_get (ls : List (List Char)) : ∀ i k, (numberedFrom i ls)[k]? = (ls[k]?).map (numbered (i + k)) := by
  induction ls with
  | nil => intro i k; simp [numberedFrom]
  | cons l ls ih =>
    intro i k
    cases k with
    | zero => simp [numberedFrom]
    | succ k =>
      rw [numberedFrom, List.getElem?_cons_succ, ih, List.getElem?_cons_succ, show i + 1 + k = i + (k + 1) by omega]

theorem not_mem_toDigits (i : Nat) (c : Char) (hc : c.isDigit = false) : c ∉ Nat.toDigits 10 i := by
  intro h
  have := Nat.isDigit_of_mem_toDigits (by decide) (by decide) h
  rw [hc] at this
  cases this

theorem not_mem_numbered (i : Nat) (l : List Char) (hl : '\n' ∉ l) : '\n' ∉ numbered i l := by
  unfold numbered
  simp only [List.mem_append, List.mem_cons, List.mem_replicate, not_or]
  exact ⟨⟨not_mem_toDigits i _ (by decide), fun h => absurd h.2 (by decide)⟩, by decide, hl⟩

theorem splitLines_formatCode (code : List Char) :
    splitLines (formatCode code) = [] :: numberedFrom 1 (splitLines code) := by
  unfold formatCode
  apply splitLines_joinLines _ (by simp)
  intro l hl
  rcases List.mem_cons.1 hl with rfl | hl
  · simp
  · obtain ⟨k, hk⟩ := List.mem_iff_getElem?.1 hl
    rw [numberedFrom_get] at hk
    cases h : (splitLines code)[k]? with
    | none => rw [h] at hk; cases hk
    | some m =>
      rw [h] at hk
      simp only [Option.map_some, Option.some.injEq] at hk
      rw [← hk]
      exact not_mem_numbered _ _ (not_mem_splitLines code m (List.mem_of_getElem? h))

/-- C142. A numbered listing has an empty first line and then, for each line of the code, one line: the number of the line,
from one, in decimal, blanks up to the seventh column (for numbers of at most five digits; one blank after longer ones) and the
line unchanged. -/
theorem C142_listing (code : List Char) :
    (splitLines (formatCode code)).length = (splitLines code).length + 1 ∧
    (splitLines (formatCode code))[0]? = some [] ∧
    ∀ k l, (splitLines code)[k]? = some l → ∃ blanks, (splitLines (formatCode code))[k + 1]? =
        some (Nat.toDigits 10 (k + 1) ++ List.replicate (blanks + 1) ' ' ++ l) ∧
      (Nat.toDigits 10 (k + 1)).length + blanks = max 5 (Nat.toDigits 10 (k + 1)).length := by
  rw [splitLines_formatCode]
  refine ⟨by rw [List.length_cons, numberedFrom_length], rfl, fun k l hk => ?_⟩
  refine ⟨5 - (Nat.toDigits 10 (k + 1)).length, ?_, by omega⟩
  rw [List.getElem?_cons_succ, numberedFrom_get, hk, Option.map_some, numbered, List.replicate_succ', Nat.add_comm 1 k]
  simp [List.append_assoc]

/-- C142. The code can be recovered from the listing: different codes have different listings. -/
theorem C142_listing_injective (a b : List Char) (h : formatCode a = formatCode b) : a = b := by
  have h1 := congrArg splitLines h
  rw [splitLines_formatCode, splitLines_formatCode, List.cons_inj_right] at h1
  have h2 : splitLines a = splitLines b := by
    apply List.ext_getElem?
    intro k
    have h3 := congrArg (fun l => l[k]?) h1
    simp only [numberedFrom_get] at h3
    cases ha : (splitLines a)[k]? with
    | none =>
      cases hb : (splitLines b)[k]? with
      | none => rfl
      | some m => rw [ha, hb] at h3; cases h3
    | some l =>
      cases hb : (splitLines b)[k]? with
      | none => rw [ha, hb] at h3; cases h3
      | some m =>
        rw [ha, hb] at h3
        simp only [Option.map_some, Option.some.injEq, numbered] at h3
        have h4 := List.append_cancel_left h3
        rw [List.cons.injEq] at h4
        rw [h4.2]
  rw [← joinLines_splitLines a, ← joinLines_splitLines b, h2]

example : formatCode "a\n\nb".toList = "\n1     a\n2     \n3     b".toList := by decide +kernel

/-! ## Replacements -/

/-- The pieces between the occurrences of `p` that a search from left to right finds: no piece contains `p`, and no earlier
occurrence reaches from a piece into the occurrence that follows it. -/
def Leftmost (p : List Char) : List (List Char) → Prop
  | [] => False
  | [q] => ¬ p <:+: q
  | q :: q' :: qs => ¬ p <:+: q ++ p.dropLast ∧ Leftmost p (q' :: qs)

/-- The pieces with `r` in between. -/
def glue (r : List Char) : List (List Char) → List Char
  | [] => []
  | [q] => q
  | q :: q' :: qs => q ++ r ++ glue r (q' :: qs)

theorem stripPrefix_some (p s rest : List Char) : stripPrefix p s = some rest ↔ s = p ++ rest := by
  induction p generalizing s with
  | nil => simp [stripPrefix]
  | cons a p ih =>
    cases s with
    | nil => simp [stripPrefix]
    | cons b s =>
      rw [stripPrefix]
      split
      · rename_i h; rw [ih, h]; simp
      · rename_i h
        constructor
        · intro h'; cases h'
        · intro h'; simp at h'; exact absurd h'.1.symm h

theorem replaceGo_spec (p r : List Char) (hp : p ≠ []) : ∀ fuel s, s.length ≤ fuel →
    ∃ ps, Leftmost p ps ∧ s = glue p ps ∧ replaceGo p r fuel s = glue r ps := by
  intro fuel
  induction fuel with
  | zero =>
    intro s hs
    have : s = [] := List.length_eq_zero_iff.1 (by omega)
    subst this
    exact ⟨[[]], by simp [Leftmost, hp], rfl, rfl⟩
  | succ fuel ih =>
    intro s hs
    cases s with
    | nil => exact ⟨[[]], by simp [Leftmost, hp], rfl, rfl⟩
    | cons c s =>
      rw [replaceGo]
      rw [List.length_cons] at hs
      cases h : stripPrefix p (c :: s) with
      | some rest =>
        have e := (stripPrefix_some _ _ _).1 h
        have hlen : 0 < p.length := List.length_pos_iff.2 hp
        have hl := congrArg List.length e
        rw [List.length_cons, List.length_append] at hl
        obtain ⟨ps, h1, h2, h3⟩ := ih rest (by omega)
        cases ps with
        | nil => exact h1.elim
        | cons q qs =>
          refine ⟨[] :: q :: qs, ⟨fun hi => ?_, h1⟩, ?_, ?_⟩
          · have := hi.length_le
            rw [List.nil_append, List.length_dropLast] at this
            omega
          · rw [e, glue, ← h2]; rfl
          · simp only [glue] at h3 ⊢
            rw [h3]; rfl
      | none =>
        obtain ⟨ps, h1, h2, h3⟩ := ih s (by omega)
        have hnp : ¬ p <+: c :: s := by
          rintro ⟨t, ht⟩
          have := (stripPrefix_some p (c :: s) t).2 ht.symm
          rw [h] at this
          cases this
        match ps, h1, h2, h3 with
        | [q], h1, h2, h3 =>
          refine ⟨[c :: q], fun hi => ?_, by rw [h2]; rfl, by simp only [h3]; rfl⟩
          simp only [glue] at h2
          rw [List.infix_cons_iff] at hi
          rcases hi with hi | hi
          · rw [h2] at hnp; exact hnp hi
          · exact h1 hi
        | q :: q' :: qs, h1, h2, h3 =>
          refine ⟨(c :: q) :: q' :: qs, ⟨fun hi => ?_, h1.2⟩, by rw [h2]; rfl, by simp only [h3]; rfl⟩
          rw [List.cons_append, List.infix_cons_iff] at hi
          rcases hi with hi | hi
          · apply hnp
            refine hi.trans ?_
            rw [h2, glue]
            refine List.cons_prefix_cons.2 ⟨rfl, ?_⟩
            rw [List.append_assoc]
            refine (List.prefix_append_right_inj q).2 ?_
            exact (List.dropLast_prefix p).trans (List.prefix_append p _)
          · exact h1.1 hi

/-- C142. A replacement in documentation replaces exactly the occurrences that a search from left to right finds: the text is
cut there and put together with the replacement instead. -/
theorem C142_replace (p r d : List Char) (hp : p ≠ []) :
    ∃ ps, Leftmost p ps ∧ d = glue p ps ∧ modDocs d [(p, r)] = glue r ps := by
  obtain ⟨ps, h1, h2, h3⟩ := replaceGo_spec p r hp d.length d (Nat.le_refl _)
  refine ⟨ps, h1, h2, ?_⟩
  show pyReplace p r d = _
  rw [pyReplace, if_neg hp, h3]

/-- C142. Replacing the empty string puts the replacement before each character and at the end, as Python does. -/
theorem C142_replace_empty (r d : List Char) : modDocs d [([], r)] = r ++ d.flatMap fun c => c :: r := by
  show pyReplace [] r d = _
  rw [pyReplace, if_pos rfl]
  induction d with
  | nil => simp
  | cons c d ih => rw [List.foldr_cons, ih, List.flatMap_cons, List.cons_append]

/-- C142. Text that contains none of the strings to be replaced is left as it is. -/
theorem C142_replace_none (d : List Char) (rs : List (List Char × List Char))
    (h : ∀ sr ∈ rs, ¬ sr.1 <:+: d) : modDocs d rs = d := by
  induction rs with
  | nil => rfl
  | cons sr rs ih =>
    have hsr := h sr (by simp)
    have hp : sr.1 ≠ [] := by
      intro h0
      rw [h0] at hsr
      exact hsr List.nil_infix
    obtain ⟨ps, h1, h2, h3⟩ := C142_replace sr.1 sr.2 d hp
    have e : modDocs d (sr :: rs) = modDocs (modDocs d [(sr.1, sr.2)]) rs := rfl
    have e2 : modDocs d [(sr.1, sr.2)] = d := by
      match ps, h1, h2, h3 with
      | [q], _, h2, h3 => rw [h3, h2]; rfl
      | q :: q' :: qs, _, h2, h3 =>
        exfalso
        apply hsr
        rw [h2, glue]
        exact ⟨q, glue sr.1 (q' :: qs), rfl⟩
    rw [e, e2]
    exact ih fun x hx => h x (by simp [hx])

/-- C142. `doc_tuple_to_str` puts the fields, each with its replacements, after each other; it takes namedtuples and dicts only. -/
theorem C142_doc_tuple (fs : List (List Char)) (r : List (List Char × List Char)) :
    docTupleToStr (.namedtuple fs) none = .ok fs.flatten ∧ docTupleToStr (.dict fs) none = .ok fs.flatten ∧
    docTupleToStr (.namedtuple fs) (some r) = .ok (fs.map fun f => modDocs f r).flatten ∧
    docTupleToStr (.dict fs) (some r) = .ok (fs.map fun f => modDocs f r).flatten ∧
    (∀ o, docTupleToStr .other o = .error .typeError) :=
  ⟨rfl, rfl, rfl, rfl, fun _ => rfl⟩

example : modDocs "aaab".toList [("aa".toList, "x".toList), ("b".toList, "".toList)] = "xa".toList := by decide +kernel

/-! ## Templates -/

/-- The parts of a template: text without a dollar sign, `$(id)` and `$$`. -/
inductive Piece
  | text (s : List Char)
  | var (id : List Char)
  | dollar

/-- An identifier: an ASCII letter of either case or an underscore, then letters, digits and underscores. -/
def IsIdent (id : List Char) : Prop :=
  ∃ c s, id = c :: s ∧ (c = '_' ∨ c.isAlpha = true) ∧ ∀ d ∈ s, d = '_' ∨ d.isAlphanum = true

theorem idStart_of (c : Char) (h : c = '_' ∨ c.isAlpha = true) : idStart c = true := by
  unfold idStart
  rcases h with rfl | h
  · decide
  · simp only [Char.isAlpha, Char.isUpper, Char.isLower, Bool.or_eq_true, Bool.and_eq_true, decide_eq_true_eq] at h
    simp only [Bool.or_eq_true, Bool.and_eq_true, decide_eq_true_eq]
    rcases h with h | h
    · exact .inr h
    · exact .inl (.inr h)

theorem idChar_of (c : Char) (h : c = '_' ∨ c.isAlphanum = true) : idChar c = true := by
  unfold idChar
  rw [Bool.or_eq_true]
  rcases h with rfl | h
  · exact .inl (by decide)
  · simp only [Char.isAlphanum, Bool.or_eq_true] at h
    rcases h with h | h
    · exact .inl (idStart_of c (.inr h))
    · right
      simp only [Char.isDigit, Bool.and_eq_true, decide_eq_true_eq] at h
      simp only [Bool.and_eq_true, decide_eq_true_eq]
      exact h

/-- How a part is written. -/
def Piece.render : Piece → List Char
  | .text s => s
  | .var id => '$' :: '(' :: (id ++ [')'])
  | .dollar => ['$', '$']

/-- The parts are well formed. -/
def Piece.Valid : Piece → Prop
  | .text s => '$' ∉ s
  | .var id => IsIdent id
  | .dollar => True

/-- What a template stands for: variables replaced by their values, KeyError for the first one without. -/
def expand (env : List Char → Option (List Char)) : List Piece → Except PyErr (List Char)
  | [] => .ok []
  | .text s :: ps => (expand env ps).map (s ++ ·)
  | .dollar :: ps => (expand env ps).map ('$' :: ·)
  | .var id :: ps =>
    match env id with
    | none => .error .keyError
    | some v => (expand env ps).map (v ++ ·)

theorem matchId_append (id rest : List Char) (hid : IsIdent id) (hr : ∀ c, rest.head? = some c → idChar c = false) :
    matchId (id ++ rest) = some (id, rest) := by
  obtain ⟨c, s, rfl, hc, hs'⟩ := hid
  have hs : ∀ d ∈ s, idChar d = true := fun d hd => idChar_of d (hs' d hd)
  rw [List.cons_append, matchId, if_pos (idStart_of c hc)]
  have h1 : (s ++ rest).takeWhile idChar = s ∧ (s ++ rest).dropWhile idChar = rest := by
    clear hc hs'
    induction s with
    | nil =>
      cases rest with
      | nil => exact ⟨rfl, rfl⟩
      | cons d r =>
        have := hr d rfl
        simp [this]
    | cons d s ih =>
      have h2 := hs d (by simp)
      have h3 := ih fun e he => hs e (by simp [he])
      simp [h2, h3.1, h3.2]
  rw [h1.1, h1.2]

theorem substGo_text (env : List Char → Option (List Char)) (s rest : List Char) (hs : '$' ∉ s) (fuel : Nat) :
    substGo env (s.length + fuel) (s ++ rest) = (substGo env fuel rest).map (s ++ ·) := by
  induction s with
  | nil =>
    rw [List.nil_append, List.length_nil, Nat.zero_add]
    cases substGo env fuel rest <;> rfl
  | cons c s ih =>
    rw [List.mem_cons, not_or] at hs
    rw [List.length_cons, show s.length + 1 + fuel = (s.length + fuel) + 1 by omega, List.cons_append, substGo,
      if_neg (fun h => hs.1 h.symm), ih hs.2]
    cases substGo env fuel rest <;> rfl

theorem afterDelim_var (id rest : List Char) (hid : IsIdent id) : afterDelim ('(' :: (id ++ ')' :: rest)) = .name id rest := by
  have h := matchId_append id (')' :: rest) hid (by
    intro c hc
    simp only [List.head?_cons, Option.some.injEq] at hc
    rw [← hc]; decide)
  have h0 : matchId ('(' :: (id ++ ')' :: rest)) = none := by
    rw [matchId, if_neg (by decide)]
  rw [afterDelim, if_neg (by decide), h0]
  simp only [h, if_true]

theorem substGo_pieces (env : List Char → Option (List Char)) (ps : List Piece) (hv : ∀ p ∈ ps, p.Valid) :
    ∀ fuel, (ps.flatMap Piece.render).length ≤ fuel → substGo env fuel (ps.flatMap Piece.render) = expand env ps := by
  induction ps with
  | nil =>
    intro fuel _
    cases fuel <;> rfl
  | cons p ps ih =>
    intro fuel hf
    have hvp := hv p (by simp)
    have ih := ih fun q hq => hv q (by simp [hq])
    rw [List.flatMap_cons] at hf ⊢
    rw [List.length_append] at hf
    cases p with
    | text s =>
      simp only [Piece.render] at hf ⊢
      obtain ⟨f, rfl⟩ := Nat.exists_eq_add_of_le (show s.length ≤ fuel by omega)
      rw [substGo_text env s _ hvp, ih f (by omega)]
      rfl
    | dollar =>
      simp only [Piece.render] at hf ⊢
      obtain ⟨f, rfl⟩ := Nat.exists_eq_add_of_le (show 1 ≤ fuel by simp at hf; omega)
      have : 1 + f = f + 1 := by omega
      rw [this]
      show (if '$' = '$' then (substGo env f (ps.flatMap Piece.render)).map ('$' :: ·) else _) = _
      rw [if_pos rfl, ih f (by simp at hf; simp; omega)]
      rfl
    | var id =>
      simp only [Piece.render] at hf ⊢
      obtain ⟨f, rfl⟩ := Nat.exists_eq_add_of_le (show 1 ≤ fuel by simp at hf; omega)
      have : 1 + f = f + 1 := by omega
      rw [this, List.cons_append, substGo, if_pos rfl]
      have ha : afterDelim ('(' :: (id ++ [')']) ++ ps.flatMap Piece.render) = .name id (ps.flatMap Piece.render) := by
        rw [List.cons_append, List.append_assoc]
        exact afterDelim_var id _ hvp
      rw [ha, expand]
      simp only []
      cases env id with
      | none => rfl
      | some v =>
        show (substGo env f _).map _ = _
        rw [ih f (by simp at hf; simp; omega)]

/-- C142. A documentation template is what it looks like: text stands for itself, `$(id)` for the value of `id`, which is not
looked at again, and `$$` for a dollar sign; a variable without value raises KeyError. -/
theorem C142_template (env : List Char → Option (List Char)) (ps : List Piece) (hv : ∀ p ∈ ps, p.Valid) :
    substitute env (ps.flatMap Piece.render) = expand env ps :=
  substGo_pieces env ps hv _ (Nat.le_refl _)

/-- C142. Text without a dollar sign is unchanged. -/
theorem C142_template_text (env : List Char → Option (List Char)) (s : List Char) (hs : '$' ∉ s) :
    substitute env s = .ok s := by
  have := C142_template env [.text s] (by simpa [Piece.Valid] using hs)
  simpa [Piece.render, expand, Except.map] using this

/-- C142. Every text can be written as a template, by doubling its dollar signs. -/
theorem C142_template_escape (env : List Char → Option (List Char)) (s : List Char) :
    substitute env (s.flatMap fun c => if c = '$' then ['$', '$'] else [c]) = .ok s := by
  have h1 : (s.flatMap fun c => if c = '$' then ['$', '$'] else [c]) =
      (s.map fun c => if c = '$' then Piece.dollar else .text [c]).flatMap Piece.render := by
    rw [List.flatMap_map]
    congr 1
    funext c
    split <;> rfl
  rw [h1, C142_template]
  · induction s with
    | nil => rfl
    | cons c s ih =>
      rw [List.map_cons]
      split
      · rename_i hc
        rw [expand, ih (by
          rw [List.flatMap_map]
          congr 1
          funext c
          split <;> rfl), hc]
        rfl
      · rw [expand, ih (by
          rw [List.flatMap_map]
          congr 1
          funext c
          split <;> rfl)]
        rfl
  · intro p hp
    obtain ⟨c, _, rfl⟩ := List.mem_map.1 hp
    split
    · trivial
    · rename_i hc
      simp only [Piece.Valid, List.mem_singleton]
      exact fun h => hc h.symm

/-- C142. The usual braces `${id}` are an error. -/
theorem C142_template_braces (env : List Char → Option (List Char)) (s rest : List Char) (hs : '$' ∉ s) :
    substitute env (s ++ '$' :: '{' :: rest) = .error .valueError := by
  have e : (s ++ '$' :: '{' :: rest).length = s.length + (rest.length + 1 + 1) := by simp
  rw [substitute, e, substGo_text env s _ hs, substGo, if_pos rfl]
  rfl

theorem idStart_false (c : Char) (h1 : c ≠ '_') (h2 : c.isAlpha = false) : idStart c = false := by
  rw [Bool.eq_false_iff]
  intro h
  unfold idStart at h
  simp only [Bool.or_eq_true, Bool.and_eq_true, decide_eq_true_eq] at h
  rcases h with (h | h) | h
  · exact h1 h
  · have : c.isAlpha = true := by
      simp only [Char.isAlpha, Char.isUpper, Char.isLower, Bool.or_eq_true, Bool.and_eq_true, decide_eq_true_eq]
      exact .inr h
    rw [h2] at this
    cases this
  · have : c.isAlpha = true := by
      simp only [Char.isAlpha, Char.isUpper, Char.isLower, Bool.or_eq_true, Bool.and_eq_true, decide_eq_true_eq]
      exact .inl h
    rw [h2] at this
    cases this

/-- C142. A dollar sign, or `$(`, that is followed by a character which cannot begin an identifier is an error. -/
theorem C142_template_invalid (env : List Char → Option (List Char)) (s rest : List Char) (c : Char) (hs : '$' ∉ s)
    (h1 : c ≠ '_') (h2 : c.isAlpha = false) :
    (c ≠ '$' → c ≠ '(' → substitute env (s ++ '$' :: c :: rest) = .error .valueError) ∧
      substitute env (s ++ '$' :: '(' :: c :: rest) = .error .valueError := by
  have h0 := idStart_false c h1 h2
  constructor
  · intro h3 h4
    have e : (s ++ '$' :: c :: rest).length = s.length + (rest.length + 1 + 1) := by simp
    rw [substitute, e, substGo_text env s _ hs, substGo, if_pos rfl, afterDelim, if_neg h3, matchId, if_neg (by simp [h0]),
      if_neg h4]
    rfl
  · have e : (s ++ '$' :: '(' :: c :: rest).length = s.length + (rest.length + 1 + 1 + 1) := by simp
    rw [substitute, e, substGo_text env s _ hs, substGo, if_pos rfl, afterDelim, if_neg (by decide), matchId,
      if_neg (by decide), if_pos rfl, matchId, if_neg (by simp [h0])]
    rfl

/-- C142. `$id` without parentheses is the value of the longest identifier that follows. -/
theorem C142_template_named (env : List Char → Option (List Char)) (s id rest v : List Char) (hs : '$' ∉ s)
    (hid : IsIdent id) (hr : ∀ c, rest.head? = some c → c ≠ '_' ∧ c.isAlphanum = false) (hrest : '$' ∉ rest)
    (hv : env id = some v) : substitute env (s ++ '$' :: (id ++ rest)) = .ok (s ++ (v ++ rest)) := by
  have hr' : ∀ c, rest.head? = some c → idChar c = false := by
    intro c hc
    obtain ⟨a, b⟩ := hr c hc
    have hal : c.isAlpha = false ∧ c.isDigit = false := by
      simpa [Char.isAlphanum] using b
    unfold idChar
    rw [idStart_false c a hal.1, Bool.false_or]
    rw [Bool.eq_false_iff]
    intro h
    have : c.isDigit = true := by
      simp only [Char.isDigit, Bool.and_eq_true, decide_eq_true_eq] at h ⊢
      exact h
    rw [hal.2] at this
    cases this
  have hm := matchId_append id rest hid hr'
  obtain ⟨c, t, rfl, hc, _⟩ := hid
  have hd : c ≠ '$' := by
    rintro rfl
    rcases hc with h | h
    · revert h; decide
    · revert h; decide
  have e : (s ++ '$' :: (c :: t ++ rest)).length = s.length + ((t.length + 1 + rest.length) + 1) := by
    simp; omega
  rw [List.cons_append] at hm
  rw [substitute, e, substGo_text env s _ hs, substGo, if_pos rfl, List.cons_append, afterDelim, if_neg hd, hm]
  simp only [hv]
  have : substGo env (rest.length + (t.length + 1)) (rest ++ []) = .ok rest := by
    rw [substGo_text env rest [] hrest]
    simp [substGo, Except.map]
  rw [List.append_nil, show rest.length + (t.length + 1) = t.length + 1 + rest.length by omega] at this
  rw [this]
  rfl

/-- A template as in rime/phase.py, and a value with a dollar sign. -/
example : substitute (fun id => if id = "array_type".toList then some "$(x)".toList else none) "lm : $(array_type), 5$$".toList =
    .ok "lm : $(x), 5$".toList := by rfl

example : IsIdent "Array_type2".toList := ⟨'A', "rray_type2".toList, rfl, by decide, by decide⟩

end Verif.Util.Text
