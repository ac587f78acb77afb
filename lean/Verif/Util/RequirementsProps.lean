/-
C60: requires_optional.
-/
import Verif.Util.Requirements

set_option autoImplicit false

namespace Verif.Util.Requirements

/-- The packages among the requirements that cannot be imported, in order. -/
def missingOf (imp : String → Import) (reqs : List Req) : List String :=
  reqs.filterMap fun r => match r with
    | .pkg n => if imp n = .importError then some n else none
    | _ => none

/-- The import errors given by the caller, in order. -/
def errorsOf (reqs : List Req) : List String :=
  reqs.filterMap fun r => match r with
    | .importErr m => some m
    | _ => none

/-- No requirement of another type, and no package that raises something else than `ImportError` when imported. -/
def Proper (imp : String → Import) (reqs : List Req) : Prop :=
  .other ∉ reqs ∧ ∀ n, .pkg n ∈ reqs → imp n ≠ .raises

theorem scan_proper (imp : String → Import) (reqs : List Req) (h : Proper imp reqs) (s : Acc) (hs : s.haveReqs = s.missing.isEmpty) :
    ∃ s', scan imp reqs s = .ok s' ∧ s'.missing = s.missing ++ missingOf imp reqs ∧ s'.errors = s.errors ++ errorsOf reqs ∧
      s'.honour = (s.honour && !reqs.contains .force) ∧ s'.haveReqs = s'.missing.isEmpty := by
  induction reqs generalizing s with
  | nil => exact ⟨s, rfl, by simp [missingOf], by simp [errorsOf], by simp, hs⟩
  | cons r l ih =>
    have hp : Proper imp l := ⟨fun hh => h.1 (List.mem_cons_of_mem _ hh), fun n hn => h.2 n (List.mem_cons_of_mem _ hn)⟩
    cases r with
    | none =>
      obtain ⟨s', h1, h2, h3, h4, h5⟩ := ih hp s hs
      exact ⟨s', h1, h2, h3, by simpa using h4, h5⟩
    | importErr m =>
      obtain ⟨s', h1, h2, h3, h4, h5⟩ := ih hp { s with errors := s.errors ++ [m] } hs
      exact ⟨s', h1, h2, by rw [h3]; simp [errorsOf], by simpa using h4, h5⟩
    | pkg n =>
      have hr := h.2 n List.mem_cons_self
      simp only [scan]
      cases hi : imp n with
      | raises => exact absurd hi hr
      | ok =>
        obtain ⟨s', h1, h2, h3, h4, h5⟩ := ih hp { s with imports := s.imports ++ [n] } hs
        exact ⟨s', h1, by rw [h2]; simp [missingOf, hi], h3, by simpa using h4, h5⟩
      | importError =>
        obtain ⟨s', h1, h2, h3, h4, h5⟩ := ih hp { s with missing := s.missing ++ [n], haveReqs := false } (by simp)
        exact ⟨s', h1, by rw [h2]; simp [missingOf, hi], h3, by simpa using h4, h5⟩
    | force =>
      obtain ⟨s', h1, h2, h3, h4, h5⟩ := ih hp { s with honour := false } hs
      exact ⟨s', h1, h2, h3, by simpa using h4, h5⟩
    | other => exact absurd List.mem_cons_self h.1

/-- **C60** Defining a function fails, with `ImportError`, exactly when all named packages can be imported but the caller gave
import errors; in particular a function with missing packages can always be defined. -/
theorem C60_define (imp : String → Import) (reqs : List Req) (h : Proper imp reqs) :
    (∀ e, requiresOptional false imp reqs = .error e ↔ e = .importError ∧ missingOf imp reqs = [] ∧ errorsOf reqs ≠ []) := by
  obtain ⟨s', h1, h2, h3, h4, h5⟩ := scan_proper imp reqs h ⟨true, [], true, [], []⟩ rfl
  simp only [List.nil_append] at h2 h3
  intro e
  unfold requiresOptional
  simp only [Bool.false_eq_true, if_false]
  rw [h1]
  simp only [h5, h2, h3]
  by_cases hm : missingOf imp reqs = []
  · by_cases he : errorsOf reqs = []
    · simp [hm, he]
    · have : 0 < (errorsOf reqs).length := List.length_pos_iff.2 he
      simp [hm, he, this]
      exact ⟨Eq.symm, Eq.symm⟩
  · have : (missingOf imp reqs).isEmpty = false := by simpa using hm
    simp [hm]

/-- **C60** If nothing is missing and no import error was given the function is returned as it is. If packages are missing,
every call raises `MissingPackageException` naming exactly the missing packages, in order (within pytest the test is skipped
instead, unless the exception is forced). -/
theorem C60_call (imp : String → Import) (reqs : List Req) (h : Proper imp reqs) (d : Decorated)
    (hd : requiresOptional false imp reqs = .ok d) (inPytest pytestOk : Bool) :
    (missingOf imp reqs = [] → d = .original ∧ call inPytest pytestOk d = .original) ∧
    (missingOf imp reqs ≠ [] →
      (inPytest = false ∨ .force ∈ reqs → call inPytest pytestOk d = .raises (.missing (missingOf imp reqs) (errorsOf reqs))) ∧
      (inPytest = true → .force ∉ reqs → call inPytest pytestOk d =
        .raises (if pytestOk then .skipped (missingOf imp reqs) (errorsOf reqs) else .importError))) := by
  obtain ⟨s', h1, h2, h3, h4, h5⟩ := scan_proper imp reqs h ⟨true, [], true, [], []⟩ rfl
  simp only [List.nil_append, Bool.true_and] at h2 h3 h4
  unfold requiresOptional at hd
  simp only [Bool.false_eq_true, if_false] at hd
  rw [h1] at hd
  simp only [h5, h2, h3, h4] at hd
  constructor
  · intro hm
    by_cases he : errorsOf reqs = []
    · simp [hm, he] at hd
      subst hd
      exact ⟨rfl, rfl⟩
    · have : 0 < (errorsOf reqs).length := List.length_pos_iff.2 he
      simp [hm, this] at hd
  · intro hm
    have hm' : (missingOf imp reqs).isEmpty = false := by simpa using hm
    simp [hm] at hd
    subst hd
    constructor
    · rintro (hp | hf)
      · simp [call, hp]
      · simp [call, hf]
    · intro hp hf
      simp [call, hp, hf]
      cases pytestOk <;> rfl

/-- **C60** A requirement of any other type makes the definition fail with `TypeError` (all packages before it importable or
missing); on readthedocs nothing is imported and the function does nothing. -/
theorem C60_other (imp : String → Import) (reqs rest : List Req) (h : Proper imp reqs) :
    requiresOptional false imp (reqs ++ .other :: rest) = .error .typeError ∧
    ∀ l, requiresOptional true imp l = .ok .nothing := by
  constructor
  · have key : ∀ (l : List Req) (s : Acc), Proper imp l → scan imp (l ++ .other :: rest) s = .error .typeError := by
      intro l
      induction l with
      | nil => intro s _; rfl
      | cons r l ih =>
        intro s hp
        have hp' : Proper imp l := ⟨fun hh => hp.1 (List.mem_cons_of_mem _ hh), fun n hn => hp.2 n (List.mem_cons_of_mem _ hn)⟩
        cases r with
        | none => exact ih _ hp'
        | importErr m => exact ih _ hp'
        | pkg n =>
          simp only [List.cons_append, scan]
          cases hi : imp n with
          | raises => exact absurd hi (hp.2 n List.mem_cons_self)
          | ok => exact ih _ hp'
          | importError => exact ih _ hp'
        | force => exact ih _ hp'
        | other => exact absurd List.mem_cons_self hp.1
    unfold requiresOptional
    simp only [Bool.false_eq_true, if_false]
    rw [key reqs _ h]
  · intro l
    rfl

/-- **C60** An exception other than `ImportError` raised by importing a package is not mistaken for a missing package: it
passes through the definition (everything before it being proper). -/
theorem C60_import_raises (imp : String → Import) (reqs rest : List Req) (n : String) (h : Proper imp reqs)
    (hn : imp n = .raises) : requiresOptional false imp (reqs ++ .pkg n :: rest) = .error .fromImport := by
  have key : ∀ (l : List Req) (s : Acc), Proper imp l → scan imp (l ++ .pkg n :: rest) s = .error .fromImport := by
    intro l
    induction l with
    | nil => intro s _; simp [scan, hn]
    | cons r l ih =>
      intro s hp
      have hp' : Proper imp l := ⟨fun hh => hp.1 (List.mem_cons_of_mem _ hh), fun n hn => hp.2 n (List.mem_cons_of_mem _ hn)⟩
      cases r with
      | none => exact ih _ hp'
      | importErr m => exact ih _ hp'
      | pkg k =>
        simp only [List.cons_append, scan]
        cases hi : imp k with
        | raises => exact absurd hi (hp.2 k List.mem_cons_self)
        | ok => exact ih _ hp'
        | importError => exact ih _ hp'
      | force => exact ih _ hp'
      | other => exact absurd List.mem_cons_self hp.1
  unfold requiresOptional
  simp only [Bool.false_eq_true, if_false]
  rw [key reqs _ h]

/-- Non-vacuity: one package of two missing, an import error and None among the requirements. -/
example : Proper (fun n => if n = "scipy" then .importError else .ok) [.pkg "dask", .none, .pkg "scipy", .importErr "no scipy"] ∧
    requiresOptional false (fun n => if n = "scipy" then .importError else .ok)
      [.pkg "dask", .none, .pkg "scipy", .importErr "no scipy"] = .ok (.failing true ["scipy"] ["no scipy"]) := by
  refine ⟨⟨by decide, ?_⟩, rfl⟩
  intro n _
  simp only
  split <;> simp

end Verif.Util.Requirements
