/-
C61: parse_python_assigns.
-/
import Verif.Util.Cmdline
import Verif.Util.BeamsProps
import Mathlib.Data.List.Forall2

set_option autoImplicit false

namespace Verif.Util.Cmdline

open Verif.Util

variable {E V : Type}

/-! ### Specification -/

/-- The value of an expression: a literal, or a call of `slice` with expressions as arguments. -/
inductive Denotes (env : Env E V) : Expr E → V → Prop
  | lit (e : E) (v : V) (h : env.literalEval e = .ok v) : Denotes env (.lit e) v
  | call (args : List (Expr E)) (kws : List (Option String × Expr E)) (vs : List V) (ks : List (Option String × V)) (v : V)
    (ha : List.Forall₂ (Denotes env) args vs) (hk : kws.map Prod.fst = ks.map Prod.fst)
    (hv : List.Forall₂ (Denotes env) (kws.map Prod.snd) (ks.map Prod.snd))
    (h : env.builtin "slice" vs (dictOf ks) = .ok v) : Denotes env (.call (some "slice") args kws) v

/-- What a target binds: a name the value, names in a tuple or list the elements of the value, of which there must be as many;
a value that is no tuple or list counts as one element. -/
inductive Binds (env : Env E V) (v : V) : Target → List (String × V) → Prop
  | name (x : String) : Binds env v (.name x) [(x, v)]
  | elements (xs : List String) (vs : List V) (h : env.elements v = some vs) (hl : xs.length = vs.length) :
    Binds env v (.seq (xs.map some)) (xs.zip vs)
  | scalar (x : String) (h : env.elements v = none) : Binds env v (.seq [some x]) [(x, v)]

/-- The bindings made by a list of assignments, in order. -/
inductive Runs (env : Env E V) : List (Stmt E) → List (String × V) → Prop
  | nil : Runs env [] []
  | cons (targets : List Target) (value : Expr E) (rest : List (Stmt E)) (v : V) (bs : List (List (String × V)))
    (b : List (String × V)) (hv : Denotes env value v) (ht : List.Forall₂ (Binds env v) targets bs) (hr : Runs env rest b) :
    Runs env (.assign targets value :: rest) (bs.flatten ++ b)

/-! ### C61 -/

mutual
theorem evalValue_ok (env : Env E V) : ∀ (e : Expr E) (v : V), (evalValue env e).2 = .ok v ↔ Denotes env e v
  | .lit e, v => by
    rw [evalValue]
    exact ⟨fun h => .lit e v h, fun h => by cases h; assumption⟩
  | .call none args kws, v => by
    rw [evalValue]
    exact ⟨fun h => (by cases h), fun h => (by cases h)⟩
  | .call (some f) args kws, v => by
    have ha := evalArgs_ok env args
    have hk := evalKws_ok env kws
    rw [evalValue]
    by_cases hf : f = "slice"
    · subst hf
      rw [if_neg (by simp [whitelist])]
      constructor
      · intro h
        split at h
        · cases h
        rename_i l1 vs he
        split at h
        · cases h
        rename_i l2 ks he2
        have h1 := (ha vs).1 (by rw [he])
        have h2 := (hk ks).1 (by rw [he2])
        exact .call args kws vs ks v h1 h2.1 h2.2 h
      · intro h
        cases h with
        | call _ _ vs ks _ h1 h2 h3 h4 =>
          have e1 := (ha vs).2 h1
          have e2 := (hk ks).2 ⟨h2, h3⟩
          rcases he : evalArgs env args with ⟨l1, r1⟩
          rcases he' : evalKws env kws with ⟨l2, r2⟩
          rw [he] at e1
          rw [he'] at e2
          simp only at e1 e2
          subst e1 e2
          exact h4
    · rw [if_pos (by simpa [whitelist] using hf)]
      constructor
      · intro h; cases h
      · intro h
        cases h
        exact absurd rfl hf
theorem evalArgs_ok (env : Env E V) : ∀ (args : List (Expr E)) (vs : List V),
    (evalArgs env args).2 = .ok vs ↔ List.Forall₂ (Denotes env) args vs
  | [], vs => by
    rw [evalArgs]
    constructor
    · intro h; cases h; exact .nil
    · intro h; cases h; rfl
  | e :: rest, vs => by
    have h1 := evalValue_ok env e
    have h2 := evalArgs_ok env rest
    rw [evalArgs]
    constructor
    · intro h
      split at h
      · cases h
      rename_i l1 v he
      split at h
      · cases h
      rename_i l2 vs' he2
      cases h
      exact .cons ((h1 v).1 (by rw [he])) ((h2 vs').1 (by rw [he2]))
    · intro h
      cases h with
      | cons hv hr =>
        have e1 := (h1 _).2 hv
        have e2 := (h2 _).2 hr
        rcases he : evalValue env e with ⟨l1, r1⟩
        rcases he' : evalArgs env rest with ⟨l2, r2⟩
        rw [he] at e1
        rw [he'] at e2
        simp only at e1 e2
        subst e1 e2
        rfl
theorem evalKws_ok (env : Env E V) : ∀ (kws : List (Option String × Expr E)) (ks : List (Option String × V)),
    (evalKws env kws).2 = .ok ks ↔
      kws.map Prod.fst = ks.map Prod.fst ∧ List.Forall₂ (Denotes env) (kws.map Prod.snd) (ks.map Prod.snd)
  | [], ks => by
    rw [evalKws]
    constructor
    · intro h; cases h; exact ⟨rfl, .nil⟩
    · rintro ⟨h, _⟩
      cases ks with
      | nil => rfl
      | cons _ _ => simp at h
  | (k, e) :: rest, ks => by
    have h1 := evalValue_ok env e
    have h2 := evalKws_ok env rest
    rw [evalKws]
    constructor
    · intro h
      split at h
      · cases h
      rename_i l1 v he
      split at h
      · cases h
      rename_i l2 vs' he2
      cases h
      obtain ⟨a, b⟩ := (h2 vs').1 (by rw [he2])
      exact ⟨by simp [a], .cons ((h1 v).1 (by rw [he])) b⟩
    · rintro ⟨ha, hb⟩
      cases ks with
      | nil => simp at ha
      | cons p ks =>
        simp only [List.map_cons, List.cons.injEq] at ha hb
        cases hb with
        | cons hv hr =>
          have e1 := (h1 _).2 hv
          have e2 := (h2 _).2 ⟨ha.2, hr⟩
          rcases he : evalValue env e with ⟨l1, r1⟩
          rcases he' : evalKws env rest with ⟨l2, r2⟩
          rw [he] at e1
          rw [he'] at e2
          simp only at e1 e2
          subst e1 e2
          simp only
          rw [ha.1]
end

mutual
theorem evalValue_log (env : Env E V) : ∀ (e : Expr E), ∀ f ∈ (evalValue env e).1, f = "slice"
  | .lit e => by rw [evalValue]; simp
  | .call none args kws => by rw [evalValue]; simp
  | .call (some f) args kws => by
    have ha := evalArgs_log env args
    have hk := evalKws_log env kws
    rw [evalValue]
    by_cases hf : f = "slice"
    · subst hf
      rw [if_neg (by simp [whitelist])]
      rcases he : evalArgs env args with ⟨l1, r1⟩
      rcases he' : evalKws env kws with ⟨l2, r2⟩
      rw [he] at ha
      rw [he'] at hk
      cases r1 with
      | error e => exact ha
      | ok vs =>
        simp only
        cases r2 with
        | error e =>
          intro g hg
          rcases List.mem_append.1 hg with h | h
          · exact ha g h
          · exact hk g h
        | ok ks =>
          intro g hg
          rcases List.mem_append.1 hg with h | h
          · rcases List.mem_append.1 h with h | h
            · exact ha g h
            · exact hk g h
          · exact List.mem_singleton.1 h
    · rw [if_pos (by simpa [whitelist] using hf)]; simp
theorem evalArgs_log (env : Env E V) : ∀ (args : List (Expr E)), ∀ f ∈ (evalArgs env args).1, f = "slice"
  | [] => by rw [evalArgs]; simp
  | e :: rest => by
    have h1 := evalValue_log env e
    have h2 := evalArgs_log env rest
    rw [evalArgs]
    rcases he : evalValue env e with ⟨l1, r1⟩
    rcases he' : evalArgs env rest with ⟨l2, r2⟩
    rw [he] at h1
    rw [he'] at h2
    cases r1 with
    | error x => exact h1
    | ok v =>
      cases r2 <;>
      · intro g hg
        rcases List.mem_append.1 hg with h | h
        · exact h1 g h
        · exact h2 g h
theorem evalKws_log (env : Env E V) : ∀ (kws : List (Option String × Expr E)), ∀ f ∈ (evalKws env kws).1, f = "slice"
  | [] => by rw [evalKws]; simp
  | (k, e) :: rest => by
    have h1 := evalValue_log env e
    have h2 := evalKws_log env rest
    rw [evalKws]
    rcases he : evalValue env e with ⟨l1, r1⟩
    rcases he' : evalKws env rest with ⟨l2, r2⟩
    rw [he] at h1
    rw [he'] at h2
    cases r1 with
    | error x => exact h1
    | ok v =>
      cases r2 <;>
      · intro g hg
        rcases List.mem_append.1 hg with h | h
        · exact h1 g h
        · exact h2 g h
end

theorem all_some {l : List (Option String)} (h : l.any Option.isNone = false) :
    l = (l.map fun e => e.getD "").map some := by
  induction l with
  | nil => rfl
  | cons a l ih =>
    simp only [List.any_cons, Bool.or_eq_false_iff] at h
    cases a with
    | none => simp at h
    | some x => simp only [List.map_cons, Option.getD_some]; rw [← ih h.2]

theorem bindTarget_ok (env : Env E V) (v : V) (t : Target) (vars vars' : List (String × V)) :
    bindTarget env vars v t = .ok vars' ↔
      ∃ b, Binds env v t b ∧ vars' = b.foldl (fun d p => dictSet d p.1 p.2) vars := by
  cases t with
  | name x =>
    constructor
    · intro h
      cases h
      exact ⟨_, .name x, rfl⟩
    · rintro ⟨b, hb, rfl⟩
      cases hb
      rfl
  | other =>
    constructor
    · intro h; cases h
    · rintro ⟨b, hb, _⟩; cases hb
  | seq elts =>
    rw [bindTarget]
    constructor
    · intro h
      by_cases hn : elts.any Option.isNone = true
      · rw [if_pos hn] at h; cases h
      rw [if_neg hn] at h
      have hs := all_some (Bool.not_eq_true _ ▸ hn)
      cases hv : env.elements v with
      | none =>
        rw [hv] at h
        simp only [List.length_singleton] at h
        by_cases hl : elts.length ≠ 1
        · rw [if_pos hl] at h; cases h
        rw [if_neg hl] at h
        simp only [Except.ok.injEq] at h
        subst h
        push Not at hl
        obtain ⟨a, rfl⟩ := List.length_eq_one_iff.1 hl
        cases a with
        | none => simp at hn
        | some x => exact ⟨_, .scalar x hv, rfl⟩
      | some vs =>
        rw [hv] at h
        simp only at h
        by_cases hl : elts.length ≠ vs.length
        · rw [if_pos hl] at h; cases h
        rw [if_neg hl] at h
        simp only [Except.ok.injEq] at h
        subst h
        push Not at hl
        refine ⟨(elts.map fun e => e.getD "").zip vs, ?_, rfl⟩
        have := Binds.elements (env := env) (v := v) (elts.map fun e => e.getD "") vs hv (by simpa using hl)
        rwa [← hs] at this
    · rintro ⟨b, hb, rfl⟩
      cases hb with
      | elements xs vs h hl =>
        rw [if_neg (by simp), h]
        simp only
        rw [if_neg (by simpa using hl)]
        simp [List.map_map, Function.comp_def]
      | scalar x h =>
        rw [if_neg (by simp), h]
        rfl

theorem bindTargets_ok (env : Env E V) (v : V) (ts : List Target) (vars vars' : List (String × V)) :
    bindTargets env v ts vars = .ok vars' ↔
      ∃ bs, List.Forall₂ (Binds env v) ts bs ∧ vars' = bs.flatten.foldl (fun d p => dictSet d p.1 p.2) vars := by
  induction ts generalizing vars with
  | nil =>
    constructor
    · intro h; cases h; exact ⟨[], .nil, rfl⟩
    · rintro ⟨bs, h, rfl⟩; cases h; rfl
  | cons t ts ih =>
    rw [bindTargets]
    constructor
    · intro h
      split at h
      · cases h
      rename_i vars1 h1
      obtain ⟨b, hb, rfl⟩ := (bindTarget_ok env v t vars _).1 h1
      obtain ⟨bs, hbs, rfl⟩ := (ih _).1 h
      exact ⟨b :: bs, .cons hb hbs, by simp [List.foldl_append]⟩
    · rintro ⟨bs, h, rfl⟩
      cases h with
      | cons hb hbs =>
        rw [(bindTarget_ok env v t vars _).2 ⟨_, hb, rfl⟩]
        simp only
        rw [ih]
        exact ⟨_, hbs, by simp [List.foldl_append]⟩

theorem run_ok (env : Env E V) (stmts : List (Stmt E)) (vars vars' : List (String × V)) :
    (run env stmts vars).2 = .ok vars' ↔
      ∃ b, Runs env stmts b ∧ vars' = b.foldl (fun d p => dictSet d p.1 p.2) vars := by
  induction stmts generalizing vars with
  | nil =>
    constructor
    · intro h; cases h; exact ⟨[], .nil, rfl⟩
    · rintro ⟨b, h, rfl⟩; cases h; rfl
  | cons s stmts ih =>
    cases s with
    | other =>
      constructor
      · intro h; cases h
      · rintro ⟨b, h, _⟩; cases h
    | assign targets value =>
      rw [run]
      have hv := evalValue_ok env value
      rcases he : evalValue env value with ⟨l, r⟩
      rw [he] at hv
      simp only at hv
      constructor
      · intro h
        cases r with
        | error e => cases h
        | ok v =>
          simp only at h
          cases hb : bindTargets env v targets vars with
          | error e => rw [hb] at h; cases h
          | ok vars1 =>
            rw [hb] at h
            simp only at h
            obtain ⟨bs, hbs, rfl⟩ := (bindTargets_ok env v targets vars _).1 hb
            obtain ⟨b, hr, rfl⟩ := (ih _).1 h
            exact ⟨bs.flatten ++ b, .cons targets value stmts v bs b ((hv v).1 rfl) hbs hr, by simp [List.foldl_append]⟩
      · rintro ⟨b, h, rfl⟩
        cases h with
        | cons _ _ _ v bs b hd ht hr =>
          have := (hv v).2 hd
          subst this
          simp only
          rw [(bindTargets_ok env v targets vars _).2 ⟨bs, ht, rfl⟩]
          simp only
          rw [ih]
          exact ⟨b, hr, by simp [List.foldl_append]⟩

/-- **C61** The empty string gives no variables. Otherwise the call succeeds exactly when every statement is an assignment of a
literal or of a call of `slice` on such values to names or to tuples or lists of names with as many elements as the value;
the result then holds the bindings made. -/
theorem C61_result (env : Env E V) (parse : String → Except PyErr (List (Stmt E))) (s : String) (vars : List (String × V)) :
    (parsePythonAssigns env parse s).2 = .ok vars ↔
      (s = "" ∧ vars = []) ∨ (s ≠ "" ∧ ∃ stmts b, parse s = .ok stmts ∧ Runs env stmts b ∧ vars = dictOf b) := by
  unfold parsePythonAssigns
  by_cases hs : s = ""
  · rw [if_pos hs]
    constructor
    · intro h; cases h; exact .inl ⟨hs, rfl⟩
    · rintro (⟨_, rfl⟩ | ⟨h, _⟩)
      · rfl
      · exact absurd hs h
  · rw [if_neg hs]
    constructor
    · intro h
      split at h
      · cases h
      rename_i stmts hp
      obtain ⟨b, hb, rfl⟩ := (run_ok env stmts [] vars).1 h
      exact .inr ⟨hs, stmts, b, hp, hb, rfl⟩
    · rintro (⟨h, _⟩ | ⟨_, stmts, b, hp, hb, rfl⟩)
      · exact absurd h hs
      · rw [hp]
        exact (run_ok env stmts [] _).2 ⟨b, hb, rfl⟩

/-- **C61** In the result every assigned name occurs once, with the value of its last assignment. -/
theorem C61_last_wins (env : Env E V) (parse : String → Except PyErr (List (Stmt E))) (s : String) (vars : List (String × V))
    (h : (parsePythonAssigns env parse s).2 = .ok vars) (hs : s ≠ "") :
    ∃ stmts b, parse s = .ok stmts ∧ Runs env stmts b ∧ (vars.map Prod.fst).Nodup ∧
      (∀ x, x ∈ vars.map Prod.fst ↔ x ∈ b.map Prod.fst) ∧
      ∀ b1 x v b2, b = b1 ++ (x, v) :: b2 → x ∉ b2.map Prod.fst → (x, v) ∈ vars := by
  rcases (C61_result env parse s vars).1 h with ⟨h0, _⟩ | ⟨_, stmts, b, hp, hb, rfl⟩
  · exact absurd h0 hs
  obtain ⟨d1, d2, d3⟩ := dictOf_spec b
  refine ⟨stmts, b, hp, hb, d1, d2, ?_⟩
  rintro b1 x v b2 rfl hx
  apply Beams.lookup_mem
  rw [d3, List.reverse_append, List.reverse_cons, List.append_assoc, List.lookup_append]
  have : b2.reverse.lookup x = none := by
    cases hl : b2.reverse.lookup x with
    | none => rfl
    | some w =>
      exfalso
      apply hx
      have := List.mem_reverse.1 (Beams.lookup_mem hl)
      exact List.mem_map.2 ⟨_, this, rfl⟩
  rw [this]
  simp

/-- **C61** Whatever the input and the outcome, no function but `slice` is called. -/
theorem C61_only_slice (env : Env E V) (parse : String → Except PyErr (List (Stmt E))) (s : String) :
    ∀ f ∈ (parsePythonAssigns env parse s).1, f = "slice" := by
  have key : ∀ (stmts : List (Stmt E)) (vars : List (String × V)), ∀ f ∈ (run env stmts vars).1, f = "slice" := by
    intro stmts
    induction stmts with
    | nil => intro vars f hf; simp [run] at hf
    | cons st stmts ih =>
      intro vars
      cases st with
      | other => simp [run]
      | assign targets value =>
        have hv := evalValue_log env value
        rw [run]
        rcases he : evalValue env value with ⟨l, r⟩
        rw [he] at hv
        cases r with
        | error e => exact hv
        | ok v =>
          simp only
          cases bindTargets env v targets vars with
          | error e => exact hv
          | ok vars' =>
            intro f hf
            rcases List.mem_append.1 hf with h | h
            · exact hv f h
            · exact ih vars' f h
  unfold parsePythonAssigns
  by_cases hs : s = ""
  · rw [if_pos hs]; simp
  · rw [if_neg hs]
    cases parse s with
    | error e => simp
    | ok stmts => exact key stmts []

theorem run_append (env : Env E V) (pre rest : List (Stmt E)) (vars vars' : List (String × V))
    (h : (run env pre vars).2 = .ok vars') : (run env (pre ++ rest) vars).2 = (run env rest vars').2 := by
  induction pre generalizing vars with
  | nil => cases h; rfl
  | cons s pre ih =>
    cases s with
    | other => cases h
    | assign targets value =>
      rw [List.cons_append, run]
      rw [run] at h
      rcases he : evalValue env value with ⟨l, r⟩
      rw [he] at h
      cases r with
      | error e => cases h
      | ok v =>
        simp only at h ⊢
        cases hb : bindTargets env v targets vars with
        | error e => rw [hb] at h; cases h
        | ok vars1 =>
          rw [hb] at h
          simp only at h ⊢
          exact ih _ h

/-- **C61** The errors: after statements that ran, a statement that is no assignment raises `ValueError`, a call of a function
other than `slice` raises `ValueError`, a call of something that is no name raises `AttributeError`, an unsupported target
raises `TypeError`, and a tuple with another number of elements than the value, or with something else than names, raises
`ValueError`. -/
theorem C61_errors (env : Env E V) (parse : String → Except PyErr (List (Stmt E))) (s : String) (hs : s ≠ "")
    (pre rest : List (Stmt E)) (vars : List (String × V)) (hpre : (run env pre []).2 = .ok vars) :
    (parse s = .ok (pre ++ .other :: rest) → (parsePythonAssigns env parse s).2 = .error .valueError) ∧
    (∀ ts f args kws, f ≠ "slice" → parse s = .ok (pre ++ .assign ts (.call (some f) args kws) :: rest) →
      (parsePythonAssigns env parse s).2 = .error .valueError) ∧
    (∀ ts args kws, parse s = .ok (pre ++ .assign ts (.call none args kws) :: rest) →
      (parsePythonAssigns env parse s).2 = .error .attributeError) ∧
    (∀ ts e v, Denotes env e v → parse s = .ok (pre ++ .assign (.other :: ts) e :: rest) →
      (parsePythonAssigns env parse s).2 = .error .typeError) ∧
    (∀ ts e v elts, Denotes env e v → none ∈ elts ∨ elts.length ≠ ((env.elements v).getD [v]).length →
      parse s = .ok (pre ++ .assign (.seq elts :: ts) e :: rest) →
      (parsePythonAssigns env parse s).2 = .error .valueError) := by
  have hval : ∀ {e : Expr E} {v : V}, Denotes env e v → ∃ l, evalValue env e = (l, .ok v) := by
    intro e v hd
    have := (evalValue_ok env e v).2 hd
    rcases he : evalValue env e with ⟨l, r⟩
    rw [he] at this
    exact ⟨l, by rw [← this]⟩
  unfold parsePythonAssigns
  rw [if_neg hs]
  refine ⟨?_, ?_, ?_, ?_, ?_⟩
  · intro h
    rw [h]
    simp only
    rw [run_append env pre _ [] vars hpre]
    rfl
  · intro ts f args kws hf h
    rw [h]
    simp only
    rw [run_append env pre _ [] vars hpre, run, evalValue, if_pos (by simpa [whitelist] using hf)]
  · intro ts args kws h
    rw [h]
    simp only
    rw [run_append env pre _ [] vars hpre, run, evalValue]
  · intro ts e v hd h
    obtain ⟨l, hl⟩ := hval hd
    rw [h]
    simp only
    rw [run_append env pre _ [] vars hpre, run, hl]
    rfl
  · intro ts e v elts hd hbad h
    obtain ⟨l, hl⟩ := hval hd
    rw [h]
    simp only
    rw [run_append env pre _ [] vars hpre, run, hl]
    simp only
    have : bindTarget env vars v (.seq elts) = .error .valueError := by
      rw [bindTarget]
      by_cases hn : elts.any Option.isNone = true
      · rw [if_pos hn]
      · rw [if_neg hn]
        have hl : elts.length ≠ ((env.elements v).getD [v]).length := by
          rcases hbad with hb | hb
          · exact absurd (List.any_eq_true.2 ⟨none, hb, rfl⟩) hn
          · exact hb
        simp only
        rw [if_pos]
        cases hv : env.elements v <;> rw [hv] at hl <;> exact hl
    rw [bindTargets, this]

/-- An environment for the examples: values are lists of numbers, a one-element list is a scalar. -/
def exampleEnv : Env (List Int) (List Int) where
  literalEval e := .ok e
  builtin f vs _ := if f = "slice" then .ok vs.flatten else .error .typeError
  elements v := if v.length = 1 then none else some (v.map fun x => [x])

/-- Non-vacuity: `a, b = 1, 2; b = slice(5); [c] = 7`. -/
example : parsePythonAssigns exampleEnv (fun _ => .ok [.assign [.seq [some "a", some "b"]] (.lit [1, 2]),
      .assign [.name "b"] (.call (some "slice") [.lit [5]] []), .assign [.seq [some "c"]] (.lit [7])]) "…" =
    (["slice"], .ok [("a", [1]), ("b", [5]), ("c", [7])]) := by
  decide +kernel

end Verif.Util.Cmdline
