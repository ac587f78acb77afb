/-
Lemmas about the promotion of element types. The statements about single types are finite tables; those about lists are
proved by induction.
-/
import Verif.Types.Spec

set_option autoImplicit false

namespace Verif.Types

open DT

theorem canCast_refl (a : DT) : canCast a a = true := by cases a <;> decide

theorem canCast_trans {a b c : DT} (h1 : canCast a b = true) (h2 : canCast b c = true) : canCast a c = true := by
  revert h1 h2
  cases a <;> cases b <;> first
    | exact fun h _ => absurd h (by decide)
    | (intro _; cases c <;> decide)

theorem canCast_antisymm {a b : DT} (h1 : canCast a b = true) (h2 : canCast b a = true) : a = b := by
  revert h1 h2
  cases a <;> cases b <;> decide

theorem canCast_promote_left (a b : DT) : canCast a (promote a b) = true := by
  cases a <;> cases b <;> decide

theorem canCast_promote_right (a b : DT) : canCast b (promote a b) = true := by
  cases a <;> cases b <;> decide

theorem promote_eq_left {a b : DT} (h : canCast b a = true) : promote a b = a := by
  revert h
  cases a <;> cases b <;> decide

theorem promote_inexact {a : DT} (b : DT) (h : a.isInexact = true) :
    promote a b = inexact (a.needsDouble || b.needsDouble) (a.isComplex || b.isComplex) := by
  revert h
  cases a <;> cases b <;> decide

theorem inexact_isInexact (d c : Bool) : (inexact d c).isInexact = true := by cases d <;> cases c <;> rfl
theorem inexact_needsDouble (d c : Bool) : (inexact d c).needsDouble = d := by cases d <;> cases c <;> rfl
theorem inexact_isComplex (d c : Bool) : (inexact d c).isComplex = c := by cases d <;> cases c <;> rfl
theorem inexact_self {a : DT} (h : a.isInexact = true) : inexact a.needsDouble a.isComplex = a := by
  revert h
  cases a <;> decide
theorem sumType_inexact {a : DT} (h : a.isInexact = true) : a.sumType = a := by
  revert h
  cases a <;> decide

/-- Casting to a floating point type: precision and kind. -/
theorem canCast_inexact (a : DT) (d c : Bool) :
    canCast a (inexact d c) = ((!a.needsDouble || d) && (!a.isComplex || c)) := by
  cases a <;> cases d <;> cases c <;> decide

/-- Promoting never loses the first type. -/
theorem canCast_foldl (ds : List DT) : ∀ d : DT, canCast d (ds.foldl promote d) = true := by
  induction ds with
  | nil => exact canCast_refl
  | cons x xs ih => exact fun d => canCast_trans (canCast_promote_left d x) (ih _)

/-- Promotion gives the first type back exactly when the others can be cast to it. -/
theorem foldl_eq_iff (ds : List DT) (d : DT) : ds.foldl promote d = d ↔ ∀ x ∈ ds, canCast x d = true := by
  constructor
  · intro h
    have gen : ∀ (ds : List DT) (e : DT), ∀ x ∈ ds, canCast x (ds.foldl promote e) = true := by
      intro ds
      induction ds with
      | nil => intro e x hx; cases hx
      | cons y ys ih =>
        intro e x hx
        rcases List.mem_cons.1 hx with rfl | hx
        · exact canCast_trans (canCast_promote_right e x) (canCast_foldl ys _)
        · exact ih _ x hx
    intro x hx
    have := gen ds d x hx
    rwa [h] at this
  · intro h
    induction ds with
    | nil => rfl
    | cons y ys ih =>
      rw [List.foldl_cons, promote_eq_left (h y (List.mem_cons_self))]
      exact ih fun x hx => h x (List.mem_cons_of_mem _ hx)

/-- Promotion from a floating point type on. -/
theorem foldl_inexact (ds : List DT) : ∀ {d : DT}, d.isInexact = true →
    ds.foldl promote d = inexact (d.needsDouble || ds.any needsDouble) (d.isComplex || ds.any DT.isComplex) := by
  induction ds with
  | nil => intro d h; simp [inexact_self h]
  | cons x xs ih =>
    intro d h
    rw [List.foldl_cons, promote_inexact x h, ih (inexact_isInexact _ _), inexact_needsDouble, inexact_isComplex]
    simp [Bool.or_assoc]

/-- `numpy.result_type` of floating point types. -/
theorem resultType_inexact {l : List DT} (hne : l ≠ []) (h : ∀ d ∈ l, d.isInexact = true) :
    resultType l = .ok (inexact (l.any needsDouble) (l.any DT.isComplex)) := by
  cases l with
  | nil => exact absurd rfl hne
  | cons d ds =>
    simp only [resultType, List.any_cons]
    rw [foldl_inexact ds (h d List.mem_cons_self)]

/-- What covers a list of types is determined by it. -/
theorem covers_iff (l : List DT) (d : DT) : Covers l d ↔ d = inexact (l.any needsDouble) (l.any DT.isComplex) := by
  constructor
  · rintro ⟨h1, h2, h3⟩
    rw [← inexact_self h1]
    congr 1
    · rw [Bool.eq_iff_iff, h3]; simp
    · rw [Bool.eq_iff_iff, h2]; simp
  · rintro rfl
    refine ⟨inexact_isInexact _ _, ?_, ?_⟩
    · rw [inexact_isComplex]; simp
    · rw [inexact_needsDouble]; simp

theorem mapM_types (haveDask : Bool) (args : List Arg) (ds : List DT) (h : args.map Arg.type = ds.map some)
    (hd : haveDask = true ∨ ∀ d, Arg.daskArray d ∉ args) :
    args.mapM (numpyDtype haveDask) = .ok ds := by
  induction args generalizing ds with
  | nil => cases ds with
    | nil => rfl
    | cons => simp at h
  | cons a as ih =>
    cases ds with
    | nil => simp at h
    | cons d ds =>
      simp only [List.map_cons, List.cons.injEq] at h
      have ha : numpyDtype haveDask a = .ok d := by
        cases a with
        | ndarray e => simpa [Arg.type, numpyDtype] using h.1
        | numbaArray e => simpa [Arg.type, numpyDtype] using h.1
        | daskArray e =>
          rcases hd with rfl | hd
          · simpa [Arg.type, numpyDtype] using h.1
          · exact absurd List.mem_cons_self (hd e)
        | other => simp [Arg.type] at h
      have := ih ds h.2 (hd.imp_right fun hd d hm => hd d (List.mem_cons_of_mem _ hm))
      rw [List.mapM_cons, ha, this]
      rfl

end Verif.Types
