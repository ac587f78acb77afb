/-
**C200**: what changes when READTHEDOCS is set.
-/
import Verif.Util.FakeNumba
import Mathlib.Analysis.Real.Pi.Bounds
import Mathlib.Tactic.Linarith
import Mathlib.Tactic.NormNum
import Mathlib.Tactic.Ring

set_option autoImplicit false

namespace Verif.Util.FakeNumba

/-! ### Specification -/

/-- A call that Python accepts by the number of its arguments. -/
def Accepts {V : Type} (f : Fn V) (args : List V) : Prop :=
  f.required ≤ args.length ∧ (f.varargs = false → args.length ≤ f.required + f.defaults.length)

/-- The arguments of an accepted call, followed by the defaults of those that are missing. -/
def complete {V : Type} (f : Fn V) (args : List V) : List V := args ++ f.defaults.drop (args.length - f.required)

/-! ### Proofs -/

theorem bind_accepts {V : Type} (f : Fn V) (args : List V) (h : Accepts f args) : f.bind args = .ok (complete f args) := by
  unfold Fn.bind complete
  rw [if_neg (by have := h.1; omega)]
  split
  · rename_i h2
    have hv : f.varargs = true := by
      by_contra hn
      have := h.2 (by simpa using hn)
      omega
    rw [if_pos hv, List.drop_eq_nil_of_le (by omega), List.append_nil]
  · rfl

theorem bind_refuses {V : Type} (f : Fn V) (args : List V) (h : ¬ Accepts f args) : f.bind args = .error .typeError := by
  unfold Fn.bind
  by_cases h1 : args.length < f.required
  · rw [if_pos h1]
  · rw [if_neg h1]
    have h2 : f.varargs = false ∧ f.required + f.defaults.length < args.length := by
      by_contra hn
      refine h ⟨by omega, fun hv => ?_⟩
      by_contra h3
      exact hn ⟨hv, by omega⟩
    rw [if_pos h2.2, h2.1]
    rfl

/-- **C200** The substitutes are used exactly if READTHEDOCS is set to some text. -/
theorem C200_switch (env : Option String) : readthedocs env = true ↔ ∃ s, env = some s ∧ s ≠ "" := by
  cases env <;> simp [readthedocs]

example : readthedocs (some "False") = true ∧ readthedocs (some "") = false ∧ readthedocs none = false := by decide

/-- **C200**, in part: a decorated function can be documented, as it has the arguments and defaults of the plain one, and calls
with a wrong number of arguments raise `TypeError` as before. Missing: other calls (`C200_never`, `C200_violated`). -/
theorem C200_signature_partial {V : Type} (obj : V) (f : Fn V) :
    ((fake obj f).required = f.required ∧ (fake obj f).defaults = f.defaults ∧ (fake obj f).varargs = f.varargs) ∧
    ∀ args, ¬ Accepts f args → (fake obj f).call args = .error .typeError ∧ f.call args = .error .typeError := by
  refine ⟨⟨rfl, rfl, rfl⟩, fun args h => ?_⟩
  have h' : (fake obj f).bind args = .error .typeError := bind_refuses (fake obj f) args h
  have h0 := bind_refuses f args h
  constructor
  · unfold Fn.call; rw [h']; rfl
  · unfold Fn.call; rw [h0]; rfl

/-- **C200** What a decorated function does: it calls the plain function with one argument more, the function itself, in front
of the arguments and defaults. -/
theorem C200_shifted {V : Type} (obj : V) (f : Fn V) (args : List V) (h : Accepts f args) :
    (fake obj f).call args = f.call (f.self :: complete f args) := by
  have h' : (fake obj f).bind args = .ok (complete f args) := bind_accepts (fake obj f) args h
  unfold Fn.call
  rw [h']
  rfl

/-- **C200** So no call of a decorated function without `*args` succeeds: all raise `TypeError`. -/
theorem C200_never {V : Type} (obj : V) (f : Fn V) (hv : f.varargs = false) (args : List V) :
    (fake obj f).call args = .error .typeError := by
  by_cases h : Accepts f args
  · rw [C200_shifted obj f args h]
    have hl : (complete f args).length = f.required + f.defaults.length := by
      have h1 := h.1
      have h2 := h.2 hv
      simp only [complete, List.length_append, List.length_drop]
      omega
    unfold Fn.call
    rw [bind_refuses f _ fun ha => by
      have := ha.2 hv
      simp only [List.length_cons] at this
      omega]
    rfl
  · exact ((C200_signature_partial obj f).2 args h).1

/-- A function of two arguments, one with a default. -/
def sample : Fn Nat := ⟨100, 1, [7], false, fun l => .ok l.sum⟩

example : Accepts sample [1] ∧ complete sample [1] = [1, 7] ∧ ¬ Accepts sample [] := by
  refine ⟨⟨by decide, by decide⟩, rfl, fun h => ?_⟩
  have := h.1
  simp [sample] at this

/-- **C200** (disagreement) The plain function returns a value, the decorated one raises; a function with `*args` returns
another value. -/
theorem C200_violated :
    (sample.call [1] = .ok 8 ∧ (fake 101 sample).call [1] = .error .typeError) ∧
    ∃ f : Fn Nat, f.varargs = true ∧ f.call [1, 2] = .ok 3 ∧ (fake 101 f).call [1, 2] = .ok 103 :=
  ⟨⟨rfl, rfl⟩, ⟨100, 0, [], true, fun l => .ok l.sum⟩, rfl, rfl, rfl⟩

/-- **C200** (disagreement) A function decorated without parentheses, as `uspace` of two arguments is, is lost: its name stands
for something that takes one argument, so every call with another number of arguments raises `TypeError`. -/
theorem C200_bare_violated {V : Type} (obj : V) (f : Fn V) (wrap : V → Except PyErr V) (args : List V)
    (h : args.length ≠ 1) : (onRtd false obj f).call wrap args = .error .typeError := by
  match args, h with
  | [], _ => rfl
  | [_], h => exact absurd rfl h
  | _ :: _ :: _, _ => rfl

example : (onRtd false 101 (⟨100, 2, [], false, fun l => .ok l.sum⟩ : Fn Nat)).call .ok [3, 5] = .error .typeError ∧
    (⟨100, 2, [], false, fun l => .ok l.sum⟩ : Fn Nat).call [3, 5] = .ok 8 := ⟨rfl, rfl⟩

/-- **C200** Constants: without READTHEDOCS they are those of pi; with it they are smaller, by less than 0.06 percent. -/
theorem C200_constants (c : ℝ) (hc : 0 < c) :
    constants false Real.pi c = (2 * Real.pi / c, Real.pi / 180, Real.pi / 648000) ∧
    ∀ k : ℝ × ℝ × ℝ → ℝ, (k = Prod.fst ∨ k = (fun p => p.2.1) ∨ k = fun p => p.2.2) →
      k (constants true Real.pi c) < k (constants false Real.pi c) ∧
      k (constants false Real.pi c) * (1 - 6 / 10000) < k (constants true Real.pi c) := by
  have h1 := Real.pi_gt_d6
  have h2 := Real.pi_lt_d6
  have hs : ∀ s : ℝ, 0 < s → s * 3.14 < s * Real.pi ∧ s * Real.pi * (1 - 6 / 10000) < s * 3.14 := by
    intro s h
    constructor
    · exact mul_lt_mul_of_pos_left (by norm_num at h1 ⊢; linarith) h
    · rw [mul_assoc]
      exact mul_lt_mul_of_pos_left (by norm_num at h2 ⊢; linarith) h
  refine ⟨by simp only [constants, piUsed, Bool.false_eq_true, if_false]; norm_num, ?_⟩
  rintro k (rfl | rfl | rfl) <;> simp only [constants, piUsed, if_true, Bool.false_eq_true, if_false]
  · have := hs (2 / c) (by positivity)
    rw [show 2 * 3.14 / c = 2 / c * 3.14 by ring, show 2 * Real.pi / c = 2 / c * Real.pi by ring]
    exact this
  · have := hs (1 / 180) (by norm_num)
    rw [show (3.14 : ℝ) / 180 = 1 / 180 * 3.14 by ring, show Real.pi / 180 = 1 / 180 * Real.pi by ring]
    exact this
  · have := hs (1 / (180 * 3600)) (by norm_num)
    rw [show (3.14 : ℝ) / (180 * 3600) = 1 / (180 * 3600) * 3.14 by ring,
      show Real.pi / (180 * 3600) = 1 / (180 * 3600) * Real.pi by ring]
    exact this

end Verif.Util.FakeNumba
