/-
Shared vocabulary of the models: Python exceptions as values and `for i in range(n)` loops.
-/
import Mathlib.Logic.Function.Basic

namespace Verif

/-- The exception classes raised by the modelled code (a model of Python exceptions as values;
messages are dropped, classes are kept). `RowMapperError` is
`averaging/time_and_channel_mapping.py:13`, `RowChannelAverageException` is
`averaging/time_and_channel_avg.py:484`, `MissingConversionInputs` and the other conversion errors are
`model/coherency/conversion.py:38-44`, `TemplatingException` is `util/jinja2.py:66` and `CompileException` is cupy's; the
remaining ones are Python built-ins. -/
inductive PyErr
  | valueError | typeError | runtimeError | keyError | indexError | notImplementedError
  | unboundLocalError | assertionError | attributeError | zeroDivisionError | stopIteration
  | rowMapperError | rowChannelAverageException
  | missingConversionInputs | dimensionMismatch | missingPackage
  | templatingException | compileException
  deriving DecidableEq, Repr

/-- `for i in range(n): state = f(i, state)`
(a form of the loops of the kernels, such as averaging/time_and_channel_mapping.py and rime/predict.py:193-238). -/
def forRange {σ : Type*} (n : Nat) (init : σ) (f : Nat → σ → σ) : σ :=
  (List.range n).foldl (fun s i => f i s) init

/-- `for i in range(n)` with a body that may raise
(a form of the loops of the kernels, such as averaging/time_and_channel_mapping.py and rime/predict.py:193-238). -/
def forRangeM {σ ε : Type*} (n : Nat) (init : σ) (f : Nat → σ → Except ε σ) : Except ε σ :=
  (List.range n).foldlM (fun s i => f i s) init

@[simp] theorem forRange_zero {σ : Type*} (init : σ) (f : Nat → σ → σ) :
    forRange 0 init f = init := rfl

theorem forRange_succ {σ : Type*} (n : Nat) (init : σ) (f : Nat → σ → σ) :
    forRange (n + 1) init f = f n (forRange n init f) := by
  simp [forRange, List.range_succ]

@[simp] theorem forRangeM_zero {σ ε : Type*} (init : σ) (f : Nat → σ → Except ε σ) :
    forRangeM 0 init f = .ok init := rfl

theorem forRangeM_succ {σ ε : Type*} (n : Nat) (init : σ) (f : Nat → σ → Except ε σ) :
    forRangeM (n + 1) init f = (forRangeM n init f) >>= f n := by
  simp [forRangeM, List.range_succ, List.foldlM_append]

/-- Loop-invariant rule for `forRange`. -/
theorem forRange_inv {σ : Type*} {n : Nat} {init : σ} {f : Nat → σ → σ} (P : Nat → σ → Prop)
    (h0 : P 0 init) (hs : ∀ i s, i < n → P i s → P (i + 1) (f i s)) : P n (forRange n init f) := by
  have : ∀ k, k ≤ n → P k (forRange k init f) := by
    intro k
    induction k with
    | zero => intro _; simpa using h0
    | succ k ih =>
      intro hk
      rw [forRange_succ]
      exact hs k _ (by omega) (ih (by omega))
  exact this n (Nat.le_refl n)

/-- If every iteration succeeds and preserves `P`, so does the whole loop. -/
theorem forRangeM_ok_inv {σ ε : Type*} {n : Nat} {init : σ} {f : Nat → σ → Except ε σ}
    (P : Nat → σ → Prop) (h0 : P 0 init)
    (hs : ∀ i s, i < n → P i s → ∃ s', f i s = .ok s' ∧ P (i + 1) s') :
    ∃ s, forRangeM n init f = .ok s ∧ P n s := by
  have : ∀ k, k ≤ n → ∃ s, forRangeM k init f = .ok s ∧ P k s := by
    intro k
    induction k with
    | zero => intro _; exact ⟨init, rfl, h0⟩
    | succ k ih =>
      intro hk
      obtain ⟨s, h1, h2⟩ := ih (by omega)
      obtain ⟨s', h3, h4⟩ := hs k s (by omega) h2
      refine ⟨s', ?_, h4⟩
      rw [forRangeM_succ, h1]
      exact h3
  exact this n (Nat.le_refl n)

/-- Partial correctness: an invariant preserved by successful iterations holds on success. -/
theorem forRangeM_of_ok {σ ε : Type*} {n : Nat} {init : σ} {f : Nat → σ → Except ε σ} {s : σ}
    (P : Nat → σ → Prop) (h0 : P 0 init)
    (hs : ∀ i s s', i < n → P i s → f i s = .ok s' → P (i + 1) s')
    (h : forRangeM n init f = .ok s) : P n s := by
  have : ∀ k, k ≤ n → ∀ s, forRangeM k init f = .ok s → P k s := by
    intro k
    induction k with
    | zero => intro _ s h; simp at h; exact h ▸ h0
    | succ k ih =>
      intro hk s h
      rw [forRangeM_succ] at h
      cases hk' : forRangeM k init f with
      | error e => rw [hk'] at h; cases h
      | ok s1 =>
        rw [hk'] at h
        exact hs k s1 s (by omega) (ih (by omega) s1 hk') h
  exact this n (Nat.le_refl n) s h

/-- A loop that raises, raises in some iteration. -/
theorem forRangeM_error {σ ε : Type*} {n : Nat} {init : σ} {f : Nat → σ → Except ε σ} {e : ε}
    (h : forRangeM n init f = .error e) : ∃ i s, i < n ∧ f i s = .error e := by
  induction n with
  | zero => simp at h
  | succ k ih =>
    rw [forRangeM_succ] at h
    cases hk' : forRangeM k init f with
    | error e' =>
      rw [hk'] at h
      obtain ⟨i, s, h1, h2⟩ := ih (by rw [hk']; exact h)
      exact ⟨i, s, by omega, h2⟩
    | ok s1 => rw [hk'] at h; exact ⟨k, s1, by omega, h⟩

end Verif
