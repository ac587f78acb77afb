/-
C199: templates without jinja2, and the marker of tests.
-/
import Verif.Util.Templates

set_option autoImplicit false

namespace Verif.Util.Templates

open Verif.Util.Requirements

/-- **C199**: the marker is that of the last call with a boolean, whatever calls were made before it and whatever calls that
raised came after it. -/
theorem C199_marker (before after : List Mark) (b : Bool) (h : ∀ c ∈ after, c = .other) :
    inPytest (before ++ .bool b :: after) = b ∧ inPytest after = false := by
  have key : ∀ (l : List Mark) (s : Bool), (∀ c ∈ l, c = .other) → l.foldl (fun s c => match mark s c with
    | .ok s' => s'
    | .error _ => s) s = s := by
    intro l
    induction l with
    | nil => exact fun s _ => rfl
    | cons c l ih =>
      intro s hl
      obtain rfl := hl c (by simp)
      exact ih s fun c hc => hl c (by simp [hc])
  refine ⟨?_, key after false h⟩
  unfold inPytest
  rw [List.foldl_append, List.foldl_cons]
  exact key after b h

/-- **C199**: the module can be imported whether or not jinja2 is installed; it cannot exactly if importing jinja2 raises something
other than an `ImportError`. -/
theorem C199_import (onRtd : Bool) (imp : String → Import) (names : Bool) :
    (∃ m, load onRtd imp names = .ok m) ↔ imp "jinja2" ≠ .raises := by
  unfold load factory requiresOptional
  cases h : imp "jinja2" <;> cases onRtd <;> cases names <;> simp [scan, h, bind, Except.bind, pure, Except.pure]

/-- **C199**: with jinja2 the environment of jinja2 is used, in tests and elsewhere. -/
theorem C199_real (onRtd : Bool) (imp : String → Import) (m : Kind × Decorated) (h : imp "jinja2" = .ok)
    (hm : load onRtd imp true = .ok m) (calls : List Mark) (pytestOk : Bool) (u : Use) : use calls pytestOk m u = .real := by
  unfold load factory requiresOptional at hm
  cases onRtd <;> simp [scan, h, bind, Except.bind, pure, Except.pure] at hm <;> subst hm <;> rfl

/-- **C199** without jinja2: every use of the environment says that jinja2 is missing: by an exception or, if tests have been
marked since, by skipping the test. The full claim includes versions of jinja2 without the names needed. -/
theorem C199_missing_partial (imp : String → Import) (names : Bool) (m : Kind × Decorated) (h : imp "jinja2" = .importError)
    (hm : load false imp names = .ok m) (calls : List Mark) (u : Use) :
    (inPytest calls = false → ∀ p, use calls p m u = .raises (.missing ["jinja2"] [])) ∧
      (inPytest calls = true → use calls true m u = .raises (.skipped ["jinja2"] [])) := by
  unfold load factory requiresOptional at hm
  simp [scan, h, bind, Except.bind, pure, Except.pure] at hm
  subst hm
  exact ⟨fun hc p => by simp [use, call, hc], fun hc => by simp [use, call, hc]⟩

/-- **C199 fails** for a jinja2 that can be imported but lacks one of the names needed (`select_autoescape` came with version 2.9):
every use of the environment is a `NotImplementedError` that does not name jinja2. -/
theorem C199_old_violated (imp : String → Import) (h : imp "jinja2" = .ok) (calls : List Mark) (pytestOk : Bool) (u : Use) :
    ∃ m, load false imp false = .ok m ∧ use calls pytestOk m u = .notImplemented := by
  refine ⟨(.fake, .original), ?_, rfl⟩
  unfold load factory requiresOptional
  simp [scan, h, bind, Except.bind, pure, Except.pure]

/-- A history in which tests were marked, a call raised, and jinja2 is not installed. -/
example : inPytest [.bool false, .bool true, .other] = true ∧
    ∃ m, load false (fun _ => .importError) true = .ok m ∧
      use [.bool false, .bool true, .other] true m .getattr = .raises (.skipped ["jinja2"] []) :=
  ⟨rfl, (.fake, .failing true ["jinja2"] []), rfl, rfl⟩

end Verif.Util.Templates
