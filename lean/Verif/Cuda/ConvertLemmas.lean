/-
Lemmas about the generated kernel for conversions: the mapping is that of the CPU, and what a launch leaves in memory.
-/
import Verif.Cuda.ConvertSpec
import Verif.Cuda.PredictLemmas
import Verif.Util.CyclesProps
import Verif.ModelData.CoherencyProps

set_option autoImplicit false

namespace Verif.Cuda

open Verif.ModelData

/-! ### the mapping -/

/-- The expression of the kernel computes the function of the CPU. -/
def SameFn (kind : OutKind) (f g : ℂ → ℂ → ℂ) : Prop :=
  ∀ x y, (kind = .complex → x.im = 0 ∧ y.im = 0) → f x y = g x y

/-- Which kind of output a name is. -/
def kindOf (s : String) : Option OutKind :=
  if s ∈ corrNames then some .complex else if s ∈ stokesNames then some .real else none

theorem gpuConv_eq {s : String} {d : List ((String × String) × OutKind × (ℂ → ℂ → ℂ))} (h : gpuConv s = some d) :
    ∃ d', stokesConv s = some d' ∧ List.Forall₂ (fun g c => g.1 = c.1 ∧ kindOf s = some g.2.1 ∧ SameFn g.2.1 g.2.2 c.2) d d' := by
  unfold gpuConv at h
  split at h <;> first | (cases h; done) | skip
  all_goals
    obtain rfl := Option.some.inj h
    refine ⟨_, rfl, ?_⟩
    repeat' constructor
    all_goals
      intro x y hxy
      try obtain ⟨hx, hy⟩ := hxy rfl
      apply Complex.ext <;> simp [make2, scalar, *]

theorem gpuConv_none {s : String} : gpuConv s = none ↔ stokesConv s = none := by
  unfold gpuConv stokesConv
  split <;> simp

theorem gpuConv_known {s : String} : gpuConv s ≠ none ↔ s ∈ knownOutputs := by
  constructor
  · intro h
    unfold gpuConv at h
    split at h <;> first | exact absurd rfl h | simp [knownOutputs]
  · intro h h'
    exact known_ne_none h (gpuConv_none.1 h')

theorem gpuFind_eq {inputs : List (String × List Nat)} {p : List Nat} {s : String}
    {d : List ((String × String) × OutKind × (ℂ → ℂ → ℂ))} {d' : List ((String × String) × (ℂ → ℂ → ℂ))}
    (h : List.Forall₂ (fun g c => g.1 = c.1 ∧ kindOf s = some g.2.1 ∧ SameFn g.2.1 g.2.2 c.2) d d') :
    (gpuFind inputs p d = none ∧ findConv inputs p d' = none) ∨
    ∃ k i1 i2 f g, gpuFind inputs p d = some (k, i1, i2, p, f) ∧ findConv inputs p d' = some (i1, i2, p, g) ∧
      kindOf s = some k ∧ SameFn k f g := by
  induction h with
  | nil => exact Or.inl ⟨rfl, rfl⟩
  | @cons g c d d' hgc _ ih =>
    obtain ⟨⟨c1, c2⟩, k, f⟩ := g
    obtain ⟨cc, g⟩ := c
    obtain ⟨rfl, hk, hf⟩ := hgc
    simp only [gpuFind, findConv]
    cases h1 : indexOf? inputs c1 with
    | none => exact ih
    | some i1 =>
      cases h2 : indexOf? inputs c2 with
      | none => exact ih
      | some i2 => exact Or.inr ⟨k, i1, i2, f, g, rfl, rfl, hk, hf⟩

/-- Entries of the two mappings belong together. -/
def SameEntry (o : String × List Nat) (g : OutKind × MapEntry) (c : MapEntry) : Prop :=
  kindOf o.1 = some g.1 ∧ c.1 = g.2.1 ∧ c.2.1 = g.2.2.1 ∧ c.2.2.1 = g.2.2.2.1 ∧ g.2.2.2.1 = o.2 ∧ SameFn g.1 g.2.2.2.2 c.2.2.2

theorem gpuMapping_ok {inputs : List (String × List Nat)} {rest : List (String × List Nat)} {m m' : List (OutKind × MapEntry)}
    (h : gpuMapping inputs rest m = .ok m') (b : Bool) (mc : List MapEntry) :
    ∃ es cs, m' = m ++ es ∧ buildMapping inputs b rest mc = .ok (mc ++ cs) ∧ es.length = rest.length ∧ cs.length = rest.length ∧
      ∀ k (hk : k < rest.length) (h1 : k < es.length) (h2 : k < cs.length), SameEntry rest[k] es[k] cs[k] := by
  induction rest generalizing b m mc with
  | nil =>
    simp only [gpuMapping, Except.ok.injEq] at h
    exact ⟨[], [], by simp [h], by simp [buildMapping], rfl, rfl, fun k hk => by simp at hk⟩
  | cons o rest ih =>
    obtain ⟨okey, p⟩ := o
    simp only [gpuMapping] at h
    cases hd : gpuConv okey with
    | none => rw [hd] at h; cases h
    | some deps =>
      rw [hd] at h
      obtain ⟨d', hd', hf⟩ := gpuConv_eq hd
      simp only at h
      rcases gpuFind_eq (inputs := inputs) (p := p) hf with ⟨h1, _⟩ | ⟨k, i1, i2, f, g, h1, h2, hk, hfg⟩
      · rw [h1] at h; cases h
      · rw [h1] at h
        obtain ⟨es, cs, e1, e2, e3, e4, e5⟩ := ih h true (mc ++ [(i1, i2, p, g)])
        refine ⟨(k, i1, i2, p, f) :: es, (i1, i2, p, g) :: cs, by simp [e1], ?_, by simp [e3], by simp [e4], ?_⟩
        · simp only [buildMapping, hd', h2]
          rw [e2]
          simp
        · intro j hj1 hj2 hj3
          cases j with
          | zero => exact ⟨hk, rfl, rfl, rfl, rfl, hfg⟩
          | succ j => exact e5 j _ _ _

theorem gpuMapping_error {inputs : List (String × List Nat)} {rest : List (String × List Nat)} {m : List (OutKind × MapEntry)}
    {e : PyErr} (h : gpuMapping inputs rest m = .error e) (b : Bool) (mc : List MapEntry) :
    (e = .missingConversionInputs ∧ buildMapping inputs b rest mc = .error .missingConversionInputs) ∨
    (e = .valueError ∧ ∃ e', buildMapping inputs b rest mc = .error e' ∧ (e' = .valueError ∨ e' = .unboundLocalError)) := by
  induction rest generalizing b m mc with
  | nil => simp [gpuMapping] at h
  | cons o rest ih =>
    obtain ⟨okey, p⟩ := o
    simp only [gpuMapping] at h
    cases hd : gpuConv okey with
    | none =>
      rw [hd] at h
      simp only [Except.error.injEq] at h
      refine Or.inr ⟨h.symm, if b then .valueError else .unboundLocalError, by simp only [buildMapping, gpuConv_none.1 hd], ?_⟩
      cases b <;> simp
    | some deps =>
      rw [hd] at h
      obtain ⟨d', hd', hf⟩ := gpuConv_eq hd
      simp only at h
      rcases gpuFind_eq (inputs := inputs) (p := p) hf with ⟨h1, h2⟩ | ⟨k, i1, i2, f, g, h1, h2, hk, hfg⟩
      · rw [h1] at h
        simp only [Except.error.injEq] at h
        exact Or.inl ⟨h.symm, by simp only [buildMapping, hd', h2]⟩
      · rw [h1] at h
        have := ih h true (mc ++ [(i1, i2, p, g)])
        simpa only [buildMapping, hd', h2] using this

end Verif.Cuda
