/-
C156-C158: the terms, the sky model and the tables of the example prediction program.
-/
import Verif.Examples.Predict
import Verif.Util.Shapes
import Mathlib.Algebra.BigOperators.Ring.Finset
import Mathlib.Tactic.Ring
import Mathlib.LinearAlgebra.Matrix.Notation

set_option autoImplicit false

namespace Verif.Examples

open Finset

/-! ### Specification of C156 -/

/-- Specification: the number of dimensions of each kind of term. -/
def properDim (corrs : Nat) (name : String) : Option Nat :=
  if name = "brightness" then some (if corrs = 4 then 4 else 3)
  else if name = "phase_delay" then some 3
  else if name = "gauss_shape" then some 3
  else if name = "spi" then some 1
  else none

/-- Specification: all terms are known and have the right number of dimensions. -/
def Proper {K : Type*} (corrs : Nat) (terms : List (Term K)) : Prop :=
  ∀ x ∈ terms, properDim corrs x.name = some x.ndim

/-- Specification: the scalar terms at a source, row and channel, multiplied. -/
def scalars {K : Type*} [CommSemiring K] (s r f : Nat) : List (Term K) → K
  | [] => 1
  | x :: xs =>
    (if x.name = "brightness" then 1 else if x.name = "spi" then x.array [s] else x.array [s, r, f]) * scalars s r f xs

/-- Specification: the brightness matrices at a source and channel, in order. -/
def matrices {K : Type*} (s f : Nat) : List (Term K) → List (Matrix (Fin 2) (Fin 2) K)
  | [] => []
  | x :: xs => if x.name = "brightness" then (Matrix.of fun a b => x.array [s, f, a, b]) :: matrices s f xs else matrices s f xs

/-- Specification: the brightness vectors at a source, channel and correlation, multiplied. -/
def vectors {K : Type*} [CommSemiring K] (s f c : Nat) : List (Term K) → K
  | [] => 1
  | x :: xs => (if x.name = "brightness" then x.array [s, f, c] else 1) * vectors s f c xs

/-- Specification: the number of brightness terms. -/
def nBright {K : Type*} (terms : List (Term K)) : Nat := (terms.filter fun x => x.name = "brightness").length

/-- Specification: some term depends on the row. -/
def HasRow {K : Type*} (terms : List (Term K)) : Prop :=
  ∃ x ∈ terms, x.name = "phase_delay" ∨ x.name = "gauss_shape"

/-! ### Lemmas -/

private theorem nBright_cons {K : Type*} (x : Term K) (xs : List (Term K)) :
    nBright (x :: xs) = (if x.name = "brightness" then 1 else 0) + nBright xs := by
  unfold nBright
  by_cases h : x.name = "brightness" <;> simp [h]; omega

/-- The four kinds of term. -/
private theorem kinds {corrs n : Nat} {name : String} (h : properDim corrs name = some n) :
    (name = "brightness" ∧ n = if corrs = 4 then 4 else 3) ∨ (name = "phase_delay" ∧ n = 3) ∨
      (name = "gauss_shape" ∧ n = 3) ∨ (name = "spi" ∧ n = 1) := by
  unfold properDim at h
  split_ifs at h <;> simp_all

/-- Letter `k` of the correlation indices. -/
private def letter (k : Nat) : Char := corrIndices.getD k 'z'

/-- The labels of the terms from a correlation index. -/
private def labelsOf {K : Type*} (corrs : Nat) : Nat → List (Term K) → List (List Char)
  | _, [] => []
  | index, x :: xs =>
    if x.name = "brightness" then
      if corrs = 4 then ['s', 'f', letter index, letter (index + 1)] :: labelsOf corrs (index + 1) xs
      else ['s', 'f', 'i'] :: labelsOf corrs index xs
    else (if x.name = "spi" then ['s'] else ['s', 'r', 'f']) :: labelsOf corrs index xs

private theorem drop_take (index : Nat) (h : index ≤ 2) :
    (corrIndices.drop index).take 2 = [letter index, letter (index + 1)] := by
  have : index = 0 ∨ index = 1 ∨ index = 2 := by omega
  rcases this with rfl | rfl | rfl <;> rfl

private theorem schemas_four {K : Type*} (terms : List (Term K)) (index : Nat) (hp : Proper 4 terms)
    (hn : index + nBright terms ≤ 3) :
    schemas 4 index terms = .ok (labelsOf 4 index terms, index + nBright terms) := by
  induction terms generalizing index with
  | nil => rfl
  | cons x xs ih =>
    have hx := hp x (by simp)
    have hxs : Proper 4 xs := fun y hy => hp y (by simp [hy])
    rw [nBright_cons] at hn ⊢
    rcases kinds hx with ⟨h, hd⟩ | ⟨h, hd⟩ | ⟨h, hd⟩ | ⟨h, hd⟩
    · rw [if_pos h] at hn ⊢
      simp only [schemas, termSchema, labelsOf, h, if_true, hd]
      rw [drop_take index (by omega), if_neg (by simp), ih (index + 1) hxs (by omega)]
      simp only [Nat.add_assoc, List.cons_append, List.nil_append]
    all_goals
      rw [if_neg (by rw [h]; decide), Nat.zero_add] at hn ⊢
      simp [schemas, termSchema, labelsOf, h, hd, ih index hxs hn]

private theorem schemas_few {K : Type*} (corrs : Nat) (hc : corrs ≠ 4) (terms : List (Term K)) (index : Nat)
    (hp : Proper corrs terms) : schemas corrs index terms = .ok (labelsOf corrs index terms, index) := by
  induction terms generalizing index with
  | nil => rfl
  | cons x xs ih =>
    have hx := hp x (by simp)
    have hxs : Proper corrs xs := fun y hy => hp y (by simp [hy])
    rcases kinds hx with ⟨h, hd⟩ | ⟨h, hd⟩ | ⟨h, hd⟩ | ⟨h, hd⟩ <;>
      simp [schemas, termSchema, labelsOf, h, hd, hc, ih index hxs]

/-- The product of the brightness terms at values of the labels. -/
private def chain {K : Type*} [CommSemiring K] (σ : Char → Nat) : Nat → List (Term K) → K
  | _, [] => 1
  | index, x :: xs =>
    if x.name = "brightness" then
      x.array [σ 's', σ 'f', σ (letter index), σ (letter (index + 1))] * chain σ (index + 1) xs
    else chain σ index xs

/-- The product of the terms at values of the labels. -/
private theorem prod_four {K : Type*} [CommSemiring K] (terms : List (Term K)) (index : Nat) (σ : Char → Nat) :
    (((labelsOf 4 index terms).zip (terms.map Term.array)).map fun e => e.2 (e.1.map σ)).prod =
      scalars (σ 's') (σ 'r') (σ 'f') terms * chain σ index terms := by
  induction terms generalizing index with
  | nil => simp [labelsOf, scalars, chain]
  | cons x xs ih =>
    by_cases h : x.name = "brightness"
    · simp only [labelsOf, scalars, chain, h, if_true, List.map_cons, List.zip_cons_cons,
        List.prod_cons, one_mul, ih (index + 1), List.map_nil]
      ring
    · by_cases h2 : x.name = "spi" <;>
      simp [labelsOf, scalars, chain, h, h2, List.map_cons, List.zip_cons_cons,
        List.prod_cons, ih index, mul_assoc]

private theorem prod_few {K : Type*} [CommSemiring K] (corrs : Nat) (hc : corrs ≠ 4) (terms : List (Term K))
    (index : Nat) (σ : Char → Nat) :
    (((labelsOf corrs index terms).zip (terms.map Term.array)).map fun e => e.2 (e.1.map σ)).prod =
      scalars (σ 's') (σ 'r') (σ 'f') terms * vectors (σ 's') (σ 'f') (σ 'i') terms := by
  induction terms generalizing index with
  | nil => simp [labelsOf, scalars, vectors]
  | cons x xs ih =>
    by_cases h : x.name = "brightness"
    · simp only [labelsOf, scalars, vectors, h, hc, if_true, if_false, List.map_cons, List.zip_cons_cons,
        List.prod_cons, one_mul, ih index, List.map_nil]
      ring
    · by_cases h2 : x.name = "spi" <;>
      simp [labelsOf, scalars, vectors, h, h2, List.map_cons, List.zip_cons_cons,
        List.prod_cons, ih index, mul_assoc]

/-- The chain in terms of matrices. -/
private def chainM {K : Type*} [CommSemiring K] (σ : Nat → Fin 2) : Nat → List (Matrix (Fin 2) (Fin 2) K) → K
  | _, [] => 1
  | index, m :: ms => m (σ index) (σ (index + 1)) * chainM σ (index + 1) ms

private theorem chain_eq {K : Type*} [CommSemiring K] (terms : List (Term K)) (index : Nat) (σ : Char → Nat)
    (τ : Nat → Fin 2) (h : ∀ k, index ≤ k → k ≤ index + nBright terms → σ (letter k) = (τ k).val) :
    chain σ index terms = chainM τ index (matrices (σ 's') (σ 'f') terms) := by
  induction terms generalizing index with
  | nil => rfl
  | cons x xs ih =>
    rw [nBright_cons] at h
    by_cases hx : x.name = "brightness"
    · rw [if_pos hx] at h
      simp only [chain, matrices, hx, if_true, chainM]
      rw [ih (index + 1) fun k hk hk' => h k (by omega) (by omega), h index (by omega) (by omega),
        h (index + 1) (by omega) (by omega)]
      rfl
    · rw [if_neg hx, Nat.zero_add] at h
      simp only [chain, matrices, hx, if_false]
      exact ih index h

private theorem matrices_length {K : Type*} (s f : Nat) (terms : List (Term K)) :
    (matrices s f terms).length = nBright terms := by
  induction terms with
  | nil => rfl
  | cons x xs ih =>
    rw [nBright_cons]
    by_cases hx : x.name = "brightness"
    · simp only [matrices, hx, if_true, List.length_cons, ih]; omega
    · simp only [matrices, hx, if_false, ih, Nat.zero_add]

private theorem letter_inj (a b : Nat) (ha : a ≤ 3) (hb : b ≤ 3) : letter a = letter b ↔ a = b := by
  have inj4 : ∀ a < 4, ∀ b < 4, (letter a = letter b ↔ a = b) := by decide
  exact inj4 a (by omega) b (by omega)

private theorem letter_ne (a : Nat) (ha : a ≤ 3) : letter a ≠ 's' ∧ letter a ≠ 'f' ∧ letter a ≠ 'r' := by
  have ne : ∀ a < 4, letter a ≠ 's' ∧ letter a ≠ 'f' ∧ letter a ≠ 'r' := by decide
  exact ne a (by omega)

private theorem mem_letter {K : Type*} (terms : List (Term K)) (index p : Nat) (hn : index + nBright terms ≤ 3)
    (hp : p ≤ 3) :
    letter p ∈ (labelsOf 4 index terms).flatten ↔ 1 ≤ nBright terms ∧ index ≤ p ∧ p ≤ index + nBright terms := by
  induction terms generalizing index with
  | nil => simp [labelsOf, nBright]
  | cons x xs ih =>
    obtain ⟨n1, n2, n3⟩ := letter_ne p hp
    rw [nBright_cons] at hn ⊢
    by_cases hx : x.name = "brightness"
    · rw [if_pos hx] at hn ⊢
      simp only [labelsOf, hx, if_true, List.flatten_cons, List.mem_append, List.mem_cons, List.not_mem_nil, n1, n2,
        false_or, or_false]
      rw [letter_inj p index hp (by omega), letter_inj p (index + 1) hp (by omega), ih (index + 1) (by omega)]
      omega
    · rw [if_neg hx, Nat.zero_add] at hn ⊢
      simp only [labelsOf, hx, if_false, List.flatten_cons, List.mem_append]
      rw [ih index hn]
      have : letter p ∉ (if x.name = "spi" then ['s'] else ['s', 'r', 'f']) := by
        split_ifs <;> simp [n1, n2, n3]
      simp [this]

private theorem mem_srf {K : Type*} (corrs index : Nat) (terms : List (Term K)) :
    (1 ≤ nBright terms → 's' ∈ (labelsOf corrs index terms).flatten ∧ 'f' ∈ (labelsOf corrs index terms).flatten) ∧
    (Proper corrs terms → HasRow terms → 'r' ∈ (labelsOf corrs index terms).flatten) := by
  induction terms generalizing index with
  | nil => exact ⟨fun h => by simp [nBright] at h, fun _ ⟨x, hx, _⟩ => by simp at hx⟩
  | cons x xs ih =>
    rw [nBright_cons]
    constructor
    · intro h
      by_cases hx : x.name = "brightness"
      · by_cases hc : corrs = 4 <;> simp [labelsOf, hx, hc]
      · rw [if_neg hx, Nat.zero_add] at h
        have := (ih index).1 h
        simp [labelsOf, hx, this.1, this.2]
    · rintro hp ⟨y, hy, hn⟩
      rcases List.mem_cons.1 hy with rfl | hy
      · rcases hn with hn | hn <;> simp [labelsOf, hn]
      · have := fun i => (ih i).2 (fun z hz => hp z (by simp [hz])) ⟨y, hy, hn⟩
        by_cases hx : x.name = "brightness"
        · by_cases hc : corrs = 4
          · have h1 := this (index + 1)
            simp only [labelsOf, hx, hc, if_true, List.flatten_cons, List.mem_append]
            subst hc
            exact Or.inr h1
          · have h1 := this index
            simp only [labelsOf, hx, hc, if_true, if_false, List.flatten_cons, List.mem_append]
            exact Or.inr h1
        · simp only [labelsOf, hx, if_false, List.flatten_cons, List.mem_append]
          exact Or.inr (this index)

/-! ### C156 -/

/-- **C156** Four correlations: terms of the known kinds, in any order, with one to three brightness terms and a term that
depends on the row, are multiplied: scalars as scalars, brightness terms as 2x2 matrices in the given order. -/
theorem C156_matrices {K : Type*} [CommSemiring K] (dim : Char → Nat) (h2 : ∀ c ∈ ['i', 'j', 'k', 'l'], dim c = 2)
    (terms : List (Term K)) (hp : Proper 4 terms) (h1 : 1 ≤ nBright terms) (h3 : nBright terms ≤ 3)
    (hr : HasRow terms) :
    ∃ out, baselineJonesMultiply dim 4 terms = .ok out ∧
      ∀ s r f, ∀ a b : Fin 2,
        out [s, r, f, a, b] = scalars s r f terms * (matrices s f terms).prod a b := by
  have hs := schemas_four terms 0 hp (by omega)
  rw [Nat.zero_add] at hs
  obtain ⟨ms, mf⟩ := (mem_srf 4 0 terms).1 h1
  have mr := (mem_srf 4 0 terms).2 hp hr
  have ml := fun p hp => mem_letter terms 0 p (by omega) hp
  have n : nBright terms = 1 ∨ nBright terms = 2 ∨ nBright terms = 3 := by omega
  have li : letter 0 = 'i' := rfl
  have lj : letter 1 = 'j' := rfl
  have lk : letter 2 = 'k' := rfl
  have ll : letter 3 = 'l' := rfl
  have mi := ml 0 (by omega)
  have mj := ml 1 (by omega)
  have mk := ml 2 (by omega)
  have mll := ml 3 (by omega)
  rw [li] at mi
  rw [lj] at mj
  rw [lk] at mk
  rw [ll] at mll
  rcases n with n | n | n
  · rw [n] at mi mj mk mll hs
    have mj' := mj.2 (by omega)
    have mi' := mi.2 (by omega)
    refine ⟨_, by
      simp only [baselineJonesMultiply, hs]
      simp only [outputSchema, corrIndices, if_true, List.getElem?_cons_succ, List.getElem?_cons_zero, einsum]
      rw [if_neg (by
        rw [not_or, not_not, not_not]
        exact ⟨by decide, by simp [ms, mr, mf, mi', mj', -List.mem_flatten]⟩)], fun s r f a b => ?_⟩
    have hfil : (alphabet.filter fun c => c ∈ (labelsOf 4 0 terms).flatten ∧ c ∉ ['s', 'r', 'f', 'i', 'j']) = [] := by
      have hk : 'k' ∉ (labelsOf 4 0 terms).flatten := fun h => by have := mk.1 h; omega
      have hl : 'l' ∉ (labelsOf 4 0 terms).flatten := fun h => by have := mll.1 h; omega
      simp [alphabet, List.filter, hk, hl, -List.mem_flatten]
    rw [hfil]
    simp only [sumOver, prod_four]
    rw [chain_eq terms 0 _ (fun k => if k = 0 then a else b) (by
      intro k _ hk
      have : k = 0 ∨ k = 1 := by omega
      rcases this with rfl | rfl <;> rfl)]
    obtain ⟨m, hm⟩ := List.length_eq_one_iff.1 ((matrices_length s f terms).trans n)
    show scalars s r f terms * chainM _ 0 (matrices s f terms) = _
    rw [hm]
    simp [chainM]
  · rw [n] at mi mj mk mll hs
    have mj' := mj.2 (by omega)
    have mi' := mi.2 (by omega)
    have mk' := mk.2 (by omega)
    refine ⟨_, by
      simp only [baselineJonesMultiply, hs]
      simp only [outputSchema, corrIndices, if_true, List.getElem?_cons_succ, List.getElem?_cons_zero, einsum]
      rw [if_neg (by
        rw [not_or, not_not, not_not]
        exact ⟨by decide, by simp [ms, mr, mf, mi', mk', -List.mem_flatten]⟩)], fun s r f a b => ?_⟩
    have hfil : (alphabet.filter fun c => c ∈ (labelsOf 4 0 terms).flatten ∧ c ∉ ['s', 'r', 'f', 'i', 'k']) = ['j'] := by
      have hl : 'l' ∉ (labelsOf 4 0 terms).flatten := fun h => by have := mll.1 h; omega
      simp [alphabet, List.filter, mj', hl, -List.mem_flatten]
    rw [hfil]
    simp only [sumOver, prod_four, h2 'j' (by simp)]
    obtain ⟨m, m', hm⟩ := List.length_eq_two.1 ((matrices_length s f terms).trans n)
    have cell : ∀ v : Fin 2, chain (Function.update (assign ['s', 'r', 'f', 'i', 'k'] [s, r, f, a, b]) 'j' v) 0 terms =
        m a v * m' v b := by
      intro v
      rw [chain_eq terms 0 _ (fun k => if k = 0 then a else if k = 1 then v else b) (by
        intro k _ hk
        have : k = 0 ∨ k = 1 ∨ k = 2 := by omega
        rcases this with rfl | rfl | rfl <;> rfl)]
      show chainM _ 0 (matrices s f terms) = _
      rw [hm]
      simp [chainM]
    rw [sum_range_succ, sum_range_one]
    have c0 := cell 0
    have c1 := cell 1
    simp only [Fin.val_zero, Fin.val_one] at c0 c1
    rw [c0, c1, hm]
    show scalars s r f terms * _ + scalars s r f terms * _ = _
    simp only [List.prod_cons, List.prod_nil, mul_one, Matrix.mul_apply, Fin.sum_univ_two]
    ring
  · rw [n] at mi mj mk mll hs
    have mj' := mj.2 (by omega)
    have mi' := mi.2 (by omega)
    have mk' := mk.2 (by omega)
    have ml' := mll.2 (by omega)
    refine ⟨_, by
      simp only [baselineJonesMultiply, hs]
      simp only [outputSchema, corrIndices, if_true, List.getElem?_cons_succ, List.getElem?_cons_zero, einsum]
      rw [if_neg (by
        rw [not_or, not_not, not_not]
        exact ⟨by decide, by simp [ms, mr, mf, mi', ml', -List.mem_flatten]⟩)], fun s r f a b => ?_⟩
    have hfil : (alphabet.filter fun c => c ∈ (labelsOf 4 0 terms).flatten ∧ c ∉ ['s', 'r', 'f', 'i', 'l']) =
        ['j', 'k'] := by
      simp [alphabet, List.filter, mj', mk', -List.mem_flatten]
    rw [hfil]
    simp only [sumOver, prod_four, h2 'j' (by simp), h2 'k' (by simp)]
    obtain ⟨m, m', m'', hm⟩ := List.length_eq_three.1 ((matrices_length s f terms).trans n)
    have cell : ∀ v w : Fin 2, chain (Function.update (Function.update
        (assign ['s', 'r', 'f', 'i', 'l'] [s, r, f, a, b]) 'j' v) 'k' w) 0 terms = m a v * (m' v w * m'' w b) := by
      intro v w
      rw [chain_eq terms 0 _ (fun k => if k = 0 then a else if k = 1 then v else if k = 2 then w else b) (by
        intro k _ hk
        have : k = 0 ∨ k = 1 ∨ k = 2 ∨ k = 3 := by omega
        rcases this with rfl | rfl | rfl | rfl <;> rfl)]
      show chainM _ 0 (matrices s f terms) = _
      rw [hm]
      simp [chainM]
    have c00 := cell 0 0
    have c01 := cell 0 1
    have c10 := cell 1 0
    have c11 := cell 1 1
    simp only [Fin.val_zero, Fin.val_one] at c00 c01 c10 c11
    simp only [sum_range_succ, sum_range_zero, zero_add]
    rw [c00, c01, c10, c11, hm]
    show scalars s r f terms * _ + scalars s r f terms * _ + (scalars s r f terms * _ + scalars s r f terms * _) = _
    simp only [List.prod_cons, List.prod_nil, mul_one, Matrix.mul_apply, Fin.sum_univ_two]
    ring

/-- **C156** One or two correlations: everything is multiplied correlation by correlation, any number of brightness terms
(at least one). -/
theorem C156_vectors {K : Type*} [CommSemiring K] (dim : Char → Nat) (corrs : Nat) (hc : corrs ≠ 4)
    (terms : List (Term K)) (hp : Proper corrs terms) (h1 : 1 ≤ nBright terms) (hr : HasRow terms) :
    ∃ out, baselineJonesMultiply dim corrs terms = .ok out ∧
      ∀ s r f c, out [s, r, f, c] = scalars s r f terms * vectors s f c terms := by
  have hs := schemas_few corrs hc terms 0 hp
  obtain ⟨ms, mf⟩ := (mem_srf corrs 0 terms).1 h1
  have mr := (mem_srf corrs 0 terms).2 hp hr
  have mi : 'i' ∈ (labelsOf corrs 0 terms).flatten := by
    clear hs hr mr ms mf hp
    induction terms with
    | nil => simp [nBright] at h1
    | cons x xs ih =>
      by_cases hx : x.name = "brightness"
      · simp [labelsOf, hx, hc]
      · rw [nBright_cons, if_neg hx, Nat.zero_add] at h1
        simp only [labelsOf, hx, if_false, List.flatten_cons, List.mem_append]
        exact Or.inr (ih h1)
  have letters : ∀ c ∈ (labelsOf corrs 0 terms).flatten, c ∈ ['s', 'r', 'f', 'i'] := by
    clear hs hr mr ms mf hp h1 mi
    induction terms with
    | nil => simp [labelsOf]
    | cons x xs ih =>
      intro c hcm
      by_cases hx : x.name = "brightness"
      · simp only [labelsOf, hx, hc, if_true, if_false, List.flatten_cons, List.mem_append] at hcm
        rcases hcm with h | h
        · fin_cases h <;> simp
        · exact ih c h
      · simp only [labelsOf, hx, if_false, List.flatten_cons, List.mem_append] at hcm
        rcases hcm with h | h
        · split_ifs at h <;> fin_cases h <;> simp
        · exact ih c h
  refine ⟨_, by
    simp only [baselineJonesMultiply, hs]
    simp only [outputSchema, hc, if_false, einsum]
    rw [if_neg (by
      rw [not_or, not_not, not_not]
      exact ⟨by decide, by simp [ms, mr, mf, mi, -List.mem_flatten]⟩)], fun s r f c => ?_⟩
  have hfil : (alphabet.filter fun c => c ∈ (labelsOf corrs 0 terms).flatten ∧ c ∉ ['s', 'r', 'f', 'i']) = [] := by
    rw [List.filter_eq_nil_iff]
    intro c _ h
    rw [decide_eq_true_eq] at h
    exact h.2 (letters c h.1)
  rw [hfil]
  simp only [sumOver, prod_few corrs hc]
  rfl

private theorem schemas_unknown {K : Type*} (corrs index : Nat) (terms : List (Term K)) (x : Term K) (hx : x ∈ terms)
    (h : ∀ n, properDim corrs x.name ≠ some n) : schemas corrs index terms = .error .valueError := by
  have hn : ∀ i, termSchema corrs i x.name = none := by
    intro i
    have h' := h
    unfold properDim at h'
    unfold termSchema
    split_ifs at h' ⊢ <;> simp_all
  induction terms generalizing index with
  | nil => simp at hx
  | cons y ys ih =>
    rcases List.mem_cons.1 hx with rfl | hx
    · simp only [schemas, hn]
    · simp only [schemas]
      split
      · rfl
      · split_ifs
        · rfl
        · rw [ih _ hx]

/-- **C156** An unknown term is refused, wherever it stands. -/
theorem C156_unknown {K : Type*} [CommSemiring K] (dim : Char → Nat) (corrs : Nat) (terms : List (Term K))
    (x : Term K) (hx : x ∈ terms) (h : ∀ n, properDim corrs x.name ≠ some n) :
    baselineJonesMultiply dim corrs terms = .error .valueError := by
  simp only [baselineJonesMultiply, schemas_unknown corrs 0 terms x hx h]

private theorem schemas_mono {K : Type*} (corrs index : Nat) (terms : List (Term K)) (ins : List (List Char)) (last : Nat)
    (h : schemas corrs index terms = .ok (ins, last)) : index ≤ last := by
  induction terms generalizing index ins with
  | nil => simp only [schemas, Except.ok.injEq, Prod.mk.injEq] at h; omega
  | cons y ys ih =>
    simp only [schemas] at h
    split at h
    · cases h
    · rename_i labels next hl
      split_ifs at h
      split at h
      · cases h
      · rename_i rest last' hr
        cases h
        have h1 := ih _ _ hr
        have h2 : index ≤ next := by
          unfold termSchema at hl
          split_ifs at hl <;> cases hl <;> omega
        omega

private theorem schemas_axes {K : Type*} (corrs index : Nat) (terms : List (Term K)) (x : Term K) (hx : x ∈ terms)
    (hp : properDim corrs x.name ≠ some x.ndim) (ins : List (List Char)) (last : Nat)
    (h : schemas corrs index terms = .ok (ins, last)) : corrs = 4 ∧ 4 ≤ last := by
  induction terms generalizing index ins with
  | nil => simp at hx
  | cons y ys ih =>
    simp only [schemas] at h
    split at h
    · cases h
    · rename_i labels next hl
      split_ifs at h with hn
      split at h
      · cases h
      · rename_i rest last' hr
        cases h
        rcases List.mem_cons.1 hx with rfl | hx
        · have hm := schemas_mono _ _ _ _ _ hr
          unfold termSchema at hl
          unfold properDim at hp
          split_ifs at hl hp <;> cases hl <;> simp at hn hp <;> first | omega | (exfalso; simp_all; done) | skip
          rename_i hc
          refine ⟨hc, ?_⟩
          rw [show corrIndices.length = 4 from rfl] at hn
          omega
        · exact ih _ hx _ hr

/-- **C156** A term with the wrong number of axes is refused, wherever it stands. -/
theorem C156_axes {K : Type*} [CommSemiring K] (dim : Char → Nat) (corrs : Nat) (terms : List (Term K)) (x : Term K)
    (hx : x ∈ terms) (h : properDim corrs x.name ≠ some x.ndim) :
    ∃ e, baselineJonesMultiply dim corrs terms = .error e := by
  unfold baselineJonesMultiply
  split
  · exact ⟨_, rfl⟩
  · rename_i ins last hs
    obtain ⟨rfl, hl⟩ := schemas_axes corrs 0 terms x hx h ins last hs
    have : outputSchema 4 last = .error .indexError := by
      unfold outputSchema
      rw [if_pos rfl, List.getElem?_eq_none (by simpa [corrIndices] using hl)]
    rw [this]
    exact ⟨_, rfl⟩

example (f : List Nat → ℤ) : properDim 4 (⟨"phase_delay", 2, f⟩ : Term ℤ).name ≠ some (⟨"phase_delay", 2, f⟩ : Term ℤ).ndim := by
  simp [properDim]

/-- **C156** Four correlations and more than three brightness terms, or none, or no term that depends on the row, are
refused too: the conditions of `C156_matrices` are the exact ones. -/
theorem C156_refused {K : Type*} [CommSemiring K] (dim : Char → Nat) (terms : List (Term K)) (hp : Proper 4 terms)
    (h : nBright terms = 0 ∨ 4 ≤ nBright terms ∨ ¬ HasRow terms) :
    baselineJonesMultiply dim 4 terms = .error .valueError := by
  by_cases hn : nBright terms ≤ 3
  · have hs := schemas_four terms 0 hp (by omega)
    rw [Nat.zero_add] at hs
    simp only [baselineJonesMultiply, hs]
    rcases h with h | h | h
    · rw [h]
      simp only [outputSchema, corrIndices, if_true, List.getElem?_cons_zero, einsum]
      exact if_pos (Or.inl (by decide))
    · omega
    · have hr : 'r' ∉ (labelsOf 4 0 terms).flatten := by
        clear hs hn
        generalize 0 = index
        have lr : ∀ k, letter k ≠ 'r' := by
          intro k
          by_cases hk : k < 4
          · have : ∀ k < 4, letter k ≠ 'r' := by decide
            exact this k hk
          · have : letter k = 'z' := by
              unfold letter
              rw [List.getD_eq_getElem?_getD, List.getElem?_eq_none (by simp [corrIndices]; omega)]
              rfl
            rw [this]; decide
        induction terms generalizing index with
        | nil => simp [labelsOf]
        | cons x xs ih =>
          have ih' := fun i => ih (fun z hz => hp z (by simp [hz])) (fun ⟨y, hy, e⟩ => h ⟨y, by simp [hy], e⟩) i
          have hx : ¬ (x.name = "phase_delay" ∨ x.name = "gauss_shape") := fun e => h ⟨x, by simp, e⟩
          rcases kinds (hp x (by simp)) with ⟨e, -⟩ | ⟨e, -⟩ | ⟨e, -⟩ | ⟨e, -⟩
          · simp only [labelsOf, e, if_true, List.flatten_cons, List.mem_append, not_or]
            refine ⟨?_, ih' _⟩
            have h1 := lr index
            have h2 := lr (index + 1)
            simp [h1.symm, h2.symm]
          · exact absurd (Or.inl e) hx
          · exact absurd (Or.inr e) hx
          · have ne : ¬ x.name = "brightness" := by rw [e]; decide
            have nl : labelsOf 4 index (x :: xs) = ['s'] :: labelsOf 4 index xs := by
              simp only [labelsOf, if_neg ne]
              simp [e]
            rw [nl, List.flatten_cons, List.mem_append, not_or]
            exact ⟨by decide, ih' index⟩
      have : ∃ c, corrIndices[nBright terms]? = some c := by
        exact ⟨_, List.getElem?_eq_getElem (show nBright terms < corrIndices.length from by simp [corrIndices]; omega)⟩
      obtain ⟨c, hc⟩ := this
      simp only [outputSchema, if_true, hc, einsum]
      exact if_pos (Or.inr fun hall => hr (hall 'r' (by simp)))
  · have key : ∀ index, index ≤ 3 → 4 ≤ index + nBright terms → schemas 4 index terms = .error .valueError := by
      clear h hn
      induction terms with
      | nil => intro i h1 h2; simp [nBright] at h2; omega
      | cons x xs ih =>
        intro index h1 h2
        have ih' := ih (fun z hz => hp z (by simp [hz]))
        rw [nBright_cons] at h2
        rcases kinds (hp x (by simp)) with ⟨e, hd⟩ | ⟨e, hd⟩ | ⟨e, hd⟩ | ⟨e, hd⟩
        · rw [if_pos e] at h2
          by_cases h3 : index = 3
          · subst h3
            simp [schemas, termSchema, e, hd, corrIndices]
          · simp only [schemas, termSchema, e, if_true, hd]
            rw [drop_take index (by omega), if_neg (by simp), ih' (index + 1) (by omega) (by omega)]
        all_goals
          rw [if_neg (by rw [e]; decide), Nat.zero_add] at h2
          simp [schemas, termSchema, e, hd, ih' index h1 h2]
    simp only [baselineJonesMultiply, key 0 (by omega) (by omega)]

/-- The terms of a Gaussian source, as `vis_factory` arranges them, meet the hypotheses. -/
example : Proper (K := ℤ) 4 [⟨"phase_delay", 3, fun _ => 2⟩, ⟨"gauss_shape", 3, fun _ => 5⟩,
      ⟨"brightness", 4, fun l => l.getD 2 0 + 3 * l.getD 3 0⟩] ∧
    HasRow (K := ℤ) [⟨"phase_delay", 3, fun _ => 2⟩, ⟨"gauss_shape", 3, fun _ => 5⟩,
      ⟨"brightness", 4, fun l => l.getD 2 0 + 3 * l.getD 3 0⟩] ∧
    nBright (K := ℤ) [⟨"phase_delay", 3, fun _ => 2⟩, ⟨"gauss_shape", 3, fun _ => 5⟩,
      ⟨"brightness", 4, fun l => l.getD 2 0 + 3 * l.getD 3 0⟩] = 1 := by
  refine ⟨?_, ⟨_, List.mem_cons_self, Or.inl rfl⟩, rfl⟩
  intro x hx
  simp only [List.mem_cons, List.not_mem_nil, or_false] at hx
  rcases hx with rfl | rfl | rfl <;> rfl

/-! ### C157: sky models -/

/-- Specification: one source of the sky model, parsed: the reference frequency of its spectrum or else that of the sky
model, its spectral index for all four Stokes parameters or else zero. -/
def parsed {K : Type*} [Zero K] (freq0 : K) (gaussian : Bool) (x : TiggerSource K) : Parsed K where
  radec := (x.ra, x.dec)
  stokes := x.stokes
  spi := let a := (x.spectrum.bind Prod.snd).getD 0; (a, a, a, a)
  refFreq := (x.spectrum.bind Prod.fst).getD freq0
  shape := if gaussian then some x.shape else none

private theorem skyStep_eq {K : Type*} [Zero K] (lower : String → String) (freq0 : K) (acc : SkyLists K)
    (x : TiggerSource K) :
    skyStep lower freq0 acc x =
      if lower x.typecode = "gau" then .ok { acc with gauss := acc.gauss ++ [parsed freq0 true x] }
      else if lower x.typecode = "pnt" then .ok { acc with point := acc.point ++ [parsed freq0 false x] }
      else .error .valueError := by
  unfold skyStep parsed
  rcases x.spectrum with _ | ⟨_ | f, _ | a⟩ <;> rfl

private theorem skyLoop_ok {K : Type*} [Zero K] (lower : String → String) (freq0 : K) (sources : List (TiggerSource K))
    (acc : SkyLists K) (h : ∀ x ∈ sources, lower x.typecode = "gau" ∨ lower x.typecode = "pnt") :
    skyLoop lower freq0 sources acc = .ok
      ⟨acc.point ++ (sources.filter fun x => lower x.typecode = "pnt").map (parsed freq0 false),
        acc.gauss ++ (sources.filter fun x => lower x.typecode = "gau").map (parsed freq0 true)⟩ := by
  induction sources generalizing acc with
  | nil => simp [skyLoop]
  | cons x xs ih =>
    have ih' := fun acc => ih acc fun y hy => h y (by simp [hy])
    simp only [skyLoop, skyStep_eq]
    by_cases hg : lower x.typecode = "gau"
    · have hp : ¬ lower x.typecode = "pnt" := by rw [hg]; decide
      rw [if_pos hg]
      simp [ih', hg]
    · have hp : lower x.typecode = "pnt" := (h x (by simp)).resolve_left hg
      rw [if_neg hg, if_pos hp]
      simp [ih', hp]

private theorem skyLoop_error {K : Type*} [Zero K] (lower : String → String) (freq0 : K) (sources : List (TiggerSource K))
    (acc : SkyLists K) (h : ∃ x ∈ sources, lower x.typecode ≠ "gau" ∧ lower x.typecode ≠ "pnt") :
    skyLoop lower freq0 sources acc = .error .valueError := by
  induction sources generalizing acc with
  | nil => obtain ⟨x, hx, _⟩ := h; simp at hx
  | cons x xs ih =>
    simp only [skyLoop, skyStep_eq]
    obtain ⟨y, hy, h1, h2⟩ := h
    rcases List.mem_cons.1 hy with rfl | hy
    · rw [if_neg h1, if_neg h2]
    · split_ifs
      · exact ih _ ⟨y, hy, h1, h2⟩
      · exact ih _ ⟨y, hy, h1, h2⟩
      · rfl

/-- **C157** A sky model of points and Gaussians is parsed into the points and the Gaussians, each in the order of the
file and with its own data; a kind without sources has no entry. -/
theorem C157_parsed {K : Type*} [Zero K] (lower : String → String) (freq0 : K) (sources : List (TiggerSource K))
    (h : ∀ x ∈ sources, lower x.typecode = "gau" ∨ lower x.typecode = "pnt") :
    ∃ d, parseSkyModel lower freq0 sources = .ok d ∧
      (∀ l, ("point", l) ∈ d ↔
        l = (sources.filter fun x => lower x.typecode = "pnt").map (parsed freq0 false) ∧ l ≠ []) ∧
      (∀ l, ("gauss", l) ∈ d ↔
        l = (sources.filter fun x => lower x.typecode = "gau").map (parsed freq0 true) ∧ l ≠ []) ∧
      ((d.map fun e => e.2.length).sum = sources.length) := by
  refine ⟨_, by simp only [parseSkyModel, skyLoop_ok lower freq0 sources ⟨[], []⟩ h, List.nil_append]; rfl, ?_, ?_, ?_⟩
  · intro l
    generalize (sources.filter fun x => lower x.typecode = "pnt").map (parsed freq0 false) = P
    generalize (sources.filter fun x => lower x.typecode = "gau").map (parsed freq0 true) = G
    cases P <;> cases G <;> simp <;> intro h <;> simp [h]
  · intro l
    generalize (sources.filter fun x => lower x.typecode = "pnt").map (parsed freq0 false) = P
    generalize (sources.filter fun x => lower x.typecode = "gau").map (parsed freq0 true) = G
    cases P <;> cases G <;> simp <;> intro h <;> simp [h]
  · have split : ∀ (P G : List (Parsed K)), (((if P.length > 0 then [("point", P)] else []) ++
        (if G.length > 0 then [("gauss", G)] else [])).map fun e => e.2.length).sum = P.length + G.length := by
      intro P G
      cases P <;> cases G <;> simp
    rw [split, List.length_map, List.length_map]
    clear split
    induction sources with
    | nil => rfl
    | cons x xs ih =>
      have ih' := ih fun y hy => h y (by simp [hy])
      by_cases hg : lower x.typecode = "gau"
      · simp [hg]; omega
      · have hp : lower x.typecode = "pnt" := (h x (by simp)).resolve_left hg
        simp [hp]; omega

/-- **C157** A source of any other kind is refused, wherever it stands. -/
theorem C157_unknown {K : Type*} [Zero K] (lower : String → String) (freq0 : K) (sources : List (TiggerSource K))
    (h : ∃ x ∈ sources, lower x.typecode ≠ "gau" ∧ lower x.typecode ≠ "pnt") :
    parseSkyModel lower freq0 sources = .error .valueError := by
  simp only [parseSkyModel, skyLoop_error lower freq0 sources ⟨[], []⟩ h]

/-- A point with a spectrum, a Gaussian without one and a point whose spectrum has no frequency. -/
example : parseSkyModel (K := ℤ) (fun s => if s = "Gau" then "gau" else s) 7
    [⟨1, 2, "pnt", (1, 0, 0, 0), some (some 3, some 4), (0, 0, 0)⟩, ⟨5, 6, "Gau", (2, 0, 0, 0), none, (8, 9, 10)⟩,
      ⟨11, 12, "pnt", (3, 0, 0, 0), some (none, some 13), (0, 0, 0)⟩] =
    .ok [("point", [⟨(1, 2), (1, 0, 0, 0), (4, 4, 4, 4), 3, none⟩, ⟨(11, 12), (3, 0, 0, 0), (13, 13, 13, 13), 7, none⟩]),
      ("gauss", [⟨(5, 6), (2, 0, 0, 0), (0, 0, 0, 0), 7, some (8, 9, 10)⟩])] := rfl

/-! ### C158: tables -/

/-- **C158** Data of the first data description are joined with the field, the spectral window and the polarisation that
it names. -/
theorem C158_partial (nddid nfield nspw npol : Nat) (spwId polId : Nat → Nat) (fieldId ddid : Nat)
    (hf : fieldId < nfield) (hd : ddid < nddid) (hs : ∀ d < nddid, spwId d < nspw) (hp : ∀ d < nddid, polId d < npol)
    (first : ddid = 0) :
    joins nddid nfield nspw npol spwId polId fieldId ddid = .ok (fieldId, spwId ddid, polId ddid) := by
  subst first
  simp only [joins]
  rw [if_neg (not_not.2 hf), if_neg (by omega), if_neg (by omega), if_neg (not_not.2 (hs 0 hd)),
    if_neg (not_not.2 (hp 0 hd))]

/-- **C158** fails for every other data description: the program stops. -/
theorem C158_violated (nddid nfield nspw npol : Nat) (spwId polId : Nat → Nat) (fieldId ddid : Nat) (hf : fieldId < nfield)
    (other : ddid ≠ 0) : joins nddid nfield nspw npol spwId polId fieldId ddid = .error .indexError := by
  simp only [joins]
  rw [if_neg (not_not.2 hf), if_pos (by omega)]

/-- **C158** The correlations of the result are those of the measurement set, in its order, for one, two or four of them;
any other number is refused. -/
theorem C158_correlations (corrs : Nat) (types : Nat → Int) :
    (corrs = 1 ∨ corrs = 2 ∨ corrs = 4 → ∃ l, corrSchema corrs types = .ok l ∧ l.flatten = (List.range corrs).map types) ∧
      (¬ (corrs = 1 ∨ corrs = 2 ∨ corrs = 4) → corrSchema corrs types = .error .valueError) := by
  refine ⟨?_, fun h => ?_⟩
  · rintro (rfl | rfl | rfl) <;> exact ⟨_, rfl, rfl⟩
  · simp only [not_or] at h
    simp [corrSchema, h]

/-- Specification: the kind of feeds that measure a correlation of a CASA type. -/
def FeedOf (feed : String) (type : Int) : Prop :=
  ∃ name, (feed = "linear" ∧ name ∈ ["XX", "XY", "YX", "YY"] ∨ feed = "circular" ∧ name ∈ ["RR", "RL", "LR", "LL"]) ∧
    ∃ i : Nat, Util.stokesTypeMap.lookup name = some i ∧ type = i

/-- **C158** Beams are only applied to four correlations of the same kind of feeds, and as beams of those feeds; all else is
refused. Without beams any correlations do. -/
theorem C158_feeds (corrType : List Int) (feed : String) :
    ddeFeed false corrType = .ok none ∧
    (ddeFeed true corrType = .ok (some feed) ↔ corrType.length = 4 ∧ ∀ t ∈ corrType, FeedOf feed t) ∧
    ((¬ ∃ g, corrType.length = 4 ∧ ∀ t ∈ corrType, FeedOf g t) → ddeFeed true corrType = .error .valueError) := by
  have hl : ∀ t : Int, FeedOf "linear" t ↔ t ∈ ([9, 10, 11, 12] : List Int) := by
    intro t
    simp only [FeedOf, true_and, String.reduceEq, false_and, or_false, List.mem_cons, List.not_mem_nil]
    constructor
    · rintro ⟨name, (rfl | rfl | rfl | rfl), i, h, rfl⟩ <;> (cases h; simp)
    · rintro (rfl | rfl | rfl | rfl)
      · exact ⟨"XX", by simp, 9, rfl, rfl⟩
      · exact ⟨"XY", by simp, 10, rfl, rfl⟩
      · exact ⟨"YX", by simp, 11, rfl, rfl⟩
      · exact ⟨"YY", by simp, 12, rfl, rfl⟩
  have hc : ∀ t : Int, FeedOf "circular" t ↔ t ∈ ([5, 6, 7, 8] : List Int) := by
    intro t
    simp only [FeedOf, true_and, String.reduceEq, false_and, false_or, List.mem_cons, List.not_mem_nil, or_false]
    constructor
    · rintro ⟨name, (rfl | rfl | rfl | rfl), i, h, rfl⟩ <;> (cases h; simp)
    · rintro (rfl | rfl | rfl | rfl)
      · exact ⟨"RR", by simp, 5, rfl, rfl⟩
      · exact ⟨"RL", by simp, 6, rfl, rfl⟩
      · exact ⟨"LR", by simp, 7, rfl, rfl⟩
      · exact ⟨"LL", by simp, 8, rfl, rfl⟩
  have ho : ∀ g, g ≠ "linear" → g ≠ "circular" → ∀ t, ¬ FeedOf g t := by
    rintro g h1 h2 t ⟨name, (⟨h, _⟩ | ⟨h, _⟩), _⟩
    · exact h1 h
    · exact h2 h
  have al : corrType.all (· ∈ ([9, 10, 11, 12] : List Int)) = true ↔ ∀ t ∈ corrType, FeedOf "linear" t := by
    simp only [List.all_eq_true, decide_eq_true_eq, hl]
  have ac : corrType.all (· ∈ ([5, 6, 7, 8] : List Int)) = true ↔ ∀ t ∈ corrType, FeedOf "circular" t := by
    simp only [List.all_eq_true, decide_eq_true_eq, hc]
  have hboth : corrType.length = 4 → (∀ t ∈ corrType, FeedOf "linear" t) → ¬ ∀ t ∈ corrType, FeedOf "circular" t := by
    intro h4 h1 h2
    obtain ⟨t, ht⟩ := List.exists_mem_of_length_pos (l := corrType) (by omega)
    have h1 := (hl t).1 (h1 t ht)
    have h2 := (hc t).1 (h2 t ht)
    simp only [List.mem_cons, List.not_mem_nil, or_false] at h1 h2
    omega
  refine ⟨rfl, ?_, ?_⟩
  · unfold ddeFeed
    rw [if_neg (by simp)]
    by_cases h4 : corrType.length = 4
    · rw [if_neg (not_not.2 h4)]
      obtain ⟨t, ht⟩ := List.exists_mem_of_length_pos (l := corrType) (by omega)
      by_cases h1 : ∀ t ∈ corrType, FeedOf "linear" t
      · rw [if_pos (al.2 h1)]
        constructor
        · intro h; cases h; exact ⟨h4, h1⟩
        · rintro ⟨-, h⟩
          by_cases e1 : feed = "linear"
          · rw [e1]
          · by_cases e2 : feed = "circular"
            · exact absurd (e2 ▸ h) (hboth h4 h1)
            · exact absurd (h t ht) (ho feed e1 e2 t)
      · rw [if_neg (fun h => h1 (al.1 h))]
        by_cases h2 : ∀ t ∈ corrType, FeedOf "circular" t
        · rw [if_pos (ac.2 h2)]
          constructor
          · intro h; cases h; exact ⟨h4, h2⟩
          · rintro ⟨-, h⟩
            by_cases e1 : feed = "linear"
            · exact absurd (e1 ▸ h) h1
            · by_cases e2 : feed = "circular"
              · rw [e2]
              · exact absurd (h t ht) (ho feed e1 e2 t)
        · rw [if_neg (fun h => h2 (ac.1 h))]
          constructor
          · intro h; cases h
          · rintro ⟨-, h⟩
            by_cases e1 : feed = "linear"
            · exact absurd (e1 ▸ h) h1
            · by_cases e2 : feed = "circular"
              · exact absurd (e2 ▸ h) h2
              · exact absurd (h t ht) (ho feed e1 e2 t)
    · rw [if_pos h4]
      constructor
      · intro h; cases h
      · exact fun h => absurd h.1 h4
  · intro h
    unfold ddeFeed
    rw [if_neg (by simp)]
    by_cases h4 : corrType.length = 4
    · rw [if_neg (not_not.2 h4), if_neg fun h1 => h ⟨_, h4, al.1 h1⟩, if_neg fun h1 => h ⟨_, h4, ac.1 h1⟩]
    · rw [if_pos h4]

example : ddeFeed true [9, 10, 11, 12] = .ok (some "linear") ∧ ddeFeed true [5, 6, 7, 9] = .error .valueError := ⟨rfl, rfl⟩

/-- A measurement set with two spectral windows: data of the second one. -/
example : joins 2 1 2 1 id (fun _ => 0) 0 1 = .error .indexError := C158_violated 2 1 2 1 id (fun _ => 0) 0 1 (by omega) (by omega)

end Verif.Examples
