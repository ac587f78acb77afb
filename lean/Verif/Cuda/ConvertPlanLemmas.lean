/-
Lemmas about schemas whose elements are all at the same depth, and about what is generated for them.
-/
import Verif.Cuda.ConvertRun

set_option autoImplicit false

namespace Verif.Cuda

open Verif.ModelData

theorem size_append (a b : List Nat) : size (a ++ b) = size a * size b := by
  induction a with
  | nil => simp [size]
  | cons n a ih => simp only [List.cons_append, size, ih]; ring

theorem ravel_append {sh i : List Nat} (h : IsIdx sh i) (sh' j : List Nat) :
    ravel (sh ++ sh') (i ++ j) = ravel sh i * size sh' + ravel sh' j := by
  have hj : List.Forall₂ (· < ·) i sh := h
  clear h
  induction hj with
  | nil => simp [ravel]
  | cons _ _ ih => simp only [List.cons_append, ravel, ih, size_append]; ring

theorem isIdx_append {sh i sh' j : List Nat} (h : IsIdx sh i) (h' : IsIdx sh' j) : IsIdx (sh ++ sh') (i ++ j) := by
  have hj : List.Forall₂ (· < ·) i sh := h
  clear h
  induction hj with
  | nil => exact h'
  | cons h _ ih => exact List.Forall₂.cons h ih

theorem isIdx_unravel {sh : List Nat} {k : Nat} (h : k < size sh) : IsIdx sh (unravel sh k) := by
  induction sh generalizing k with
  | nil => exact List.Forall₂.nil
  | cons n ns ih =>
    simp only [size] at h
    have hp : 0 < size ns := Nat.pos_of_ne_zero fun h0 => by rw [h0] at h; omega
    exact List.Forall₂.cons ((Nat.div_lt_iff_lt_mul hp).2 h) (ih (Nat.mod_lt _ hp))

theorem ravel_unravel {sh : List Nat} {k : Nat} (h : k < size sh) : ravel sh (unravel sh k) = k := by
  induction sh generalizing k with
  | nil => simp only [size] at h; simp only [ravel]; omega
  | cons n ns ih =>
    simp only [size] at h
    have hp : 0 < size ns := Nat.pos_of_ne_zero fun h0 => by rw [h0] at h; omega
    simp only [unravel, ravel]
    rw [ih (Nat.mod_lt _ hp), Nat.mul_comm, Nat.div_add_mod]

theorem ravel_inj {sh i j : List Nat} (hi : IsIdx sh i) (hj : IsIdx sh j) (h : ravel sh i = ravel sh j) : i = j := by
  rw [← unravel_ravel hi, h, unravel_ravel hj]

/-! ### schemas -/

section
variable {l : List Schema} {res : List (String × List Nat)} {shape : List Nat}

/-- An index of an element, all elements being at the same depth. -/
theorem isIdx_of_mem (h : elementIndices (.list l) = .ok (res, shape)) {s : String} {p : List Nat} (hp : (s, p) ∈ res)
    (hlen : p.length = shape.length) : IsIdx shape p := by
  have h3 := (C46_in_bounds l res shape h).2.2 s p hp
  refine List.forall₂_iff_get.2 ⟨hlen, fun k h1 h2 => ?_⟩
  obtain ⟨n, hn, hlt⟩ := h3.2 k p[k] (List.getElem?_eq_getElem h1)
  rw [List.getElem?_eq_getElem h2, Option.some.injEq] at hn
  simpa [hn] using hlt

theorem shape_pos (h : elementIndices (.list l) = .ok (res, shape)) : 0 < shape.length := by
  have := (C46_in_bounds l res shape h).1 [] l rfl
  exact (List.getElem?_eq_some_iff.1 this).1

/-- Every index within the shape is that of an element. -/
theorem mem_of_isIdx (h : elementIndices (.list l) = .ok (res, shape)) (hd : SameDepth l shape) {p : List Nat}
    (hp : IsIdx shape p) : ∃ s, (s, p) ∈ res := by
  have hb := (C46_in_bounds l res shape h).1
  have hg := (C46_accept_iff l).1 ⟨_, h⟩
  have hi := (C46_indices l res shape h).1
  have hlen : p.length = shape.length := List.Forall₂.length_eq hp
  have hpos := shape_pos h
  have key : ∀ k, k < shape.length → (∃ s, (s, p) ∈ res) ∨ ∃ c, listAt l (p.take k) = some c := by
    intro k
    induction k with
    | zero => intro _; exact Or.inr ⟨l, rfl⟩
    | succ k ih =>
      intro hk
      rcases ih (by omega) with h' | ⟨c, hc⟩
      · exact Or.inl h'
      · right
        have hkl : k < p.length := by omega
        have hc' := hb _ _ hc
        rw [List.length_take, Nat.min_eq_left (by omega), List.getElem?_eq_getElem (by omega), Option.some.injEq] at hc'
        have hlt : p[k] < c.length := by
          rw [← hc']
          exact (List.forall₂_iff_get.1 hp).2 k hkl (by omega)
        have htake : p.take (k + 1) = p.take k ++ [p[k]] := by
          rw [List.take_add_one, List.getElem?_eq_getElem hkl]; rfl
        cases he : c[p[k]] with
        | list l' =>
          refine ⟨l', ?_⟩
          rw [htake]
          exact listAt_snoc_of hc (by rw [List.getElem?_eq_getElem hlt, he])
        | _ =>
          exfalso
          have hleaf : LeafAt l (p.take k ++ [p[k]]) c[p[k]] := by
            refine ⟨fun l' => by rw [he]; simp, _, _, c, rfl, hc, List.getElem?_eq_getElem hlt⟩
          obtain ⟨s, hs⟩ := hg.2.1 _ _ hleaf
          have := hd s _ ⟨_, hleaf, hs⟩
          rw [List.length_append, List.length_take] at this
          simp only [List.length_singleton] at this
          omega
  rcases key (shape.length - 1) (by omega) with h' | ⟨c, hc⟩
  · exact h'
  · have hkl : shape.length - 1 < p.length := by omega
    have hc' := hb _ _ hc
    rw [List.length_take, Nat.min_eq_left (by omega), List.getElem?_eq_getElem (by omega), Option.some.injEq] at hc'
    have hlt : p[shape.length - 1] < c.length := by
      rw [← hc']
      exact (List.forall₂_iff_get.1 hp).2 _ hkl (by omega)
    have htake : p = p.take (shape.length - 1) ++ [p[shape.length - 1]] := by
      conv_lhs => rw [← List.take_length (l := p), hlen, show shape.length = shape.length - 1 + 1 by omega]
      rw [List.take_add_one, List.getElem?_eq_getElem hkl]; rfl
    have hleaf : LeafAt l p c[p[shape.length - 1]] := by
      refine ⟨fun l' he => ?_, _, _, c, htake, hc, List.getElem?_eq_getElem hlt⟩
      have hl : listAt l p = some l' := by
        rw [htake]
        exact listAt_snoc_of hc (by rw [List.getElem?_eq_getElem hlt, he])
      have := hb _ _ hl
      rw [hlen, List.getElem?_eq_none (by omega)] at this
      cases this
    obtain ⟨s, hs⟩ := hg.2.1 _ _ hleaf
    exact ⟨s, (hi s p).2 ⟨_, hleaf, hs⟩⟩

/-- There are as many elements as names, and so no more than there are names. -/
theorem size_le (h : elementIndices (.list l) = .ok (res, shape)) (hd : SameDepth l shape) (names : List String)
    (hn : ∀ s p, Has l s p → s ∈ names) : size shape ≤ names.length := by
  have hi := C46_indices l res shape h
  have h1 : size shape ≤ res.length := by
    have hsub : (List.range (size shape)).map (unravel shape) ⊆ res.map Prod.snd := by
      intro p hp
      obtain ⟨k, hk, rfl⟩ := List.mem_map.1 hp
      obtain ⟨s, hs⟩ := mem_of_isIdx h hd (isIdx_unravel (List.mem_range.1 hk))
      exact List.mem_map.2 ⟨_, hs, rfl⟩
    have hnd : ((List.range (size shape)).map (unravel shape)).Nodup := by
      refine (List.nodup_range).map_on fun a ha b hb hab => ?_
      rw [← ravel_unravel (List.mem_range.1 ha), hab, ravel_unravel (List.mem_range.1 hb)]
    have := (hnd.subperm hsub).length_le
    simpa using this
  have h2 : res.length ≤ names.length := by
    have hsub : res.map Prod.fst ⊆ names := by
      intro s hs
      obtain ⟨⟨s', p⟩, hp, rfl⟩ := List.mem_map.1 hs
      exact hn s' p ((hi.1 s' p).1 hp)
    have := (hi.2.1.subperm hsub).length_le
    simpa using this
  omega

end

end Verif.Cuda
