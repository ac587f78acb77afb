/-
Arrays with any number of axes.
-/
import Verif.Dask.Rime
import Verif.Dask.Lemmas

set_option autoImplicit false

namespace Verif.Dask

variable {α : Type*}

theorem numberedLabels_length (name : String) (n : Nat) : (numberedLabels name n).length = n := by simp [numberedLabels]

theorem numberedLabels_nodup (name : String) (n : Nat) : (numberedLabels name n).Nodup := by
  unfold numberedLabels
  exact List.Nodup.map (fun a b h => by simpa using h) List.nodup_range

theorem mem_numberedLabels {name : String} {n : Nat} {l : Label} :
    l ∈ numberedLabels name n ↔ ∃ i < n, l = .numbered name i := by
  simp [numberedLabels, eq_comm]

theorem forall₂_numbered (name : String) (P : Label → List Nat → Prop) (cs : List (List Nat))
    (h : ∀ i (hi : i < cs.length), P (.numbered name i) cs[i]) : List.Forall₂ P (numberedLabels name cs.length) cs := by
  refine List.forall₂_iff_get.2 ⟨by simp [numberedLabels], fun i h1 h2 => ?_⟩
  simpa [numberedLabels] using h i h2

/-- Every label of the output selects its own block index. -/
theorem blk_zip : ∀ (ls : List Label) (b : List Nat), ls.Nodup → b.length = ls.length →
    ls.map (blk (ls.zip b)) = b := by
  intro ls
  induction ls with
  | nil => intro b _ h; simp at h; simp [h]
  | cons l ls ih =>
    intro b hn hb
    cases b with
    | nil => simp at hb
    | cons j b =>
      simp only [List.nodup_cons] at hn
      simp only [List.length_cons, add_left_inj] at hb
      simp only [List.zip_cons_cons, List.map_cons, List.cons.injEq]
      refine ⟨by simp [blk, pick], ?_⟩
      rw [← ih b hn.2 hb]
      apply List.map_congr_left
      intro k hk
      have : ¬ l = k := fun e => hn.1 (e ▸ hk)
      simp [blk, pick, this, ih b hn.2 hb]

theorem isBlock_append {cs ds : List (List Nat)} {b : List Nat} :
    IsBlock (cs ++ ds) b ↔ ∃ b1 b2, b = b1 ++ b2 ∧ IsBlock cs b1 ∧ IsBlock ds b2 := by
  induction cs generalizing b with
  | nil => simp [isBlock_nil]
  | cons c cs ih =>
    simp only [List.cons_append, isBlock_cons, ih]
    constructor
    · rintro ⟨j, b', rfl, hj, b1, b2, rfl, h1, h2⟩
      exact ⟨j :: b1, b2, rfl, ⟨j, b1, rfl, hj, h1⟩, h2⟩
    · rintro ⟨_, b2, rfl, ⟨j, b1, rfl, hj, h1⟩, h2⟩
      exact ⟨j, b1 ++ b2, rfl, hj, b1, b2, rfl, h1, h2⟩

theorem isIndex_append {cs ds : List Nat} {b : List Nat} :
    IsIndex (cs ++ ds) b ↔ ∃ b1 b2, b = b1 ++ b2 ∧ IsIndex cs b1 ∧ IsIndex ds b2 := by
  induction cs generalizing b with
  | nil => simp [isIndex_nil]
  | cons c cs ih =>
    simp only [List.cons_append, isIndex_cons, ih]
    constructor
    · rintro ⟨j, b', rfl, hj, b1, b2, rfl, h1, h2⟩
      exact ⟨j :: b1, b2, rfl, ⟨j, b1, rfl, hj, h1⟩, h2⟩
    · rintro ⟨_, b2, rfl, ⟨j, b1, rfl, hj, h1⟩, h2⟩
      exact ⟨j, b1 ++ b2, rfl, hj, b1, b2, rfl, h1, h2⟩

theorem IsBlock.length {cs : List (List Nat)} {b : List Nat} (h : IsBlock cs b) : b.length = cs.length := h.length_eq

theorem IsIndex.length {s : List Nat} {i : List Nat} (h : IsIndex s i) : i.length = s.length := h.length_eq

theorem part_eq {env : Label → List Nat} {out : List (Label × Nat)} {labels : List Label} {d : DArr α} :
    part env out labels d = ⟨List.zipWith blockSize (labels.map env) (labels.map (blk out)),
      fun i => d.val (List.zipWith (· + ·) (List.zipWith blockOff (labels.map env) (labels.map (blk out))) i)⟩ := by
  simp [part, List.zipWith_map_left, List.zipWith_map_right, List.zipWith_self]

/-- The unified chunks of numbered axes have the extents of the array's. -/
theorem numbered_sums {name : String} {env : Label → List Nat} {cs : List (List Nat)}
    (h : ∀ i < cs.length, (env (.numbered name i)).sum = (cs.getD i []).sum) :
    ((numberedLabels name cs.length).map env).map List.sum = cs.map List.sum := by
  apply List.ext_getElem (by simp [numberedLabels])
  intro i h1 h2
  have hi : i < cs.length := by simpa using h2
  simp only [List.getElem_map, numberedLabels, List.getElem_range]
  rw [h i hi]
  simp [List.getD_eq_getElem?_getD, hi]

/-- Is the label a plain name? -/
def Label.isName : Label → Bool
  | .name _ => true
  | .numbered _ _ => false

/-- Extents of named labels from a table, of numbered ones from chunks. -/
def extentsN (t : List (Label × Nat)) (cs : List (List Nat)) : Label → Nat
  | .numbered _ i => (cs.getD i []).sum
  | .name s => extents t (.name s)

theorem extentsN_name {t : List (Label × Nat)} {cs : List (List Nat)} {l : Label} (h : l.isName = true) :
    extentsN t cs l = extents t l := by
  cases l with
  | name s => rfl
  | numbered s i => cases h

theorem mem_append_numbered {ls : List Label} {name : String} {n : Nat} {l : Label} (h : l.isName = true) :
    l ∈ ls ++ numberedLabels name n ↔ l ∈ ls := by
  rw [List.mem_append]
  refine ⟨fun h1 => h1.resolve_right fun h2 => ?_, Or.inl⟩
  obtain ⟨i, _, rfl⟩ := mem_numberedLabels.1 h2
  cases h

theorem numbered_axes {name : String} {outLabels : List Label} {t : List (Label × Nat)} {cs : List (List Nat)}
    (hg : ∀ c ∈ cs, GoodChunks c) :
    List.Forall₂ (fun l c => GoodChunks c ∧ c.sum = extentsN t cs l ∧
      (l ∈ outLabels ++ numberedLabels name cs.length ∨ c.length = 1)) (numberedLabels name cs.length) cs := by
  refine forall₂_numbered name _ _ fun i hi => ⟨hg _ (List.getElem_mem _), ?_, Or.inl ?_⟩
  · simp [extentsN, List.getD_eq_getElem?_getD, hi]
  · exact List.mem_append_right _ (mem_numberedLabels.2 ⟨i, hi, rfl⟩)

theorem append_numbered_nodup {ls : List Label} {name : String} {n : Nat} (hn : ls.Nodup) (h : ∀ l ∈ ls, l.isName = true) :
    (ls ++ numberedLabels name n).Nodup := by
  rw [List.nodup_append]
  refine ⟨hn, numberedLabels_nodup _ _, ?_⟩
  rintro a ha b hb rfl
  obtain ⟨i, _, rfl⟩ := mem_numberedLabels.1 hb
  exact absurd (h _ ha) (by simp [Label.isName])

/-- The blocks of the numbered labels of an output. -/
theorem blk_numbered {ls : List Label} {name : String} {n : Nat} {b1 b2 : List Nat} (hn : ls.Nodup)
    (h : ∀ l ∈ ls, l.isName = true) (h1 : b1.length = ls.length) (h2 : b2.length = n) :
    (numberedLabels name n).map (blk ((ls ++ numberedLabels name n).zip (b1 ++ b2))) = b2 := by
  have hz := blk_zip (ls ++ numberedLabels name n) (b1 ++ b2) (append_numbered_nodup hn h)
    (by simp [h1, h2, numberedLabels])
  rw [List.map_append] at hz
  exact (List.append_inj hz (by simp [h1])).2

end Verif.Dask
