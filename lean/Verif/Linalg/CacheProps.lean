/-
C92: the filled mask of a region, which is cached, and the sparse mask, which can be set.
-/
import Verif.Linalg.MaskProps

set_option autoImplicit false

namespace Verif.Linalg.Geometry

/-! ### Model -/

/-- A region object with its cached filled mask (`_cached_filled_mask`, geometry.py:53, 66-69, 135-166). -/
structure Obj where
  region : Region
  cache : Option (Int → Int → Rat)

/-- What a user can do with an object: read the filled mask, set the sparse mask, have the weights changed by `normalize_masks`, or
call `invalidate_cached_masks`. -/
inductive Op where
  | read
  | setMask (m : List (Int × Int))
  | reweigh (w : List Rat)
  | invalidate

/-- The sparse mask setter (geometry.py:111-133; boxes 546-573, where an empty mask leaves the weights as they are). It does not
touch the cache. -/
def setSparse (r : Region) (m : List (Int × Int)) : Region :=
  let m' := m.filter fun p => r.contains ((p.2 : Rat), (p.1 : Rat))
  if r.isBox && m.isEmpty then { r with mask := [] } else { r with mask := m', weights := m'.map fun _ => 1 }

/-- `init_mask` (geometry.py:76-97, 497-516). -/
def initMask (r : Region) : Region :=
  let m := (mesh r.corners).filter fun p => r.isBox || hullContains r.corners ((p.2 : Rat), (p.1 : Rat))
  { r with mask := m, weights := m.map fun _ => 1 }

/-- One operation; a read returns the filled mask. -/
def Obj.step (o : Obj) : Op → Obj × Option (Int → Int → Rat)
  | .read => match o.cache with
    | some f => (o, some f)
    | none => (⟨o.region, some (filledMask o.region)⟩, some (filledMask o.region))
  | .setMask m => (⟨setSparse o.region m, o.cache⟩, none)
  | .reweigh w => (⟨{ o.region with weights := w }, none⟩, none)
  | .invalidate => (⟨initMask o.region, none⟩, none)

/-- A history of operations. -/
def Obj.run (o : Obj) : List Op → Obj
  | [] => o
  | op :: ops => (o.step op).1.run ops

/-! ### C92 -/

/-- In a history no sparse mask is set after a read, unless the cache was invalidated in between. -/
def SetsBeforeReads : Bool → List Op → Prop
  | _, [] => True
  | _, .read :: l => SetsBeforeReads true l
  | cached, .setMask _ :: l => cached = false ∧ SetsBeforeReads cached l
  | _, .reweigh _ :: l => SetsBeforeReads false l
  | _, .invalidate :: l => SetsBeforeReads false l

theorem fresh_aux : ∀ (ops : List Op) (o : Obj) (cached : Bool), (cached = false → o.cache = none) →
    (∀ f, o.cache = some f → f = filledMask o.region) → SetsBeforeReads cached ops →
    ∀ f, (o.run ops).cache = some f → f = filledMask (o.run ops).region := by
  intro ops
  induction ops with
  | nil => intro o cached _ h _; exact h
  | cons op ops ih =>
    intro o cached h1 h2 hs
    cases op with
    | read =>
      refine ih _ true (by simp) ?_ hs
      intro f hf
      cases hc : o.cache with
      | none => simp only [Obj.step, hc] at hf ⊢; exact (Option.some.inj hf).symm
      | some g => simp only [Obj.step, hc] at hf ⊢; exact h2 f (hc.trans hf)
    | setMask m =>
      obtain ⟨rfl, hs⟩ := hs
      refine ih _ false (fun _ => h1 rfl) ?_ hs
      intro f hf
      rw [show ((o.step (.setMask m)).1).cache = o.cache from rfl, h1 rfl] at hf
      exact absurd hf (by simp)
    | reweigh w => exact ih _ false (fun _ => rfl) (by intro f hf; exact absurd hf (by simp [Obj.step])) hs
    | invalidate => exact ih _ false (fun _ => rfl) (by intro f hf; exact absurd hf (by simp [Obj.step])) hs

/-- **C92 (partial).** Whatever was done to a new region before, reading the filled mask gives the grid of the current sparse mask and
weights, if no sparse mask was set after a read without an invalidation in between.
Missing: other histories, see `C92_violated`. -/
theorem C92_fresh_partial (r : Region) (ops : List Op) (h : SetsBeforeReads false ops) :
    (((⟨r, none⟩ : Obj).run ops).step .read).2 = some (filledMask ((⟨r, none⟩ : Obj).run ops).region) := by
  have := fresh_aux ops ⟨r, none⟩ false (fun _ => rfl) (by intro f hf; exact absurd hf (by simp)) h
  generalize (⟨r, none⟩ : Obj).run ops = o at *
  cases hc : o.cache with
  | none => simp only [Obj.step, hc]
  | some g => simp only [Obj.step, hc]; rw [this g hc]

/-- The hypothesis can be met by a history with reads and sets. -/
example : SetsBeforeReads false [.setMask [(0, 0)], .read, .read, .invalidate, .setMask [], .reweigh [], .read] := by
  simp [SetsBeforeReads]

/-- **C92 violated.** After the filled mask was read, setting the sparse mask has no effect on it: the pixel of the box that is no
longer in the mask still has the weight one. -/
theorem C92_violated {hull : HullFn} (hh : BoxHull hull) : ∃ r f, mkBox hull 0 1 0 1 none = .ok r ∧
    (((⟨r, none⟩ : Obj).run [.read, .setMask []]).step .read).2 = some f ∧ f 1 1 = 1 ∧
    ((⟨r, none⟩ : Obj).run [.read, .setMask []]).region.mask = [] ∧
    filledMask ((⟨r, none⟩ : Obj).run [.read, .setMask []]).region 1 1 = 0 := by
  obtain ⟨r, hr, hib, e1, e2, e3, e4, _, _, hm, hw⟩ := mkBox_ok hh (xl := 0) (xu := 1) (yl := 0) (yu := 1) (by decide) (by decide) none
  have f1 : minX r.corners = 0 := e1
  have f2 : maxX r.corners = 1 := e2
  have f3 : minY r.corners = 0 := e3
  have f4 : maxY r.corners = 1 := e4
  have hmask : r.mask = [(0, 0), (1, 0), (0, 1), (1, 1)] := by
    rw [hm]
    unfold mesh
    rw [f1, f2, f3, f4]
    decide
  have hset : (setSparse r []).mask = [] := by simp [setSparse, hib]
  refine ⟨r, filledMask r, hr, rfl, ?_, hset, ?_⟩
  · unfold filledMask
    rw [f1, f2, f3, f4, if_pos (by decide), hw, hmask]
    decide +kernel
  · show filledMask (setSparse r []) 1 1 = 0
    unfold filledMask
    rw [hset, weightOf_not_mem _ (by simp)]
    split <;> rfl

end Verif.Linalg.Geometry
