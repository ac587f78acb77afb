/-
C82: `estimate_cell_size`.
-/
import Verif.Gridding.CellSize
import Mathlib.Tactic.Ring
import Mathlib.Tactic.Linarith
import Mathlib.Tactic.Positivity
import Mathlib.Tactic.FieldSimp
import Mathlib.Tactic.NormNum

set_option autoImplicit false

namespace Verif.CellSize

theorem foldl_max (xs : List ℝ) (a : ℝ) : (∀ x ∈ a :: xs, x ≤ xs.foldl max a) ∧ xs.foldl max a ∈ a :: xs := by
  induction xs generalizing a with
  | nil => simp
  | cons b xs ih =>
    obtain ⟨h1, h2⟩ := ih (max a b)
    constructor
    · intro x hx
      rw [List.foldl_cons]
      have hm := h1 (max a b) (by simp)
      rcases List.mem_cons.1 hx with rfl | hx
      · exact le_trans (le_max_left _ _) hm
      rcases List.mem_cons.1 hx with rfl | hx
      · exact le_trans (le_max_right _ _) hm
      · exact h1 x (List.mem_cons_of_mem _ hx)
    · rw [List.foldl_cons]
      rcases List.mem_cons.1 h2 with h | h
      · rcases max_choice a b with e | e <;> rw [e] at h ⊢ <;> rw [h] <;> simp
      · exact List.mem_cons_of_mem _ (List.mem_cons_of_mem _ h)

theorem foldl_min (xs : List ℝ) (a : ℝ) : (∀ x ∈ a :: xs, xs.foldl min a ≤ x) ∧ xs.foldl min a ∈ a :: xs := by
  induction xs generalizing a with
  | nil => simp
  | cons b xs ih =>
    obtain ⟨h1, h2⟩ := ih (min a b)
    constructor
    · intro x hx
      rw [List.foldl_cons]
      have hm := h1 (min a b) (by simp)
      rcases List.mem_cons.1 hx with rfl | hx
      · exact le_trans hm (min_le_left _ _)
      rcases List.mem_cons.1 hx with rfl | hx
      · exact le_trans hm (min_le_right _ _)
      · exact h1 x (List.mem_cons_of_mem _ hx)
    · rw [List.foldl_cons]
      rcases List.mem_cons.1 h2 with h | h
      · rcases min_choice a b with e | e <;> rw [e] at h ⊢ <;> rw [h] <;> simp
      · exact List.mem_cons_of_mem _ (List.mem_cons_of_mem _ h)

/-! ### Specification -/

/-- The numbers of an argument. -/
def Arg.vals : Arg → List ℝ
  | .array xs => xs
  | .float _ x => [x]
  | .other => []

/-- `m` is the largest absolute value of an argument. -/
def IsAbsMax (a : Arg) (m : ℝ) : Prop := (∀ x ∈ a.vals, |x| ≤ m) ∧ ∃ x ∈ a.vals, |x| = m

/-- `m` is the smallest absolute value of an argument. -/
def IsAbsMin (a : Arg) (m : ℝ) : Prop := (∀ x ∈ a.vals, m ≤ |x|) ∧ ∃ x ∈ a.vals, |x| = m

/-- `m` is the smallest value of an argument. -/
def IsMin (a : Arg) (m : ℝ) : Prop := (∀ x ∈ a.vals, m ≤ x) ∧ m ∈ a.vals

theorem IsAbsMax.unique {a : Arg} {m n : ℝ} (h : IsAbsMax a m) (h' : IsAbsMax a n) : m = n := by
  obtain ⟨x, hx, e⟩ := h.2
  obtain ⟨y, hy, e'⟩ := h'.2
  exact le_antisymm (e ▸ h'.1 x hx) (e' ▸ h.1 y hy)

theorem IsAbsMin.unique {a : Arg} {m n : ℝ} (h : IsAbsMin a m) (h' : IsAbsMin a n) : m = n := by
  obtain ⟨x, hx, e⟩ := h.2
  obtain ⟨y, hy, e'⟩ := h'.2
  exact le_antisymm (e' ▸ h.1 y hy) (e ▸ h'.1 x hx)

theorem IsMin.unique {a : Arg} {m n : ℝ} (h : IsMin a m) (h' : IsMin a n) : m = n :=
  le_antisymm (h.1 n h'.2) (h'.1 m h.2)

theorem extent_spec (a : Arg) (h : a.vals ≠ []) : ∃ hi lo, extent a = .ok (hi, lo) ∧ IsAbsMax a hi ∧ IsAbsMin a lo := by
  cases a with
  | array xs =>
    cases xs with
    | nil => exact absurd rfl h
    | cons x xs =>
      obtain ⟨h1, h2⟩ := foldl_max (xs.map fun x => |x|) |x|
      obtain ⟨h3, h4⟩ := foldl_min (xs.map fun x => |x|) |x|
      refine ⟨_, _, rfl, ⟨fun y hy => h1 _ ?_, ?_⟩, ⟨fun y hy => h3 _ ?_, ?_⟩⟩
      · exact List.mem_map_of_mem (f := fun x : ℝ => |x|) hy
      · obtain ⟨y, hy, e⟩ := List.mem_map.1 (show _ ∈ (x :: xs).map fun x => |x| from h2)
        exact ⟨y, hy, e⟩
      · exact List.mem_map_of_mem (f := fun x : ℝ => |x|) hy
      · obtain ⟨y, hy, e⟩ := List.mem_map.1 (show _ ∈ (x :: xs).map fun x => |x| from h4)
        exact ⟨y, hy, e⟩
  | float b x => exact ⟨_, _, rfl, ⟨by simp [Arg.vals], by simp [Arg.vals]⟩, ⟨by simp [Arg.vals], by simp [Arg.vals]⟩⟩
  | other => exact absurd rfl h

theorem waveMin_spec (a : Arg) (h : a.vals ≠ []) : ∃ w, waveMin a = .ok w ∧ IsMin a w := by
  cases a with
  | array xs =>
    cases xs with
    | nil => exact absurd rfl h
    | cons x xs =>
      obtain ⟨h3, h4⟩ := foldl_min xs x
      exact ⟨_, rfl, h3, h4⟩
  | float b x => exact ⟨_, rfl, by simp [Arg.vals], by simp [Arg.vals]⟩
  | other => exact absurd rfl h

/-- The cell size in radians of a largest coordinate, wavelength and factor. -/
noncomputable def cellRad (factor hi w : ℝ) : ℝ := 1 / (2 * factor * (hi / w))

/-- Arcseconds of radians. -/
noncomputable def toArcsec (c : ℝ) : ℝ := c * (180 / Real.pi) * 3600

/-- The function without errors from its arguments: the value it computes and the checks it makes. -/
theorem estimate_eq (u v wl : Arg) (factor : ℝ) (ny nx : Option ℝ) (uhi ulo vhi vlo w : ℝ) (hu : IsAbsMax u uhi) (hul : IsAbsMin u ulo)
    (hv : IsAbsMax v vhi) (hvl : IsAbsMin v vlo) (hw : IsMin wl w) (hw0 : 0 < w) (hf : 0 < factor) (hu0 : 0 < uhi) (hv0 : 0 < vhi) :
    estimate u v wl factor ny nx =
      (check (u.numpy || wl.numpy) (cellRad factor uhi w : ℝ) ny (ulo / w)).bind fun _ =>
        (check (v.numpy || wl.numpy) (cellRad factor vhi w : ℝ) nx (vlo / w)).bind fun _ =>
          .ok (((toArcsec (cellRad factor uhi w) : ℝ) : WithTop ℝ), ((toArcsec (cellRad factor vhi w) : ℝ) : WithTop ℝ)) := by
  have nu : u.vals ≠ [] := by obtain ⟨x, hx, -⟩ := hu.2; exact List.ne_nil_of_mem hx
  have nv : v.vals ≠ [] := by obtain ⟨x, hx, -⟩ := hv.2; exact List.ne_nil_of_mem hx
  have nw : wl.vals ≠ [] := List.ne_nil_of_mem hw.2
  obtain ⟨a, b, e1, ha, hb⟩ := extent_spec u nu
  obtain ⟨c, d, e2, hc, hd⟩ := extent_spec v nv
  obtain ⟨w', e3, hw'⟩ := waveMin_spec wl nw
  rw [ha.unique hu, hb.unique hul] at e1
  rw [hc.unique hv, hd.unique hvl] at e2
  rw [hw'.unique hw] at e3
  have p1 : 2 * factor * (uhi / w) ≠ 0 := by positivity
  have p2 : 2 * factor * (vhi / w) ≠ 0 := by positivity
  have r1 : recip (u.numpy || wl.numpy) (2 * factor * (uhi / w)) = .ok ((cellRad factor uhi w : ℝ) : WithTop ℝ) := if_neg p1
  have r2 : recip (v.numpy || wl.numpy) (2 * factor * (vhi / w)) = .ok ((cellRad factor vhi w : ℝ) : WithTop ℝ) := if_neg p2
  unfold estimate
  rw [e1, e2, e3]
  show (if w = 0 then _ else _) = _
  rw [if_neg (ne_of_gt hw0)]
  rw [r1, r2]
  rfl

/-- C82: without image sizes, the cell sizes (in arcseconds) are positive and sample every baseline at every wavelength with the
factor asked for: in radians, cell ≤ 1 / (2 · factor · |u| / λ) for every `u` and `λ`, with equality for the longest baseline and the
shortest wavelength. -/
theorem C82_nyquist (u v wl : Arg) (factor : ℝ) (hf : 0 < factor) (hw : wl.vals ≠ []) (hpos : ∀ l ∈ wl.vals, 0 < l)
    (hu : ∃ x ∈ u.vals, x ≠ 0) (hv : ∃ x ∈ v.vals, x ≠ 0) :
    ∃ cu cv : ℝ, estimate u v wl factor none none = .ok ((cu : WithTop ℝ), (cv : WithTop ℝ)) ∧ 0 < cu ∧ 0 < cv ∧
      (∀ x ∈ u.vals, ∀ l ∈ wl.vals, cu * (Real.pi / 648000) * (2 * factor * (|x| / l)) ≤ 1) ∧
      (∀ x ∈ v.vals, ∀ l ∈ wl.vals, cv * (Real.pi / 648000) * (2 * factor * (|x| / l)) ≤ 1) ∧
      (∃ x ∈ u.vals, ∃ l ∈ wl.vals, cu * (Real.pi / 648000) * (2 * factor * (|x| / l)) = 1) ∧
      ∃ x ∈ v.vals, ∃ l ∈ wl.vals, cv * (Real.pi / 648000) * (2 * factor * (|x| / l)) = 1 := by
  obtain ⟨x, hx, hx0⟩ := hu
  obtain ⟨y, hy, hy0⟩ := hv
  obtain ⟨uhi, ulo, -, ha, hb⟩ := extent_spec u (List.ne_nil_of_mem hx)
  obtain ⟨vhi, vlo, -, hc, hd⟩ := extent_spec v (List.ne_nil_of_mem hy)
  obtain ⟨w, -, hm⟩ := waveMin_spec wl hw
  have hw0 := hpos w hm.2
  have hu0 : 0 < uhi := lt_of_lt_of_le (abs_pos.2 hx0) (ha.1 x hx)
  have hv0 : 0 < vhi := lt_of_lt_of_le (abs_pos.2 hy0) (hc.1 y hy)
  have pi0 := Real.pi_pos
  have key : ∀ hi, 0 < hi → ∀ x l, toArcsec (cellRad factor hi w) * (Real.pi / 648000) * (2 * factor * (|x| / l)) = |x| / hi * (w / l) := by
    intro hi h0 x l
    unfold toArcsec cellRad
    field_simp
    ring
  have le1 : ∀ hi, 0 < hi → ∀ x l, |x| ≤ hi → l ∈ wl.vals →
      toArcsec (cellRad factor hi w) * (Real.pi / 648000) * (2 * factor * (|x| / l)) ≤ 1 := by
    intro hi h0 x l h1 h2
    rw [key hi h0]
    have l0 := hpos l h2
    have a1 : |x| / hi ≤ 1 := (div_le_one h0).2 h1
    have a2 : w / l ≤ 1 := (div_le_one l0).2 (hm.1 l h2)
    exact mul_le_one₀ a1 (by positivity) a2
  have eq1 : ∀ hi, 0 < hi → toArcsec (cellRad factor hi w) * (Real.pi / 648000) * (2 * factor * (|hi| / w)) = 1 := by
    intro hi h0
    rw [key hi h0, abs_of_pos h0, div_self (ne_of_gt h0), div_self (ne_of_gt hw0), mul_one]
  refine ⟨toArcsec (cellRad factor uhi w), toArcsec (cellRad factor vhi w),
    estimate_eq u v wl factor none none uhi ulo vhi vlo w ha hb hc hd hm hw0 hf hu0 hv0, ?_, ?_, ?_, ?_, ?_, ?_⟩
  · unfold toArcsec cellRad
    positivity
  · unfold toArcsec cellRad
    positivity
  · exact fun x hx l hl => le1 uhi hu0 x l (ha.1 x hx) hl
  · exact fun x hx l hl => le1 vhi hv0 x l (hc.1 x hx) hl
  · obtain ⟨z, hz, e⟩ := ha.2
    refine ⟨z, hz, w, hm.2, ?_⟩
    rw [e, ← abs_of_pos hu0]
    have := eq1 uhi hu0
    rwa [abs_of_pos hu0] at this ⊢
  · obtain ⟨z, hz, e⟩ := hc.2
    refine ⟨z, hz, w, hm.2, ?_⟩
    rw [e, ← abs_of_pos hv0]
    have := eq1 vhi hv0
    rwa [abs_of_pos hv0] at this ⊢

example : ∃ cu cv : ℝ, estimate (.array [3, -4]) (.float false 2) (.array [1, 2]) 3 none none = .ok ((cu : WithTop ℝ), (cv : WithTop ℝ)) ∧ 0 < cu := by
  obtain ⟨cu, cv, h1, h2, -⟩ := C82_nyquist (.array [3, -4]) (.float false 2) (.array [1, 2]) 3 (by norm_num) (by simp [Arg.vals])
    (by simp [Arg.vals]) ⟨3, by simp [Arg.vals], by norm_num⟩ ⟨2, by simp [Arg.vals], by norm_num⟩
  exact ⟨cu, cv, h1, h2⟩

theorem check_iff (numpy : Bool) (c n lo : ℝ) (hlo : 0 < lo) :
    check numpy (c : ℝ) (some n) lo = if c * n < 1 / lo then .error .valueError else .ok () := by
  have hr : recip numpy lo = .ok ((1 / lo : ℝ) : WithTop ℝ) := if_neg (ne_of_gt hlo)
  have ht : tooSmall (c : ℝ) n ((1 / lo : ℝ) : WithTop ℝ) ↔ c * n < 1 / lo := WithTop.coe_lt_coe
  unfold check
  rw [hr]
  by_cases h : c * n < 1 / lo
  · rw [if_pos h]
    exact if_pos (ht.2 h)
  · rw [if_neg h]
    exact if_neg (fun h' => h (ht.1 h'))

/-- C82, what the checks of the code are: for baselines that are not zero, the call fails exactly if `Δu · ny < λ / min |u|` or
`Δv · nx < λ / min |v|`. -/
theorem C82_check (u v wl : Arg) (factor ny nx uhi ulo vhi vlo w : ℝ) (hu : IsAbsMax u uhi) (hul : IsAbsMin u ulo)
    (hv : IsAbsMax v vhi) (hvl : IsAbsMin v vlo) (hw : IsMin wl w) (hw0 : 0 < w) (hf : 0 < factor) (hu0 : 0 < ulo) (hv0 : 0 < vlo) :
    (estimate u v wl factor (some ny) (some nx) = .error .valueError ↔
      1 / (2 * factor * (uhi / w)) * ny < w / ulo ∨ 1 / (2 * factor * (vhi / w)) * nx < w / vlo) ∧
    ((∃ r, estimate u v wl factor (some ny) (some nx) = .ok r) ↔
      w / ulo ≤ 1 / (2 * factor * (uhi / w)) * ny ∧ w / vlo ≤ 1 / (2 * factor * (vhi / w)) * nx) := by
  have h1 : 0 < uhi := by
    obtain ⟨x, hx, e⟩ := hul.2
    exact lt_of_lt_of_le (e ▸ hu0) (hu.1 x hx)
  have h2 : 0 < vhi := by
    obtain ⟨x, hx, e⟩ := hvl.2
    exact lt_of_lt_of_le (e ▸ hv0) (hv.1 x hx)
  rw [estimate_eq u v wl factor (some ny) (some nx) uhi ulo vhi vlo w hu hul hv hvl hw hw0 hf h1 h2, check_iff _ _ _ _ (by positivity),
    check_iff _ _ _ _ (by positivity)]
  have i1 : 1 / (ulo / w) = w / ulo := one_div_div _ _
  have i2 : 1 / (vlo / w) = w / vlo := one_div_div _ _
  rw [i1, i2]
  unfold cellRad
  by_cases a : 1 / (2 * factor * (uhi / w)) * ny < w / ulo
  · rw [if_pos a]
    refine ⟨⟨fun _ => Or.inl a, fun _ => rfl⟩, ⟨(fun ⟨r, h⟩ => nomatch h), fun h => absurd a (not_lt.2 h.1)⟩⟩
  · rw [if_neg a]
    by_cases b : 1 / (2 * factor * (vhi / w)) * nx < w / vlo
    · rw [if_pos b]
      refine ⟨⟨fun _ => Or.inr b, fun _ => rfl⟩, ⟨(fun ⟨r, h⟩ => nomatch h), fun h => absurd b (not_lt.2 h.2)⟩⟩
    · rw [if_neg b]
      exact ⟨⟨(fun h => nomatch h), fun h => absurd h (not_or.2 ⟨a, b⟩)⟩, ⟨fun _ => ⟨not_lt.1 a, not_lt.1 b⟩, fun _ => ⟨_, rfl⟩⟩⟩

/-- C82: an argument that is neither an array nor a float is a `TypeError`; empty arrays are a `ValueError`. -/
theorem C82_types (u v wl : Arg) (factor : ℝ) (ny nx : Option ℝ) :
    estimate .other v wl factor ny nx = .error .typeError ∧
    (u.vals ≠ [] → estimate u .other wl factor ny nx = .error .typeError) ∧
    (u.vals ≠ [] → v.vals ≠ [] → estimate u v .other factor ny nx = .error .typeError) ∧
    estimate (.array []) v wl factor ny nx = .error .valueError ∧
    (u.vals ≠ [] → estimate u (.array []) wl factor ny nx = .error .valueError) ∧
    (u.vals ≠ [] → v.vals ≠ [] → estimate u v (.array []) factor ny nx = .error .valueError) := by
  refine ⟨rfl, ?_, ?_, rfl, ?_, ?_⟩
  · intro h
    obtain ⟨a, b, e, -⟩ := extent_spec u h
    unfold estimate
    rw [e]
    rfl
  · intro h h'
    obtain ⟨a, b, e, -⟩ := extent_spec u h
    obtain ⟨c, d, e', -⟩ := extent_spec v h'
    unfold estimate
    rw [e, e']
    rfl
  · intro h
    obtain ⟨a, b, e, -⟩ := extent_spec u h
    unfold estimate
    rw [e]
    rfl
  · intro h h'
    obtain ⟨a, b, e, -⟩ := extent_spec u h
    obtain ⟨c, d, e', -⟩ := extent_spec v h'
    unfold estimate
    rw [e, e']
    rfl

/-- C82 fails as documented: the documentation promises an exception unless `Δu · ny ≤ λ / min |u|` and `Δv · nx ≤ λ / min |v|`. With
`u = v = λ = 1` and `factor = 1` the cell size is half a radian: an image of one pixel, which meets the documented criterion, is
refused, and an image of 4 × 4 pixels, which does not, is accepted. -/
theorem C82_violated :
    (1 / (2 * (1 : ℝ) * (1 / 1)) * 1 ≤ (1 : ℝ) / 1 ∧
      estimate (.float false 1) (.float false 1) (.float false 1) 1 (some 1) (some 1) = .error .valueError) ∧
    (¬(1 / (2 * (1 : ℝ) * (1 / 1)) * 4 ≤ (1 : ℝ) / 1) ∧
      ∃ r, estimate (.float false 1) (.float false 1) (.float false 1) 1 (some 4) (some 4) = .ok r) := by
  have m : IsAbsMax (.float false 1) 1 ∧ IsAbsMin (.float false 1) 1 ∧ IsMin (.float false 1) 1 := by
    refine ⟨⟨?_, 1, ?_, ?_⟩, ⟨?_, 1, ?_, ?_⟩, ?_, ?_⟩ <;> simp [Arg.vals]
  have h := fun ny => C82_check (.float false 1) (.float false 1) (.float false 1) 1 ny ny 1 1 1 1 1 m.1 m.2.1 m.1 m.2.1 m.2.2
    one_pos (by norm_num) one_pos one_pos
  refine ⟨⟨by norm_num, (h 1).1.2 (Or.inl (by norm_num))⟩, by norm_num, (h 4).2.2 ⟨by norm_num, by norm_num⟩⟩

/-- C82: a baseline of zero in the data (an autocorrelation) makes every call with an image size fail. -/
theorem C82_zero_baseline (u v wl : Arg) (factor : ℝ) (ny : ℝ) (nx : Option ℝ) (uhi vhi vlo w : ℝ) (hu : IsAbsMax u uhi)
    (hul : IsAbsMin u 0) (hv : IsAbsMax v vhi) (hvl : IsAbsMin v vlo) (hw : IsMin wl w) (hw0 : 0 < w) (hf : 0 < factor) (hu0 : 0 < uhi)
    (hv0 : 0 < vhi) (hn : u.numpy = true) : estimate u v wl factor (some ny) nx = .error .valueError := by
  rw [estimate_eq u v wl factor (some ny) nx uhi 0 vhi vlo w hu hul hv hvl hw hw0 hf hu0 hv0]
  have : check (u.numpy || wl.numpy) (cellRad factor uhi w : ℝ) (some ny) (0 / w) = .error .valueError := by
    have hr : recip (u.numpy || wl.numpy) 0 = .ok ⊤ := by
      unfold recip
      rw [if_pos rfl, hn]
      rfl
    unfold check
    rw [zero_div, hr]
    exact if_pos (WithTop.coe_lt_top _)
  rw [this]
  rfl

end Verif.CellSize
