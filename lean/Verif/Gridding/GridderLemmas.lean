/-
Closed forms of the gridder and the degridder.
-/
import Verif.Gridding.Gridder
import Verif.Gridding.PoliciesProps

set_option autoImplicit false

namespace Verif.Gridding

open Finset

theorem npRound_close (x : ℝ) : |(npRound x : ℝ) - x| ≤ 1 / 2 := by
  have h1 := Int.floor_le x
  have h2 := Int.lt_floor_add_one x
  unfold npRound
  split_ifs with a b c <;> rw [abs_le] <;> push_cast <;> constructor <;> linarith

/-- A tap of a policy at the cell `g` of one axis: the tap number is the distance from the first cell touched. -/
noncomputable def tapAt (tap : Kern → Nat → ℝ → Nat → ℝ) (k : Kern) (npix : Nat) (s : ℝ) (g : ℤ) : ℝ :=
  if 0 ≤ g - disc npix s + ((k.W / 2 : Nat) : ℤ) ∧ g - disc npix s + ((k.W / 2 : Nat) : ℤ) < k.W then
    tap k npix s (g - disc npix s + ((k.W / 2 : Nat) : ℤ)).toNat else 0

theorem cell_inj {npix b b' : Nat} {v u v' u' : ℤ} (h : inGrid npix v u) (h' : inGrid npix v' u')
    (e : cell npix b v u = cell npix b' v' u') : b = b' ∧ v = v' ∧ u = u' := by
  obtain ⟨h1, h2, h3, h4⟩ := h
  obtain ⟨h1', h2', h3', h4'⟩ := h'
  unfold cell at e
  have hn : (0 : ℤ) < npix := by omega
  have key : ∀ q q' x x' : ℤ, 0 ≤ x → x < npix → 0 ≤ x' → x' < npix → q * npix + x = q' * npix + x' → q = q' ∧ x = x' := by
    intro q q' x x' a1 a2 a3 a4 he
    have hq : q = q' := by
      rcases lt_trichotomy q q' with hlt | heq | hgt
      · nlinarith
      · exact heq
      · nlinarith
    subst hq
    exact ⟨rfl, by linarith⟩
  obtain ⟨e1, e2⟩ := key _ _ _ _ h3 h4 h3' h4' e
  obtain ⟨e3, e4⟩ := key _ _ _ _ h1 h2 h1' h2' e1
  exact ⟨by exact_mod_cast e3, e4, e2⟩

theorem sum_tap (tap : Kern → Nat → ℝ → Nat → ℝ) (k : Kern) (npix : Nat) (s : ℝ) (g : ℤ) (f : ℝ → ℝ) (hf : f 0 = 0) :
    ∑ t ∈ range k.W, (if lookup k npix s t = g then f (tap k npix s t) else 0) = f (tapAt tap k npix s g) := by
  unfold tapAt
  split_ifs with h
  · rw [sum_eq_single (g - disc npix s + ((k.W / 2 : Nat) : ℤ)).toNat]
    · rw [if_pos]
      unfold lookup
      omega
    · intro t _ ht
      rw [if_neg]
      unfold lookup
      omega
    · intro hn
      rw [mem_range] at hn
      omega
  · rw [hf]
    refine sum_eq_zero fun t ht => ?_
    rw [mem_range] at ht
    rw [if_neg]
    unfold lookup
    omega

/-- What a scatter policy adds at address `a`, per unit of the visibility. -/
noncomputable def scatterCoef (tap : Kern → Nat → ℝ → Nat → ℝ) (k : Kern) (npix b : Nat) (su sv : ℝ) (a : ℤ) : ℝ :=
  ∑ tv ∈ range k.W, ∑ tu ∈ range k.W,
    if inGrid npix (lookup k npix sv tv) (lookup k npix su tu) ∧ a = cell npix b (lookup k npix sv tv) (lookup k npix su tu) then
      tap k npix sv tv * tap k npix su tu else 0

theorem scatterTap_obs (tap : Kern → Nat → ℝ → Nat → ℝ) (k : Kern) (npix b : Nat) (su sv : ℝ) (val : ℂ) (tv tu : Nat)
    (s : (ℤ → ℂ) × ℝ) (a : ℤ) :
    (scatterTap tap k npix b su sv val tv tu s).1 a = s.1 a +
      ((if inGrid npix (lookup k npix sv tv) (lookup k npix su tu) ∧ a = cell npix b (lookup k npix sv tv) (lookup k npix su tu) then
        tap k npix sv tv * tap k npix su tu else 0 : ℝ) : ℂ) * val := by
  unfold scatterTap
  by_cases h : inGrid npix (lookup k npix sv tv) (lookup k npix su tu)
  · simp only [h, if_true, true_and]
    by_cases ha : a = cell npix b (lookup k npix sv tv) (lookup k npix su tu)
    · rw [if_pos ha, ha, Function.update_self]
    · rw [if_neg ha, Function.update_of_ne ha]
      simp
  · simp [h]

theorem scatter_spec (tap : Kern → Nat → ℝ → Nat → ℝ) (k : Kern) (npix b : Nat) (su sv : ℝ) (val : ℂ) (grid : ℤ → ℂ) :
    scatter tap k npix b su sv val grid = (fun a => grid a + (scatterCoef tap k npix b su sv a : ℂ) * val,
      (∑ t ∈ range k.W, tap k npix sv t) * ∑ t ∈ range k.W, tap k npix su t) := by
  refine Prod.ext ?_ ?_
  · funext a
    have := forRange_sum (n := k.W) (init := (grid, (0 : ℝ)))
      (f := fun tv s => forRange k.W s fun tu s => scatterTap tap k npix b su sv val tv tu s)
      (obs := fun s : (ℤ → ℂ) × ℝ => s.1 a) (g := fun tv => ∑ tu ∈ range k.W,
      ((if inGrid npix (lookup k npix sv tv) (lookup k npix su tu) ∧ a = cell npix b (lookup k npix sv tv) (lookup k npix su tu) then
        tap k npix sv tv * tap k npix su tu else 0 : ℝ) : ℂ) * val)
      (fun tv _ s => forRange_sum (n := k.W) (init := s) (f := fun tu s => scatterTap tap k npix b su sv val tv tu s)
        (obs := fun s : (ℤ → ℂ) × ℝ => s.1 a) (g := fun tu => ((if inGrid npix (lookup k npix sv tv) (lookup k npix su tu) ∧
          a = cell npix b (lookup k npix sv tv) (lookup k npix su tu) then tap k npix sv tv * tap k npix su tu else 0 : ℝ) : ℂ) * val)
        (fun tu _ s => scatterTap_obs tap k npix b su sv val tv tu s a))
    refine this.trans ?_
    congr 1
    unfold scatterCoef
    push_cast
    rw [sum_mul]
    exact sum_congr rfl fun tv _ => by rw [sum_mul]
  · have := forRange_sum (n := k.W) (init := (grid, (0 : ℝ)))
      (f := fun tv s => forRange k.W s fun tu s => scatterTap tap k npix b su sv val tv tu s)
      (obs := fun s : (ℤ → ℂ) × ℝ => s.2) (g := fun tv => ∑ tu ∈ range k.W, tap k npix sv tv * tap k npix su tu)
      (fun tv _ s => forRange_sum (n := k.W) (init := s) (f := fun tu s => scatterTap tap k npix b su sv val tv tu s)
        (obs := fun s : (ℤ → ℂ) × ℝ => s.2) (g := fun tu => tap k npix sv tv * tap k npix su tu)
        (fun tu _ s => rfl))
    refine this.trans ?_
    simp only [zero_add]
    rw [sum_mul_sum]

theorem scatterCoef_cell (tap : Kern → Nat → ℝ → Nat → ℝ) (k : Kern) (npix b b' : Nat) (su sv : ℝ) (v u : ℤ) (h : inGrid npix v u) :
    scatterCoef tap k npix b su sv (cell npix b' v u) = if b = b' then tapAt tap k npix sv v * tapAt tap k npix su u else 0 := by
  unfold scatterCoef
  split_ifs with hb
  · subst hb
    have e : ∀ tv ∈ range k.W, (∑ tu ∈ range k.W,
        if inGrid npix (lookup k npix sv tv) (lookup k npix su tu) ∧
          cell npix b v u = cell npix b (lookup k npix sv tv) (lookup k npix su tu) then
          tap k npix sv tv * tap k npix su tu else 0) =
        if lookup k npix sv tv = v then tap k npix sv tv * tapAt tap k npix su u else 0 := by
      intro tv _
      split_ifs with hv
      · rw [← sum_tap tap k npix su u (fun x => tap k npix sv tv * x) (by simp)]
        refine sum_congr rfl fun tu _ => ?_
        by_cases hu : lookup k npix su tu = u
        · rw [if_pos hu, if_pos]
          rw [hv, hu]; exact ⟨h, rfl⟩
        · rw [if_neg hu, if_neg]
          rintro ⟨hg, e⟩
          exact hu (cell_inj h hg e).2.2.symm
      · refine sum_eq_zero fun tu _ => ?_
        rw [if_neg]
        rintro ⟨hg, e⟩
        exact hv (cell_inj h hg e).2.1.symm
    rw [sum_congr rfl e]
    exact sum_tap tap k npix sv v (fun x => x * tapAt tap k npix su u) (by simp)
  · refine sum_eq_zero fun tv _ => sum_eq_zero fun tu _ => ?_
    rw [if_neg]
    rintro ⟨hg, e⟩
    exact hb (cell_inj h hg e).1.symm

theorem scatterCoef_outside (tap : Kern → Nat → ℝ → Nat → ℝ) (k : Kern) (npix b nb : Nat) (su sv : ℝ) (a : ℤ) (hb : b < nb)
    (h : ¬ (0 ≤ a ∧ a < cell npix nb 0 0)) : scatterCoef tap k npix b su sv a = 0 := by
  unfold scatterCoef
  refine sum_eq_zero fun tv _ => sum_eq_zero fun tu _ => ?_
  rw [if_neg]
  rintro ⟨⟨h1, h2, h3, h4⟩, e⟩
  apply h
  generalize lookup k npix sv tv = v at *
  generalize lookup k npix su tu = u at *
  rw [e]
  unfold cell
  have hb' : (b : ℤ) + 1 ≤ nb := by exact_mod_cast hb
  have hb0 : (0 : ℤ) ≤ b := by positivity
  have hn : (0 : ℤ) ≤ npix := by positivity
  constructor
  · positivity
  · have h5 : (b : ℤ) * npix + v + 1 ≤ nb * npix := by nlinarith
    nlinarith

/-! ## The policies -/

/-- What a scatter policy adds at address `a`, by name. -/
noncomputable def kappa (name : String) (k : Kern) (npix b : Nat) (su sv : ℝ) (a : ℤ) : ℝ :=
  if name = "conv_nn_scatter" then
    if a = cell npix b (wrap npix (disc npix sv)) (wrap npix (disc npix su)) then 1 else 0
  else if name = "conv_1d_axisymmetric_packed_scatter" then scatterCoef packedTap k npix b su sv a
  else scatterCoef unpackedTap k npix b su sv a

/-- The weight a scatter policy returns, by name. -/
noncomputable def omega (name : String) (k : Kern) (npix : Nat) (su sv : ℝ) : ℝ :=
  if name = "conv_nn_scatter" then 1
  else if name = "conv_1d_axisymmetric_packed_scatter" then
    (∑ t ∈ range k.W, packedTap k npix sv t) * ∑ t ∈ range k.W, packedTap k npix su t
  else (∑ t ∈ range k.W, unpackedTap k npix sv t) * ∑ t ∈ range k.W, unpackedTap k npix su t

theorem scatterPolicy_spec {name : String} {conv : Kern → Nat → Nat → ℝ → ℝ → ℂ → (ℤ → ℂ) → (ℤ → ℂ) × ℝ}
    (h : scatterPolicy name = .ok conv) (k : Kern) (npix b : Nat) (su sv : ℝ) (val : ℂ) (grid : ℤ → ℂ) :
    conv k npix b su sv val grid = (fun a => grid a + (kappa name k npix b su sv a : ℂ) * val, omega name k npix su sv) := by
  unfold scatterPolicy at h
  split_ifs at h with h1 h2 h3
  · cases h
    subst h1
    show scatter packedTap k npix b su sv val grid = _
    rw [scatter_spec]
    simp [kappa, omega]
  · cases h
    subst h2
    simp only [kappa, omega, if_true, nnScatter]
    refine Prod.ext ?_ rfl
    funext a
    by_cases ha : a = cell npix b (wrap npix (disc npix sv)) (wrap npix (disc npix su))
    · simp [ha]
    · simp [ha]
  · cases h
    subst h3
    show scatter unpackedTap k npix b su sv val grid = _
    rw [scatter_spec]
    simp [kappa, omega]

theorem baseline_same (name : String) (mem mem' : Nat → ℝ) (a : Nat) (p0 p : RaDec) (h : ∀ i, a ≤ i → mem i = mem' i) (i : Nat)
    (h1 : a ≤ i) :
    okOr mem (baselinePolicy name mem a p0 p) i = okOr mem' (baselinePolicy name mem' a p0 p) i := by
  have e0 := h a le_rfl
  have e1 := h (a + 1) (by omega)
  have e2 := h (a + 2) (by omega)
  have e3 := h (a + 3) (by omega)
  have ei := h i h1
  unfold baselinePolicy
  split_ifs
  · exact ei
  · simp only [okOr, uvwRotate, Function.update, e0, e1, e3, ei]
  · simp only [okOr, uvwPlanar, Function.update, e0, e1, e2, ei]
  · exact ei

theorem baseline_other (name : String) (mem : Nat → ℝ) (a : Nat) (p0 p : RaDec) (i : Nat) (h : i < a ∨ a + 3 ≤ i) :
    okOr mem (baselinePolicy name mem a p0 p) i = mem i := by
  unfold baselinePolicy
  split_ifs
  · rfl
  · simp only [okOr, uvwRotate]
    rw [Function.update_of_ne (by omega), Function.update_of_ne (by omega), Function.update_of_ne (by omega)]
  · simp only [okOr, uvwPlanar]
    rw [Function.update_of_ne (by omega), Function.update_of_ne (by omega)]
  · rfl

/-- Coordinates of row `r` after the baseline policy. -/
noncomputable def rowCoord (cfg : Cfg) (p0 p : RaDec) (uvw : Nat → ℝ) (r j : Nat) : ℝ :=
  okOr uvw (baselinePolicy cfg.baseline uvw (3 * r) p0 p) (3 * r + j)

/-- Visibilities of row `r` after the phase policy. -/
noncomputable def phased (cfg : Cfg) (uvw : Nat → ℝ) (vis : Nat → Nat → Nat → ℂ) (r : Nat) : Nat → Nat → ℂ :=
  okOr (vis r) (phasePolicy cfg.phase (vis r) (uvw (3 * r)) (uvw (3 * r + 1)) (uvw (3 * r + 2)) cfg.wavelengths cfg.phaseCentre
    cfg.imageCentre 1)

/-- The scaled coordinate of row `r` and channel `c` used by the gridder. -/
noncomputable def scaled (cfg : Cfg) (npix : Nat) (uvw : Nat → ℝ) (r c j : Nat) : ℝ :=
  rowCoord cfg cfg.phaseCentre cfg.imageCentre uvw r j * scaleFactor npix cfg.cellsize / cfg.wavelengths c

/-- The Stokes value of row `r` and channel `c`. -/
noncomputable def stokesVal (cfg : Cfg) (uvw : Nat → ℝ) (vis : Nat → Nat → Nat → ℂ) (r c : Nat) : ℂ :=
  okOr 0 (corr2stokes cfg.stokes (phased cfg uvw vis r c))

section
variable (cfg : Cfg) (conv : Kern → Nat → Nat → ℝ → ℝ → ℂ → (ℤ → ℂ) → (ℤ → ℂ) × ℝ) (hc : scatterPolicy cfg.conv = .ok conv)
  (npix nchan : Nat)
include hc

theorem gridChans_spec (r n : Nat) (s : GridState) :
    let s' := forRange n s fun c s => gridChan cfg conv npix r c s
    s'.uvw = s.uvw ∧ s'.vis = s.vis ∧
    (∀ a, s'.grid a = s.grid a + ∑ c ∈ range n, (kappa cfg.conv cfg.kern npix (cfg.chanmap c)
      (s.uvw (3 * r) * scaleFactor npix cfg.cellsize / cfg.wavelengths c)
      (s.uvw (3 * r + 1) * scaleFactor npix cfg.cellsize / cfg.wavelengths c) a : ℂ) * okOr 0 (corr2stokes cfg.stokes (s.vis r c))) ∧
    ∀ b, s'.wt b = s.wt b + ∑ c ∈ range n, if cfg.chanmap c = b then omega cfg.conv cfg.kern npix
      (s.uvw (3 * r) * scaleFactor npix cfg.cellsize / cfg.wavelengths c)
      (s.uvw (3 * r + 1) * scaleFactor npix cfg.cellsize / cfg.wavelengths c) else 0 := by
  induction n with
  | zero => simp
  | succ n ih =>
    obtain ⟨h1, h2, h3, h4⟩ := ih
    simp only [forRange_succ]
    generalize forRange n s (fun c s => gridChan cfg conv npix r c s) = t at *
    refine ⟨h1, h2, ?_, ?_⟩
    · intro a
      simp only [gridChan, scatterPolicy_spec hc]
      rw [h3, sum_range_succ, h1, h2, add_assoc]
    · intro b
      simp only [gridChan, scatterPolicy_spec hc]
      rw [sum_range_succ, h1, ← add_assoc, ← h4]
      by_cases hb : cfg.chanmap n = b
      · rw [if_pos hb, hb, Function.update_self]
      · rw [if_neg hb, Function.update_of_ne (Ne.symm hb), add_zero]

theorem gridRows_spec (n : Nat) (grid : ℤ → ℂ) (uvw : Nat → ℝ) (vis : Nat → Nat → Nat → ℂ) :
    let s := forRange n { grid := grid, wt := fun _ => 0, uvw := uvw, vis := vis } fun r s => gridRow cfg conv npix nchan r s
    (∀ r j, j < 3 → s.uvw (3 * r + j) = if r < n then rowCoord cfg cfg.phaseCentre cfg.imageCentre uvw r j else uvw (3 * r + j)) ∧
    (∀ r, s.vis r = if r < n then phased cfg uvw vis r else vis r) ∧
    (∀ a, s.grid a = grid a + ∑ r ∈ range n, ∑ c ∈ range nchan, (kappa cfg.conv cfg.kern npix (cfg.chanmap c)
      (scaled cfg npix uvw r c 0) (scaled cfg npix uvw r c 1) a : ℂ) * stokesVal cfg uvw vis r c) ∧
    ∀ b, s.wt b = ∑ r ∈ range n, ∑ c ∈ range nchan, if cfg.chanmap c = b then omega cfg.conv cfg.kern npix
      (scaled cfg npix uvw r c 0) (scaled cfg npix uvw r c 1) else 0 := by
  induction n with
  | zero => simp
  | succ n ih =>
    obtain ⟨h1, h2, h3, h4⟩ := ih
    simp only [forRange_succ]
    generalize forRange n { grid := grid, wt := fun _ => 0, uvw := uvw, vis := vis } (fun r s => gridRow cfg conv npix nchan r s) = t at *
    have hge : ∀ i, 3 * n ≤ i → t.uvw i = uvw i := by
      intro i hi
      have := h1 (i / 3) (i % 3) (Nat.mod_lt _ (by omega))
      rw [if_neg (by omega), Nat.div_add_mod] at this
      exact this
    have hv : t.vis n = vis n := by rw [h2, if_neg (lt_irrefl _)]
    have hcoord : ∀ i, 3 * n ≤ i → okOr t.uvw (baselinePolicy cfg.baseline t.uvw (3 * n) cfg.phaseCentre cfg.imageCentre) i =
        okOr uvw (baselinePolicy cfg.baseline uvw (3 * n) cfg.phaseCentre cfg.imageCentre) i :=
      fun i hi => baseline_same cfg.baseline t.uvw uvw (3 * n) _ _ hge i hi
    have hphase : okOr (t.vis n) (phasePolicy cfg.phase (t.vis n) (t.uvw (3 * n)) (t.uvw (3 * n + 1)) (t.uvw (3 * n + 2)) cfg.wavelengths
        cfg.phaseCentre cfg.imageCentre 1) = phased cfg uvw vis n := by
      rw [hge _ (by omega), hge _ (by omega), hge _ (by omega), hv]
      rfl
    have key := gridChans_spec cfg conv hc npix n nchan
      { t with vis := Function.update t.vis n (phased cfg uvw vis n),
               uvw := okOr t.uvw (baselinePolicy cfg.baseline t.uvw (3 * n) cfg.phaseCentre cfg.imageCentre) }
    have hrow : gridRow cfg conv npix nchan n t = forRange nchan
      { t with vis := Function.update t.vis n (phased cfg uvw vis n),
               uvw := okOr t.uvw (baselinePolicy cfg.baseline t.uvw (3 * n) cfg.phaseCentre cfg.imageCentre) }
      (fun c s => gridChan cfg conv npix n c s) := by
      unfold gridRow
      rw [hphase]
    rw [hrow]
    obtain ⟨k1, k2, k3, k4⟩ := key
    refine ⟨?_, ?_, ?_, ?_⟩
    · intro r j hj
      rw [k1]
      show okOr t.uvw (baselinePolicy cfg.baseline t.uvw (3 * n) cfg.phaseCentre cfg.imageCentre) (3 * r + j) = _
      rcases Nat.lt_trichotomy r n with h | h | h
      · rw [baseline_other _ _ _ _ _ _ (by omega), h1 r j hj, if_pos h, if_pos (by omega)]
      · subst h
        rw [hcoord _ (by omega), if_pos (by omega)]
        rfl
      · rw [baseline_other _ _ _ _ _ _ (by omega), h1 r j hj, if_neg (by omega), if_neg (by omega)]
    · intro r
      rw [k2]
      show Function.update t.vis n (phased cfg uvw vis n) r = _
      by_cases h : r = n
      · subst h
        rw [Function.update_self, if_pos (by omega)]
      · rw [Function.update_of_ne h, h2]
        by_cases h' : r < n
        · rw [if_pos h', if_pos (by omega)]
        · rw [if_neg h', if_neg (by omega)]
    · intro a
      rw [k3]
      show t.grid a + _ = _
      rw [h3, sum_range_succ, add_assoc]
      refine (add_right_inj _).2 ((add_right_inj _).2 (sum_congr rfl fun c _ => ?_))
      simp only [Function.update_self, scaled, rowCoord, stokesVal, hcoord (3 * n) le_rfl, hcoord (3 * n + 1) (Nat.le_succ _), add_zero]
    · intro b
      rw [k4]
      show t.wt b + _ = _
      rw [h4, sum_range_succ]
      refine (add_right_inj _).2 (sum_congr rfl fun c _ => ?_)
      simp only [scaled, rowCoord, hcoord (3 * n) le_rfl, hcoord (3 * n + 1) (Nat.le_succ _), add_zero]

end

end Verif.Gridding
