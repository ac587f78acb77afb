/-
The result of the gridder and of the degridder in closed form.
-/
import Verif.Gridding.GridderLemmas

set_option autoImplicit false

namespace Verif.Gridding

open Finset

theorem lt_nband {n c : Nat} {chanmap : Nat → Nat} (h : c < n) : chanmap c < nband n chanmap := by
  have : ∀ k, ∀ c < k, chanmap c < forRange k 0 fun c m => max m (chanmap c + 1) := by
    intro k
    induction k with
    | zero => intro c hc; omega
    | succ k ih =>
      intro c hc
      rw [forRange_succ]
      by_cases hck : c = k
      · subst hck; omega
      · have := ih c (by omega); omega
  exact this n c h

/-- The total weight of a band. -/
noncomputable def weight (cfg : Cfg) (npix nrow nchan : Nat) (uvw : Nat → ℝ) (b : Nat) : ℝ :=
  ∑ r ∈ range nrow, ∑ c ∈ range nchan, if cfg.chanmap c = b then omega cfg.conv cfg.kern npix
      (scaled cfg npix uvw r c 0) (scaled cfg npix uvw r c 1) else 0

/-- The divisor of a band. -/
noncomputable def divisor (cfg : Cfg) (npix nrow nchan : Nat) (uvw : Nat → ℝ) (norm : Bool) (b : Nat) : ℂ :=
  if norm then ((weight cfg npix nrow nchan uvw b + 1 / 100000000 : ℝ) : ℂ) else 1

theorem cell_range {npix b nb : Nat} {v u : ℤ} (h : inGrid npix v u) (hb : b < nb) :
    0 ≤ cell npix b v u ∧ cell npix b v u < cell npix nb 0 0 := by
  obtain ⟨h1, h2, h3, h4⟩ := h
  unfold cell
  have hb' : (b : ℤ) + 1 ≤ nb := by exact_mod_cast hb
  constructor
  · positivity
  · have h5 : (b : ℤ) * npix + v + 1 ≤ nb * npix := by nlinarith
    nlinarith

theorem cell_band {npix b b' : Nat} {v u : ℤ} (h : inGrid npix v u) :
    (cell npix b' 0 0 ≤ cell npix b v u ∧ cell npix b v u < cell npix (b' + 1) 0 0) ↔ b = b' := by
  obtain ⟨h1, h2, h3, h4⟩ := h
  unfold cell
  have hn : (0 : ℤ) < npix := by omega
  constructor
  · rintro ⟨e1, e2⟩
    push_cast at e2
    rcases Nat.lt_trichotomy b b' with hlt | heq | hgt
    · have hb' : (b : ℤ) + 1 ≤ b' := by exact_mod_cast hlt
      have h5 : (b : ℤ) * npix + v + 1 ≤ b' * npix := by nlinarith
      nlinarith
    · exact heq
    · have hb' : (b' : ℤ) + 1 ≤ b := by exact_mod_cast hgt
      have h5 : ((b' : ℤ) + 1) * npix ≤ b * npix + v := by nlinarith
      nlinarith
  · rintro rfl
    push_cast
    constructor
    · nlinarith
    · have h5 : (b : ℤ) * npix + v + 1 ≤ (b + 1) * npix := by nlinarith
      nlinarith

theorem gridder_cases {cfg : Cfg} {npix nrow nchan ur uc : Nat} {uvw : Nat → ℝ} {vis : Nat → Nat → Nat → ℂ} {norm : Bool}
    {junk : ℤ → ℂ} {s : GridState} (h : gridder cfg npix nrow nchan ur uc uvw vis norm junk = .ok s) :
    ∃ conv x, scatterPolicy cfg.conv = .ok conv ∧ corr2stokes cfg.stokes (fun _ => 0) = .ok x ∧ resolve cfg = .ok () ∧
      cfg.nmap = cfg.nlam ∧ cfg.nmap ≠ 0 ∧ uc = 3 ∧ ur = nrow ∧ nchan = cfg.nlam ∧
      (let t := forRange nrow { grid := zeroGrid npix (nband cfg.nmap cfg.chanmap) junk, wt := fun _ => 0, uvw := uvw, vis := vis }
          fun r s => gridRow cfg conv npix nchan r s
       s = if norm then { t with grid := normaliseGrid npix (nband cfg.nmap cfg.chanmap) t.wt t.grid } else t) := by
  unfold gridder at h
  cases h1 : scatterPolicy cfg.conv with
  | error e => rw [h1] at h; cases h
  | ok conv =>
  cases h2 : corr2stokes cfg.stokes (fun _ => 0) with
  | error e => rw [h1, h2] at h; cases h
  | ok x =>
  cases h3 : resolve cfg with
  | error e => rw [h1, h2, h3] at h; cases h
  | ok y =>
  rw [h1, h2, h3] at h
  simp only [bind, Except.bind] at h
  by_cases c1 : cfg.nmap ≠ cfg.nlam
  · rw [if_pos c1] at h; cases h
  rw [if_neg c1] at h
  by_cases c2 : cfg.nmap = 0
  · rw [if_pos c2] at h; cases h
  rw [if_neg c2] at h
  by_cases c3 : uc ≠ 3
  · rw [if_pos c3] at h; cases h
  rw [if_neg c3] at h
  by_cases c4 : ur ≠ nrow
  · rw [if_pos c4] at h; cases h
  rw [if_neg c4] at h
  by_cases c5 : nchan ≠ cfg.nlam
  · rw [if_pos c5] at h; cases h
  rw [if_neg c5] at h
  exact ⟨conv, x, rfl, rfl, rfl, not_not.1 c1, c2, not_not.1 c3, not_not.1 c4, not_not.1 c5, (Except.ok.inj h).symm⟩

/-- The conditions under which the gridder returns. -/
def GridOk (cfg : Cfg) (nrow nchan ur uc : Nat) : Prop :=
  (∃ conv, scatterPolicy cfg.conv = .ok conv) ∧ (∃ x, corr2stokes cfg.stokes (fun _ => 0) = .ok x) ∧ resolve cfg = .ok () ∧
    cfg.nmap = cfg.nlam ∧ cfg.nmap ≠ 0 ∧ uc = 3 ∧ ur = nrow ∧ nchan = cfg.nlam

theorem gridder_ok_iff {cfg : Cfg} {npix nrow nchan ur uc : Nat} {uvw : Nat → ℝ} {vis : Nat → Nat → Nat → ℂ} {norm : Bool}
    {junk : ℤ → ℂ} : (∃ s, gridder cfg npix nrow nchan ur uc uvw vis norm junk = .ok s) ↔ GridOk cfg nrow nchan ur uc := by
  constructor
  · rintro ⟨s, h⟩
    obtain ⟨conv, x, h1, h2, h3, h4, h5, h6, h7, h8, -⟩ := gridder_cases h
    exact ⟨⟨conv, h1⟩, ⟨x, h2⟩, h3, h4, h5, h6, h7, h8⟩
  · rintro ⟨⟨conv, h1⟩, ⟨x, h2⟩, h3, h4, h5, h6, h7, h8⟩
    unfold gridder
    rw [h1, h2, h3]
    simp only [bind, Except.bind]
    rw [if_neg (not_not.2 h4), if_neg h5, if_neg (not_not.2 h6), if_neg (not_not.2 h7), if_neg (not_not.2 h8)]
    exact ⟨_, rfl⟩

theorem normalise_spec (npix nb : Nat) (g : ℤ → ℂ) (w : Nat → ℝ) (b : Nat) (v u : ℤ) (h : inGrid npix v u) :
    normaliseGrid npix nb w g (cell npix b v u) =
      if b < nb then g (cell npix b v u) / ((w b + 1 / 100000000 : ℝ) : ℂ) else g (cell npix b v u) := by
  unfold normaliseGrid
  induction nb with
  | zero => simp
  | succ n ih =>
    rw [forRange_succ]
    simp only [cell_band h]
    rw [ih]
    by_cases hb : b = n
    · subst hb; simp
    · rw [if_neg hb]
      by_cases hlt : b < n
      · rw [if_pos hlt, if_pos (by omega)]
      · rw [if_neg hlt, if_neg (by omega)]

/-- The result of the gridder: every cell is the weighted sum of the Stokes values, divided by the divisor of its band; and the
arrays of the caller afterwards. -/
theorem gridder_value {cfg : Cfg} {npix nrow nchan ur uc : Nat} {uvw : Nat → ℝ} {vis : Nat → Nat → Nat → ℂ} {norm : Bool}
    {junk : ℤ → ℂ} {s : GridState} (h : gridder cfg npix nrow nchan ur uc uvw vis norm junk = .ok s) :
    (∀ b v u, b < nband cfg.nmap cfg.chanmap → inGrid npix v u → s.grid (cell npix b v u) =
      (∑ r ∈ range nrow, ∑ c ∈ range nchan, (kappa cfg.conv cfg.kern npix (cfg.chanmap c)
        (scaled cfg npix uvw r c 0) (scaled cfg npix uvw r c 1) (cell npix b v u) : ℂ) * stokesVal cfg uvw vis r c) /
        divisor cfg npix nrow nchan uvw norm b) ∧
    (∀ r j, j < 3 → s.uvw (3 * r + j) = if r < nrow then rowCoord cfg cfg.phaseCentre cfg.imageCentre uvw r j else uvw (3 * r + j)) ∧
    (∀ r, s.vis r = if r < nrow then phased cfg uvw vis r else vis r) := by
  obtain ⟨conv, x, h1, h2, h3, h4, h5, h6, h7, h8, hs⟩ := gridder_cases h
  simp only [] at hs
  obtain ⟨g1, g2, g3, g4⟩ := gridRows_spec cfg conv h1 npix nchan nrow (zeroGrid npix (nband cfg.nmap cfg.chanmap) junk) uvw vis
  generalize (forRange nrow { grid := zeroGrid npix (nband cfg.nmap cfg.chanmap) junk, wt := fun _ => 0, uvw := uvw, vis := vis }
          fun r s => gridRow cfg conv npix nchan r s) = t at *
  refine ⟨?_, ?_, ?_⟩
  · intro b v u hb hin
    have hz := g3 (cell npix b v u)
    rw [zeroGrid, if_pos (cell_range hin hb), zero_add] at hz
    cases norm with
    | false =>
      rw [hs]
      simp only [divisor, Bool.false_eq_true, if_false, div_one]
      exact hz
    | true =>
      rw [hs]
      simp only [if_true, divisor]
      rw [normalise_spec npix _ _ _ b v u hin, if_pos hb, hz, g4 b]
      rfl
  · rw [hs]
    cases norm <;> exact g1
  · rw [hs]
    cases norm <;> exact g2

/-! ## Degridding -/

set_option maxHeartbeats 1000000 in
/-- Converting a Stokes value to correlations adds multiples of it. -/
theorem stokes2corr_affine {p : String} (h : p ∈ toCorrNames) :
    ∃ coef : Nat → ℂ, ∀ s v, stokes2corr p s v = .ok (fun i => v i + coef i * s) := by
  have key : ∀ f : ℂ → (Nat → ℂ) → Except PyErr (Nat → ℂ), ∀ a b c d : ℂ,
      (∀ s v, f s v = .ok (addAt (addAt (addAt (addAt v 0 (a * s)) 1 (b * s)) 2 (c * s)) 3 (d * s))) →
      ∃ coef : Nat → ℂ, ∀ s v, f s v = .ok (fun i => v i + coef i * s) := by
    intro f a b c d hf
    refine ⟨fun i => if i = 0 then a else if i = 1 then b else if i = 2 then c else if i = 3 then d else 0, fun s v => ?_⟩
    rw [hf]
    congr 1
    funext i
    simp only [addAt, Function.update]
    rcases i with _ | _ | _ | _ | i <;> simp
  have two : ∀ (v : Nat → ℂ) (x y s : ℂ), addAt (addAt v 0 x) 1 y = addAt (addAt (addAt (addAt v 0 x) 1 y) 2 (0 * s)) 3 (0 * s) := by
    intro v x y s
    funext i
    simp only [addAt, Function.update]
    rcases i with _ | _ | _ | _ | i <;> simp
  simp only [toCorrNames, List.mem_cons, List.not_mem_nil, or_false] at h
  rcases h with h | h | h | h | h | h | h | h | h | h | h | h | h | h | h | h <;> subst h
  · exact key _ 1 1 0 0 fun s v => by rw [← two]; simp only [one_mul]; rfl
  · exact key _ 1 0 0 1 fun s v => by simp only [one_mul, zero_mul]; rfl
  · exact key _ 1 1 0 0 fun s v => by rw [← two]; simp only [one_mul]; rfl
  · exact key _ 1 0 0 1 fun s v => by simp only [one_mul, zero_mul]; rfl
  · exact key _ 1 (-1) 0 0 fun s v => by rw [← two]; simp only [one_mul, neg_mul]; rfl
  · exact key _ 1 0 0 (-1) fun s v => by simp only [one_mul, zero_mul, neg_mul]; rfl
  · exact key _ 1 1 0 0 fun s v => by rw [← two]; simp only [one_mul]; rfl
  · exact key _ 0 1 1 0 fun s v => by simp only [one_mul, zero_mul]; rfl
  · exact key _ 1 1 0 0 fun s v => by rw [← two]; simp only [one_mul]; rfl
  · exact key _ 0 1 1 0 fun s v => by simp only [one_mul, zero_mul]; rfl
  · exact key _ Complex.I (-Complex.I) 0 0 fun s v => by rw [← two]; rfl
  · exact key _ 0 Complex.I (-Complex.I) 0 fun s v => by simp only [zero_mul]; rfl
  · exact key _ Complex.I (-Complex.I) 0 0 fun s v => by rw [← two]; rfl
  · exact key _ 0 Complex.I (-Complex.I) 0 fun s v => by simp only [zero_mul]; rfl
  · exact key _ 1 (-1) 0 0 fun s v => by rw [← two]; simp only [one_mul, neg_mul]; rfl
  · exact key _ 1 0 0 (-1) fun s v => by simp only [one_mul, zero_mul, neg_mul]; rfl

theorem sum_taps (tap : Kern → Nat → ℝ → Nat → ℝ) (k : Kern) (npix : Nat) (s : ℝ) (f : ℤ → ℂ) :
    ∑ t ∈ range k.W, (if 0 ≤ lookup k npix s t ∧ lookup k npix s t < npix then (tap k npix s t : ℂ) * f (lookup k npix s t) else 0) =
      ∑ g ∈ range npix, (tapAt tap k npix s g : ℂ) * f g := by
  have e : ∀ g ∈ range npix, (tapAt tap k npix s (g : ℤ) : ℂ) * f g =
      ∑ t ∈ range k.W, if lookup k npix s t = g then (tap k npix s t : ℂ) * f g else 0 := by
    intro g _
    rw [← sum_tap tap k npix s g (fun x => x) rfl]
    push_cast
    rw [sum_mul]
    refine sum_congr rfl fun t _ => ?_
    split_ifs <;> simp
  rw [sum_congr rfl e, sum_comm]
  refine sum_congr rfl fun t _ => ?_
  split_ifs with h
  · rw [sum_eq_single (lookup k npix s t).toNat]
    · rw [if_pos (by omega)]
      congr 2
      omega
    · intro g _ hg
      rw [if_neg (by omega)]
    · intro hn
      rw [mem_range] at hn
      omega
  · refine (sum_eq_zero fun g hg => ?_).symm
    rw [mem_range] at hg
    rw [if_neg (by omega)]

/-- The value that a gather policy collects from the grid. -/
noncomputable def gathered (tap : Kern → Nat → ℝ → Nat → ℝ) (k : Kern) (npix b : Nat) (su sv : ℝ) (grid : ℤ → ℂ) : ℂ :=
  ∑ v ∈ range npix, ∑ u ∈ range npix, (tapAt tap k npix sv v : ℂ) * (tapAt tap k npix su u : ℂ) * grid (cell npix b v u)

/-- The weight of the taps inside the grid. -/
noncomputable def weightIn (tap : Kern → Nat → ℝ → Nat → ℝ) (k : Kern) (npix : Nat) (su sv : ℝ) : ℝ :=
  ∑ v ∈ range npix, ∑ u ∈ range npix, tapAt tap k npix sv v * tapAt tap k npix su u

theorem gather_sum (tap : Kern → Nat → ℝ → Nat → ℝ) (k : Kern) (npix : Nat) (su sv : ℝ) (f : ℤ → ℤ → ℂ) :
    ∑ tv ∈ range k.W, ∑ tu ∈ range k.W, (if inGrid npix (lookup k npix sv tv) (lookup k npix su tu) then
      f (lookup k npix sv tv) (lookup k npix su tu) * (tap k npix sv tv : ℂ) * (tap k npix su tu : ℂ) else 0) =
    ∑ v ∈ range npix, ∑ u ∈ range npix, (tapAt tap k npix sv v : ℂ) * (tapAt tap k npix su u : ℂ) * f v u := by
  have e : ∀ tv ∈ range k.W, ∑ tu ∈ range k.W, (if inGrid npix (lookup k npix sv tv) (lookup k npix su tu) then
      f (lookup k npix sv tv) (lookup k npix su tu) * (tap k npix sv tv : ℂ) * (tap k npix su tu : ℂ) else 0) =
      if 0 ≤ lookup k npix sv tv ∧ lookup k npix sv tv < npix then (tap k npix sv tv : ℂ) *
        (∑ u ∈ range npix, (tapAt tap k npix su u : ℂ) * f (lookup k npix sv tv) u) else 0 := by
    intro tv _
    split_ifs with h
    · rw [← sum_taps tap k npix su (f (lookup k npix sv tv)), mul_sum]
      refine sum_congr rfl fun tu _ => ?_
      by_cases h2 : 0 ≤ lookup k npix su tu ∧ lookup k npix su tu < npix
      · rw [if_pos h2, if_pos ⟨h.1, h.2, h2.1, h2.2⟩]; ring
      · rw [if_neg h2, if_neg (fun hh => h2 ⟨hh.2.2.1, hh.2.2.2⟩), mul_zero]
    · refine sum_eq_zero fun tu _ => ?_
      rw [if_neg (fun hh => h ⟨hh.1, hh.2.1⟩)]
  rw [sum_congr rfl e, sum_taps tap k npix sv (fun v => ∑ u ∈ range npix, (tapAt tap k npix su u : ℂ) * f v u)]
  refine sum_congr rfl fun v _ => ?_
  rw [mul_sum]
  exact sum_congr rfl fun u _ => by ring

theorem gather_spec (tap : Kern → Nat → ℝ → Nat → ℝ) (k : Kern) (npix b : Nat) (su sv : ℝ) (st : String) (coef : Nat → ℂ)
    (hc : ∀ s v, stokes2corr st s v = .ok (fun i => v i + coef i * s)) (grid : ℤ → ℂ) (vis : Nat → ℂ) (i : Nat) :
    gather tap k npix b su sv st grid vis i = (vis i + coef i * gathered tap k npix b su sv grid) /
      ((weightIn tap k npix su sv + 1 / 100000000 : ℝ) : ℂ) := by
  unfold gather
  have h1 : (forRange k.W (vis, (0 : ℝ)) fun tv s => forRange k.W s fun tu s => gatherTap tap k npix b su sv st grid tv tu s).1 i =
      vis i + coef i * gathered tap k npix b su sv grid := by
    refine (forRange_sum (n := k.W) (init := (vis, (0 : ℝ)))
      (f := fun tv s => forRange k.W s fun tu s => gatherTap tap k npix b su sv st grid tv tu s)
      (obs := fun s : (Nat → ℂ) × ℝ => s.1 i) (g := fun tv => ∑ tu ∈ range k.W, coef i *
        (if inGrid npix (lookup k npix sv tv) (lookup k npix su tu) then
          grid (cell npix b (lookup k npix sv tv) (lookup k npix su tu)) * (tap k npix sv tv : ℂ) * (tap k npix su tu : ℂ) else 0))
      (fun tv _ s => forRange_sum (n := k.W) (init := s) (f := fun tu s => gatherTap tap k npix b su sv st grid tv tu s)
        (obs := fun s : (Nat → ℂ) × ℝ => s.1 i) (g := fun tu => coef i *
          (if inGrid npix (lookup k npix sv tv) (lookup k npix su tu) then
          grid (cell npix b (lookup k npix sv tv) (lookup k npix su tu)) * (tap k npix sv tv : ℂ) * (tap k npix su tu : ℂ) else 0))
        (fun tu _ s => ?_))).trans ?_
    · simp only [gatherTap, hc, okOr]
      split_ifs <;> simp
    · congr 1
      rw [gathered, ← gather_sum tap k npix su sv (fun v u => grid (cell npix b v u)), mul_sum]
      exact sum_congr rfl fun tv _ => by rw [mul_sum]
  have h2 : (((forRange k.W (vis, (0 : ℝ)) fun tv s => forRange k.W s fun tu s => gatherTap tap k npix b su sv st grid tv tu s).2 : ℝ) : ℂ) =
      (weightIn tap k npix su sv : ℂ) := by
    refine (forRange_sum (n := k.W) (init := (vis, (0 : ℝ)))
      (f := fun tv s => forRange k.W s fun tu s => gatherTap tap k npix b su sv st grid tv tu s)
      (obs := fun s : (Nat → ℂ) × ℝ => (s.2 : ℂ)) (g := fun tv => ∑ tu ∈ range k.W,
        (if inGrid npix (lookup k npix sv tv) (lookup k npix su tu) then
          1 * (tap k npix sv tv : ℂ) * (tap k npix su tu : ℂ) else 0))
      (fun tv _ s => forRange_sum (n := k.W) (init := s) (f := fun tu s => gatherTap tap k npix b su sv st grid tv tu s)
        (obs := fun s : (Nat → ℂ) × ℝ => (s.2 : ℂ)) (g := fun tu =>
          (if inGrid npix (lookup k npix sv tv) (lookup k npix su tu) then
          1 * (tap k npix sv tv : ℂ) * (tap k npix su tu : ℂ) else 0))
        (fun tu _ s => ?_))).trans ?_
    · simp only [gatherTap, one_mul]
      split_ifs <;> simp
    · rw [gather_sum tap k npix su sv (fun v u => 1)]
      simp [weightIn]
  have h2' := Complex.ofReal_injective h2
  show _ / _ = _
  rw [h1, h2']

/-- The tap of a gather policy, by name. -/
noncomputable def gatherTapOf (name : String) : Kern → Nat → ℝ → Nat → ℝ :=
  if name = "conv_1d_axisymmetric_packed_gather" then packedTap else unpackedTap

/-- The scaled coordinate of row `r` and channel `c` used by the degridder. -/
noncomputable def scaledD (cfg : Cfg) (npix : Nat) (uvw : Nat → ℝ) (r c j : Nat) : ℝ :=
  rowCoord cfg cfg.imageCentre cfg.phaseCentre uvw r j * scaleFactor npix cfg.cellsize / cfg.wavelengths c

/-- The visibility that the degridder collects from the grid, before the phase policy. -/
noncomputable def collected (cfg : Cfg) (npix : Nat) (coef : Nat → ℂ) (uvw : Nat → ℝ) (grid : ℤ → ℂ) (r c i : Nat) : ℂ :=
  coef i * gathered (gatherTapOf cfg.conv) cfg.kern npix (cfg.chanmap c) (scaledD cfg npix uvw r c 0) (scaledD cfg npix uvw r c 1) grid /
    ((weightIn (gatherTapOf cfg.conv) cfg.kern npix (scaledD cfg npix uvw r c 0) (scaledD cfg npix uvw r c 1) + 1 / 100000000 : ℝ) : ℂ)

theorem degridChans_spec (cfg : Cfg) (conv : Kern → Nat → Nat → ℝ → ℝ → String → (ℤ → ℂ) → (Nat → ℂ) → Nat → ℂ)
    (hconv : gatherPolicy cfg.conv = .ok conv) (coef : Nat → ℂ)
    (hc : ∀ s v, stokes2corr cfg.stokes s v = .ok (fun i => v i + coef i * s)) (npix : Nat) (grid : ℤ → ℂ) (r n : Nat) (s : DegridState) :
    let s' := forRange n s fun c s => degridChan cfg conv npix grid r c s
    s'.uvw = s.uvw ∧ (∀ r', r' ≠ r → s'.vis r' = s.vis r') ∧
    ∀ c i, s'.vis r c i = if c < n then (s.vis r c i + coef i * gathered (gatherTapOf cfg.conv) cfg.kern npix (cfg.chanmap c)
        (s.uvw (3 * r) * scaleFactor npix cfg.cellsize / cfg.wavelengths c)
        (s.uvw (3 * r + 1) * scaleFactor npix cfg.cellsize / cfg.wavelengths c) grid) /
        ((weightIn (gatherTapOf cfg.conv) cfg.kern npix (s.uvw (3 * r) * scaleFactor npix cfg.cellsize / cfg.wavelengths c)
        (s.uvw (3 * r + 1) * scaleFactor npix cfg.cellsize / cfg.wavelengths c) + 1 / 100000000 : ℝ) : ℂ) else s.vis r c i := by
  have hg : ∀ k npix b su sv g v, conv k npix b su sv cfg.stokes g v = gather (gatherTapOf cfg.conv) k npix b su sv cfg.stokes g v := by
    unfold gatherPolicy at hconv
    unfold gatherTapOf
    intro k npix b su sv g v
    split_ifs at hconv with h1 h2
    · cases hconv; rw [if_pos h1]
    · cases hconv; rw [if_neg h1]
  induction n with
  | zero => simp
  | succ n ih =>
    obtain ⟨h1, h2, h3⟩ := ih
    simp only [forRange_succ]
    generalize forRange n s (fun c s => degridChan cfg conv npix grid r c s) = t at *
    refine ⟨h1, ?_, ?_⟩
    · intro r' hr'
      simp only [degridChan]
      rw [Function.update_of_ne hr', h2 r' hr']
    · intro c i
      simp only [degridChan, Function.update_self]
      by_cases hcn : c = n
      · subst hcn
        rw [Function.update_self, if_pos (by omega), hg, gather_spec _ _ _ _ _ _ _ coef hc, h1]
        have := h3 c i
        rw [if_neg (lt_irrefl _)] at this
        rw [this]
      · rw [Function.update_of_ne hcn, h3 c i]
        by_cases hlt : c < n
        · rw [if_pos hlt, if_pos (by omega)]
        · rw [if_neg hlt, if_neg (by omega)]

theorem degridder_cases {cfg : Cfg} {gb npix nx nrow uc : Nat} {uvw : Nat → ℝ} {grid : ℤ → ℂ} {s : DegridState}
    (h : degridder cfg gb npix nx nrow uc uvw grid = .ok s) :
    ∃ conv n, gatherPolicy cfg.conv = .ok conv ∧ ncorrOut cfg.stokes = .ok n ∧ resolve cfg = .ok () ∧
      cfg.nmap = cfg.nlam ∧ cfg.nmap ≠ 0 ∧ npix = nx ∧ nband cfg.nmap cfg.chanmap ≤ gb ∧ uc = 3 ∧
      s = forRange nrow { uvw := uvw, vis := fun _ _ _ => 0 } fun r s => degridRow cfg conv npix cfg.nlam grid r s := by
  unfold degridder at h
  cases h1 : gatherPolicy cfg.conv with
  | error e => rw [h1] at h; cases h
  | ok conv =>
  cases h2 : ncorrOut cfg.stokes with
  | error e => rw [h1, h2] at h; cases h
  | ok n =>
  cases h3 : resolve cfg with
  | error e => rw [h1, h2, h3] at h; cases h
  | ok y =>
  rw [h1, h2, h3] at h
  simp only [bind, Except.bind] at h
  by_cases c1 : cfg.nmap ≠ cfg.nlam
  · rw [if_pos c1] at h; cases h
  rw [if_neg c1] at h
  by_cases c2 : cfg.nmap = 0
  · rw [if_pos c2] at h; cases h
  rw [if_neg c2] at h
  by_cases c3 : npix ≠ nx
  · rw [if_pos c3] at h; cases h
  rw [if_neg c3] at h
  by_cases c4 : gb < nband cfg.nmap cfg.chanmap
  · rw [if_pos c4] at h; cases h
  rw [if_neg c4] at h
  by_cases c5 : uc ≠ 3
  · rw [if_pos c5] at h; cases h
  rw [if_neg c5] at h
  exact ⟨conv, n, rfl, rfl, rfl, not_not.1 c1, c2, not_not.1 c3, by omega, not_not.1 c5, (Except.ok.inj h).symm⟩

/-- The conditions under which the degridder returns. -/
def DegridOk (cfg : Cfg) (gb npix nx uc : Nat) : Prop :=
  (∃ conv, gatherPolicy cfg.conv = .ok conv) ∧ (∃ n, ncorrOut cfg.stokes = .ok n) ∧ resolve cfg = .ok () ∧
    cfg.nmap = cfg.nlam ∧ cfg.nmap ≠ 0 ∧ npix = nx ∧ nband cfg.nmap cfg.chanmap ≤ gb ∧ uc = 3

theorem degridder_ok_iff {cfg : Cfg} {gb npix nx nrow uc : Nat} {uvw : Nat → ℝ} {grid : ℤ → ℂ} :
    (∃ s, degridder cfg gb npix nx nrow uc uvw grid = .ok s) ↔ DegridOk cfg gb npix nx uc := by
  constructor
  · rintro ⟨s, h⟩
    obtain ⟨conv, n, h1, h2, h3, h4, h5, h6, h7, h8, -⟩ := degridder_cases h
    exact ⟨⟨conv, h1⟩, ⟨n, h2⟩, h3, h4, h5, h6, h7, h8⟩
  · rintro ⟨⟨conv, h1⟩, ⟨n, h2⟩, h3, h4, h5, h6, h7, h8⟩
    unfold degridder
    rw [h1, h2, h3]
    simp only [bind, Except.bind]
    rw [if_neg (not_not.2 h4), if_neg h5, if_neg (not_not.2 h6), if_neg (by omega), if_neg (not_not.2 h8)]
    exact ⟨_, rfl⟩

/-- The visibilities returned by the degridder. -/
noncomputable def degridVis (cfg : Cfg) (npix : Nat) (coef : Nat → ℂ) (uvw : Nat → ℝ) (grid : ℤ → ℂ) (r : Nat) : Nat → Nat → ℂ :=
  let v : Nat → Nat → ℂ := fun c i => if c < cfg.nlam then collected cfg npix coef uvw grid r c i else 0
  okOr v (phasePolicy cfg.phase v (rowCoord cfg cfg.imageCentre cfg.phaseCentre uvw r 0)
      (rowCoord cfg cfg.imageCentre cfg.phaseCentre uvw r 1) (rowCoord cfg cfg.imageCentre cfg.phaseCentre uvw r 2) cfg.wavelengths
      cfg.phaseCentre cfg.imageCentre (-1))

theorem degridder_value {cfg : Cfg} {gb npix nx nrow uc : Nat} {uvw : Nat → ℝ} {grid : ℤ → ℂ} {s : DegridState}
    (h : degridder cfg gb npix nx nrow uc uvw grid = .ok s) (coef : Nat → ℂ)
    (hc : ∀ s v, stokes2corr cfg.stokes s v = .ok (fun i => v i + coef i * s)) :
    (∀ r, s.vis r = if r < nrow then degridVis cfg npix coef uvw grid r else fun _ _ => 0) ∧
    ∀ r j, j < 3 → s.uvw (3 * r + j) = if r < nrow then rowCoord cfg cfg.imageCentre cfg.phaseCentre uvw r j else uvw (3 * r + j) := by
  obtain ⟨conv, n, h1, h2, h3, h4, h5, h6, h7, h8, rfl⟩ := degridder_cases h
  clear h
  induction nrow with
  | zero => simp
  | succ n ih =>
    obtain ⟨i1, i2⟩ := ih
    simp only [forRange_succ]
    generalize forRange n { uvw := uvw, vis := fun _ _ _ => 0 } (fun r s => degridRow cfg conv npix cfg.nlam grid r s) = t at *
    have hge : ∀ i, 3 * n ≤ i → t.uvw i = uvw i := by
      intro i hi
      have := i2 (i / 3) (i % 3) (Nat.mod_lt _ (by omega))
      rw [if_neg (by omega), Nat.div_add_mod] at this
      exact this
    have hcoord : ∀ i, 3 * n ≤ i → okOr t.uvw (baselinePolicy cfg.baseline t.uvw (3 * n) cfg.imageCentre cfg.phaseCentre) i =
        okOr uvw (baselinePolicy cfg.baseline uvw (3 * n) cfg.imageCentre cfg.phaseCentre) i :=
      fun i hi => baseline_same cfg.baseline t.uvw uvw (3 * n) _ _ hge i hi
    have hv : t.vis n = fun _ _ => 0 := by rw [i1, if_neg (lt_irrefl _)]
    obtain ⟨k1, k2, k3⟩ := degridChans_spec cfg conv h1 coef hc npix grid n cfg.nlam
      { t with uvw := okOr t.uvw (baselinePolicy cfg.baseline t.uvw (3 * n) cfg.imageCentre cfg.phaseCentre) }
    unfold degridRow
    simp only []
    generalize forRange cfg.nlam
      { t with uvw := okOr t.uvw (baselinePolicy cfg.baseline t.uvw (3 * n) cfg.imageCentre cfg.phaseCentre) }
      (fun c s => degridChan cfg conv npix grid n c s) = w at *
    have hw : w.vis n = fun c i => if c < cfg.nlam then collected cfg npix coef uvw grid n c i else 0 := by
      funext c i
      rw [k3 c i]
      simp only [hv, hcoord (3 * n) le_rfl, hcoord (3 * n + 1) (Nat.le_succ _), zero_add]
      rfl
    constructor
    · intro r
      by_cases hr : r = n
      · subst hr
        rw [Function.update_self, if_pos (by omega), hw, k1]
        simp only [hcoord (3 * r) le_rfl, hcoord (3 * r + 1) (by omega), hcoord (3 * r + 2) (by omega)]
        rfl
      · rw [Function.update_of_ne hr, k2 r hr]
        show t.vis r = _
        rw [i1]
        by_cases h' : r < n
        · rw [if_pos h', if_pos (by omega)]
        · rw [if_neg h', if_neg (by omega)]
    · intro r j hj
      show w.uvw _ = _
      rw [k1]
      show okOr t.uvw (baselinePolicy cfg.baseline t.uvw (3 * n) cfg.imageCentre cfg.phaseCentre) (3 * r + j) = _
      rcases Nat.lt_trichotomy r n with h | h | h
      · rw [baseline_other _ _ _ _ _ _ (by omega), i2 r j hj, if_pos h, if_pos (by omega)]
      · subst h
        rw [hcoord _ (by omega), if_pos (by omega)]
        rfl
      · rw [baseline_other _ _ _ _ _ _ (by omega), i2 r j hj, if_neg (by omega), if_neg (by omega)]

end Verif.Gridding
