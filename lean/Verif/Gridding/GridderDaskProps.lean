/-
C77, C101, C102 and C106: the dask versions of the gridder and the degridder.
-/
import Verif.Gridding.GridderDask
import Verif.Gridding.GridderProps

set_option autoImplicit false

namespace Verif.Gridding

open Finset

/-! ## C101 -/

/-- C101, part proved: with the policies "None" the gridder leaves the caller's `uvw` and `vis` as they are. -/
theorem C101_arguments_partial (cfg : Cfg) (hp : cfg.phase = "None") (hb : cfg.baseline = "None") (npix nrow nchan ur uc : Nat)
    (uvw : Nat → ℝ) (vis : Nat → Nat → Nat → ℂ) (norm : Bool) (junk : ℤ → ℂ) (s : GridState)
    (h : gridder cfg npix nrow nchan ur uc uvw vis norm junk = .ok s) : s.uvw = uvw ∧ s.vis = vis := by
  obtain ⟨-, h2, h3⟩ := gridder_value h
  constructor
  · funext i
    have := h2 (i / 3) (i % 3) (Nat.mod_lt _ (by norm_num))
    rw [Nat.div_add_mod] at this
    rw [this]
    unfold rowCoord
    rw [hb, baselinePolicy, if_pos rfl, okOr, Nat.div_add_mod, ite_self]
  · funext r
    rw [h3, phased, hp, phasePolicy, if_pos rfl, okOr, ite_self]

/-- The loop over facets, for as many facets as the loop has done. -/
theorem gridBlock_spec (cfg : Cfg) (centres : Nat → RaDec) (npix nrow nchan ur uc : Nat) (uvw : Nat → ℝ) (vis : Nat → Nat → Nat → ℂ)
    (norm : Bool) (junk : ℤ → ℂ) (nf : Nat) (hok : GridOk cfg nrow nchan ur uc) :
    ∃ b, gridBlock cfg centres nf npix nrow nchan ur uc uvw vis norm junk = .ok b ∧
      (cfg.phase = "None" → cfg.baseline = "None" → b.uvw = uvw ∧ b.vis = vis) ∧
      ∀ f, f < nf → (f = 0 ∨ cfg.phase = "None" ∧ cfg.baseline = "None") →
        ∃ s, gridder { cfg with imageCentre := centres f } npix nrow nchan ur uc uvw vis norm junk = .ok s ∧ b.stack f = s.grid := by
  have hres : ∀ c : RaDec, resolve { cfg with imageCentre := c } = .ok () := by
    intro c
    have h := hok.2.2.1
    unfold resolve at h ⊢
    revert h
    unfold phasePolicy baselinePolicy
    split_ifs <;> intro h <;> first | rfl | cases h
  have hok' : ∀ c : RaDec, GridOk { cfg with imageCentre := c } nrow nchan ur uc := fun c =>
    ⟨hok.1, hok.2.1, hres c, hok.2.2.2⟩
  unfold gridBlock
  obtain ⟨b, hb, hP⟩ := forRangeM_ok_inv (n := nf) (init := ({ uvw := uvw, vis := vis, stack := fun _ _ => 0 } : BlockState))
    (f := fun f b => gridFacet cfg centres npix nrow nchan ur uc norm junk f b)
    (P := fun n b => (n = 0 → b.uvw = uvw ∧ b.vis = vis) ∧ (cfg.phase = "None" → cfg.baseline = "None" → b.uvw = uvw ∧ b.vis = vis) ∧
      ∀ f, f < n → (f = 0 ∨ cfg.phase = "None" ∧ cfg.baseline = "None") →
        ∃ s, gridder { cfg with imageCentre := centres f } npix nrow nchan ur uc uvw vis norm junk = .ok s ∧ b.stack f = s.grid)
    ⟨fun _ => ⟨rfl, rfl⟩, fun _ _ => ⟨rfl, rfl⟩, fun f hf => absurd hf (by omega)⟩ (by
      intro i b hi hPi
      obtain ⟨s, hs⟩ := (gridder_ok_iff (npix := npix) (uvw := b.uvw) (vis := b.vis) (norm := norm) (junk := junk)).2
        (hok' (centres i))
      refine ⟨{ uvw := s.uvw, vis := s.vis, stack := Function.update b.stack i s.grid }, ?_, by omega, ?_, ?_⟩
      · unfold gridFacet
        rw [hs]
        rfl
      · intro h1 h2
        obtain ⟨e1, e2⟩ := C101_arguments_partial { cfg with imageCentre := centres i } h1 h2 _ _ _ _ _ _ _ _ _ _ hs
        obtain ⟨e3, e4⟩ := hPi.2.1 h1 h2
        exact ⟨e1.trans e3, e2.trans e4⟩
      · intro f hf hcase
        by_cases hfi : f = i
        · subst hfi
          have : b.uvw = uvw ∧ b.vis = vis := by
            rcases hcase with h0 | ⟨h1, h2⟩
            · exact hPi.1 h0
            · exact hPi.2.1 h1 h2
          rw [this.1, this.2] at hs
          exact ⟨s, hs, Function.update_self _ _ _⟩
        · obtain ⟨s', hs', he⟩ := hPi.2.2 f (by omega) hcase
          refine ⟨s', hs', ?_⟩
          show Function.update b.stack i s.grid f = _
          rw [Function.update_of_ne hfi, he])
  exact ⟨b, hb, hP.2⟩

/-- C101, part proved: the grid of a facet is the one that gridding this facet alone gives, for the first facet and, with the policies
"None", for every facet. Missing: later facets with a phase or baseline transform, see `C101_violated`. -/
theorem C101_facets_partial (cfg : Cfg) (centres : Nat → RaDec) (npix nrow nchan ur uc : Nat) (uvw : Nat → ℝ)
    (vis : Nat → Nat → Nat → ℂ) (norm : Bool) (junk : ℤ → ℂ) (nf : Nat) (b : BlockState) (hnf : 0 < nf)
    (h : gridBlock cfg centres nf npix nrow nchan ur uc uvw vis norm junk = .ok b) (f : Nat) (hf : f < nf)
    (hcase : f = 0 ∨ cfg.phase = "None" ∧ cfg.baseline = "None") :
    ∃ s, gridder { cfg with imageCentre := centres f } npix nrow nchan ur uc uvw vis norm junk = .ok s ∧ b.stack f = s.grid := by
  have hok : GridOk cfg nrow nchan ur uc := by
    have h0 : ∃ s, gridder { cfg with imageCentre := centres 0 } npix nrow nchan ur uc uvw vis norm junk = .ok s := by
      cases hg : gridder { cfg with imageCentre := centres 0 } npix nrow nchan ur uc uvw vis norm junk with
      | ok s => exact ⟨s, rfl⟩
      | error e =>
        exfalso
        have : ∀ n, 0 < n → forRangeM n ({ uvw := uvw, vis := vis, stack := fun _ _ => 0 } : BlockState)
            (fun f b => gridFacet cfg centres npix nrow nchan ur uc norm junk f b) = .error e := by
          intro n hn
          induction n with
          | zero => omega
          | succ n ih =>
            rw [forRangeM_succ]
            by_cases h0 : n = 0
            · subst h0
              show gridFacet _ _ _ _ _ _ _ _ _ _ _ = _
              unfold gridFacet
              simp only [hg]
              rfl
            · rw [ih (by omega)]
              rfl
        unfold gridBlock at h
        rw [this nf hnf] at h
        cases h
    obtain ⟨q1, q2, q3, q4⟩ := gridder_ok_iff.1 h0
    refine ⟨q1, q2, ?_, q4⟩
    unfold resolve at q3 ⊢
    revert q3
    unfold phasePolicy baselinePolicy
    split_ifs <;> intro h <;> first | rfl | cases h
  obtain ⟨b', hb', -, hs⟩ := gridBlock_spec cfg centres npix nrow nchan ur uc uvw vis norm junk nf hok
  rw [h] at hb'
  cases hb'
  exact hs f hf hcase

/-- `n` channels of wavelength one, all in band zero. -/
noncomputable def originCfg (phase : String) (n : Nat := 1) : Cfg :=
  { unitCfg 4 "None" "I_FROM_XXYY" "conv_1d_axisymmetric_packed_scatter" (Real.pi / 2, 0) with phase := phase, nlam := n, nmap := n }

theorem origin_grid (phase : String) (hphase : phase = "None" ∨ phase = "phase_rotate") (nrow n : Nat) (hn : 0 < n) (uvw : Nat → ℝ)
    (h0 : ∀ r, uvw (3 * r) = 0 ∧ uvw (3 * r + 1) = 0) (vis : Nat → Nat → Nat → ℂ) :
    ∃ s, gridder (originCfg phase n) 4 nrow n nrow 3 uvw vis false (fun _ => 0) = .ok s ∧
      s.grid (cell 4 0 2 2) = ∑ r ∈ range nrow, ∑ c ∈ range n, stokesVal (originCfg phase n) uvw vis r c := by
  obtain ⟨s, hs⟩ := (gridder_ok_iff (cfg := originCfg phase n) (npix := 4) (nrow := nrow) (nchan := n) (ur := nrow) (uc := 3) (uvw := uvw)
    (vis := vis) (norm := false) (junk := fun _ => 0)).2
    ⟨⟨_, rfl⟩, ⟨_, rfl⟩, by rcases hphase with rfl | rfl <;> rfl, rfl, by simp [originCfg]; omega, rfl, rfl, rfl⟩
  refine ⟨s, hs, ?_⟩
  rw [C76_value _ (show "conv_1d_axisymmetric_packed_scatter" ∈ oneDim by decide) _ _ _ _ _ _ _ _ _ hs 0 2 2
    (lt_nband (n := n) (c := 0) (chanmap := fun _ => 0) hn) (by simp [inGrid])]
  refine sum_congr rfl fun r _ => sum_congr rfl fun c _ => ?_
  refine (if_pos rfl).trans ?_
  have s0 : scaled (originCfg phase n) 4 uvw r c 0 = ((0 : ℤ) : ℝ) := by
    show uvw (3 * r + 0) * scaleFactor 4 _ / 1 = _
    rw [add_zero, (h0 r).1]
    simp
  have s1 : scaled (originCfg phase n) 4 uvw r c 1 = ((0 : ℤ) : ℝ) := by
    show uvw (3 * r + 1) * scaleFactor 4 _ / 1 = _
    rw [(h0 r).2]
    simp
  rw [s0, s1]
  show ((tapAt _ unitKern 4 _ _ * tapAt _ unitKern 4 _ _ : ℝ) : ℂ) * _ = _
  rw [unit_tap, disc_int, if_pos (by norm_num)]
  simp

theorem origin_phased (uvw : Nat → ℝ) (r : Nat) (h0 : uvw (3 * r) = 0 ∧ uvw (3 * r + 1) = 0 ∧ uvw (3 * r + 2) = -1 / 2)
    (vis : Nat → Nat → Nat → ℂ) (c i : Nat) : phased (originCfg "phase_rotate") uvw vis r c i = -vis r c i := by
  have hl : phaseLmn (0, 0) (Real.pi / 2, 0) = (1, 0, -1) := by
    simp [phaseLmn]
  show phaseRotate (vis r) _ _ _ (fun _ => 1) (0, 0) (Real.pi / 2, 0) 1 c i = _
  simp only [phaseRotate, hl]
  have hx : 1 * 2 * Real.pi * (uvw (3 * r) * 1 + uvw (3 * r + 1) * 0 + uvw (3 * r + 2) * -1) / 1 = Real.pi := by
    rw [h0.1, h0.2.1, h0.2.2]
    ring
  rw [hx, Real.cos_pi, Real.sin_pi]
  push_cast
  ring

/-- C101 is violated with a phase transform: the gridder changes the caller's visibilities, and of two facets with the same centre
the second gets other values than the first. -/
theorem C101_violated : ∃ (uvw : Nat → ℝ) (vis : Nat → Nat → Nat → ℂ) (s : GridState) (b : BlockState),
    gridder (originCfg "phase_rotate") 4 1 1 1 3 uvw vis false (fun _ => 0) = .ok s ∧ vis 0 0 0 = 1 ∧ s.vis 0 0 0 = -1 ∧
    gridBlock (originCfg "phase_rotate") (fun _ => (Real.pi / 2, 0)) 2 4 1 1 1 3 uvw vis false (fun _ => 0) = .ok b ∧
    b.stack 0 (cell 4 0 2 2) = -1 ∧ b.stack 1 (cell 4 0 2 2) = 1 := by
  obtain ⟨uvw, huvw⟩ : ∃ uvw : Nat → ℝ, ∀ r, uvw (3 * r) = 0 ∧ uvw (3 * r + 1) = 0 ∧ uvw (3 * r + 2) = -1 / 2 :=
    ⟨fun i => if i % 3 = 2 then -1 / 2 else 0, fun r => ⟨if_neg (by omega), if_neg (by omega), if_pos (by omega)⟩⟩
  have ho : ∀ r, uvw (3 * r) = 0 ∧ uvw (3 * r + 1) = 0 := fun r => ⟨(huvw r).1, (huvw r).2.1⟩
  obtain ⟨s, hs, hg⟩ := origin_grid "phase_rotate" (Or.inr rfl) 1 1 one_pos uvw ho (fun _ _ _ => 1)
  obtain ⟨-, hu, hv⟩ := gridder_value hs
  have hv0 : ∀ r c i, s.vis r c i = if r < 1 then -1 else 1 := by
    intro r c i
    rw [hv]
    split_ifs with h
    · exact origin_phased uvw r (huvw r) _ c i
    · rfl
  have hu0 : ∀ r, s.uvw (3 * r) = 0 ∧ s.uvw (3 * r + 1) = 0 ∧ s.uvw (3 * r + 2) = -1 / 2 := by
    have key : ∀ r j, j < 3 → s.uvw (3 * r + j) = uvw (3 * r + j) := by
      intro r j hj
      rw [hu r j hj]
      exact ite_self _
    intro r
    exact ⟨(key r 0 (by omega)).trans (huvw r).1, (key r 1 (by omega)).trans (huvw r).2.1, (key r 2 (by omega)).trans (huvw r).2.2⟩
  obtain ⟨s', hs', hg'⟩ := origin_grid "phase_rotate" (Or.inr rfl) 1 1 one_pos s.uvw (fun r => ⟨(hu0 r).1, (hu0 r).2.1⟩) s.vis
  refine ⟨uvw, fun _ _ _ => 1, s, { uvw := s'.uvw, vis := s'.vis, stack := Function.update (Function.update (fun _ _ => 0) 0 s.grid) 1 s'.grid },
    hs, rfl, ?_, ?_, ?_, ?_⟩
  · rw [hv0]; simp
  · unfold gridBlock
    have e : ({ originCfg "phase_rotate" with imageCentre := (Real.pi / 2, 0) } : Cfg) = originCfg "phase_rotate" := rfl
    rw [forRangeM_succ, forRangeM_succ, forRangeM_zero]
    have e1 : gridFacet (originCfg "phase_rotate") (fun _ => (Real.pi / 2, 0)) 4 1 1 1 3 false (fun _ => 0) 0
        { uvw := uvw, vis := fun _ _ _ => 1, stack := fun _ _ => 0 } =
        .ok { uvw := s.uvw, vis := s.vis, stack := Function.update (fun _ _ => 0) 0 s.grid } := by
      unfold gridFacet
      simp only [e, hs]
      rfl
    have e2 : gridFacet (originCfg "phase_rotate") (fun _ => (Real.pi / 2, 0)) 4 1 1 1 3 false (fun _ => 0) 1
        { uvw := s.uvw, vis := s.vis, stack := Function.update (fun _ _ => 0) 0 s.grid } =
        .ok { uvw := s'.uvw, vis := s'.vis, stack := Function.update (Function.update (fun _ _ => 0) 0 s.grid) 1 s'.grid } := by
      unfold gridFacet
      simp only [e, hs']
      rfl
    show (Except.bind (Except.bind (Except.ok _) _) _) = _
    simp only [Except.bind]
    rw [e1]
    exact e2
  · show Function.update (Function.update (fun _ _ => 0) 0 s.grid) 1 s'.grid 0 (cell 4 0 2 2) = -1
    rw [Function.update_of_ne (by norm_num), Function.update_self, hg, sum_range_one, sum_range_one, stokesVal]
    show okOr 0 (Except.ok ((phased _ uvw _ 0 0 0 + phased _ uvw _ 0 0 1) * (1 / 2))) = _
    rw [origin_phased uvw 0 (huvw 0), origin_phased uvw 0 (huvw 0)]
    norm_num [okOr]
  · show Function.update (Function.update (fun _ _ => 0) 0 s.grid) 1 s'.grid 1 (cell 4 0 2 2) = 1
    rw [Function.update_self, hg', sum_range_one, sum_range_one, stokesVal]
    show okOr 0 (Except.ok ((phased _ s.uvw _ 0 0 0 + phased _ s.uvw _ 0 0 1) * (1 / 2))) = _
    rw [origin_phased s.uvw 0 (hu0 0), origin_phased s.uvw 0 (hu0 0), hv0, hv0]
    norm_num [okOr]

/-! ## C77 -/

theorem gridBlock_rows (cfg : Cfg) (hbase : cfg.baseline = "None" ∨ cfg.baseline = "wlinapprox") (npix : Nat) (uvw : Nat → ℝ)
    (r0 r c j : Nat) (hj : j < 3) : scaled cfg npix (fun i => uvw (3 * r0 + i)) r c j = scaled cfg npix uvw (r0 + r) c j := by
  unfold scaled
  congr 2
  unfold rowCoord baselinePolicy
  rcases hbase with h | h <;> rw [h]
  · simp only [if_true, okOr]
    congr 1
    ring
  · have e1 : ¬ ("wlinapprox" = "None") := by decide
    have e2 : ¬ ("wlinapprox" = "rotate") := by decide
    simp only [if_neg e1, if_neg e2, if_true, okOr, uvwPlanar]
    have a0 : 3 * (r0 + r) = 3 * r0 + 3 * r := by ring
    have hj' : j = 0 ∨ j = 1 ∨ j = 2 := by omega
    rcases hj' with rfl | rfl | rfl <;> simp [Function.update, a0, add_assoc]

theorem stokes_rows (cfg : Cfg) (uvw : Nat → ℝ) (vis : Nat → Nat → Nat → ℂ) (r0 r c : Nat) :
    stokesVal cfg (fun i => uvw (3 * r0 + i)) (fun r => vis (r0 + r)) r c = stokesVal cfg uvw vis (r0 + r) c := by
  unfold stokesVal phased
  have a0 : 3 * (r0 + r) = 3 * r0 + 3 * r := by ring
  rw [a0]
  simp only [add_assoc]

/-- C77, part proved: for every chunking of the rows, the number of row chunks times the dask result is the grid of all rows, for the
first facet and, with the policies "None", for every facet. Not normalised, channels in one chunk, and not with the baseline policy
"rotate", which reads beyond its row. Missing: the factor, see `C77_violated`. -/
theorem C77_rows_partial (cfg : Cfg) (hbase : cfg.baseline = "None" ∨ cfg.baseline = "wlinapprox") (hlen : cfg.nmap = cfg.nlam)
    (centres : Nat → RaDec) (nf npix : Nat) (rowChunks : List Nat) (hr : rowChunks ≠ []) (uvw : Nat → ℝ) (vis : Nat → Nat → Nat → ℂ)
    (junk : ℤ → ℂ) (f : Nat) (hf : f < nf) (hcase : f = 0 ∨ cfg.phase = "None" ∧ cfg.baseline = "None") (s : GridState)
    (h : gridder { cfg with imageCentre := centres f } npix rowChunks.sum cfg.nlam rowChunks.sum 3 uvw vis false junk = .ok s) :
    ∃ d, daskGridder cfg centres nf npix 3 rowChunks rowChunks [cfg.nlam] [cfg.nlam] [cfg.nlam] uvw vis false junk = .ok d ∧
      ∀ b v u, b < nband cfg.nmap cfg.chanmap → inGrid npix v u →
        (rowChunks.length : ℂ) * d f (cell npix b v u) = s.grid (cell npix b v u) := by
  obtain ⟨q1, q2, q3, q4, q5, q6, q7, q8⟩ := gridder_ok_iff.1 ⟨s, h⟩
  have ecfg : ({ cfg with nlam := blockSize [cfg.nlam] 0, nmap := blockSize [cfg.nlam] 0 } : Cfg) = cfg := by
    have : blockSize [cfg.nlam] 0 = cfg.nlam := rfl
    rw [this]
    cases cfg
    simp only at hlen
    subst hlen
    rfl
  have hres : resolve cfg = .ok () := by
    unfold resolve at q3 ⊢
    revert q3
    unfold phasePolicy baselinePolicy
    split_ifs <;> intro h <;> first | rfl | cases h
  have hblock : ∀ j, ∃ b, gridRowBlock cfg centres nf npix 3 rowChunks rowChunks [cfg.nlam] uvw vis false junk j = .ok b ∧
      ∀ bd v u, bd < nband cfg.nmap cfg.chanmap → inGrid npix v u → b.stack f (cell npix bd v u) =
        ∑ r ∈ range (blockSize rowChunks j), ∑ c ∈ range cfg.nlam,
          (kappa cfg.conv cfg.kern npix (cfg.chanmap c) (scaled { cfg with imageCentre := centres f } npix uvw (blockOff rowChunks j + r) c 0)
            (scaled { cfg with imageCentre := centres f } npix uvw (blockOff rowChunks j + r) c 1) (cell npix bd v u) : ℂ) *
            stokesVal { cfg with imageCentre := centres f } uvw vis (blockOff rowChunks j + r) c := by
    intro j
    obtain ⟨b, hb, -, hs⟩ := gridBlock_spec cfg centres npix (blockSize rowChunks j) cfg.nlam (blockSize rowChunks j) 3
      (fun i => uvw (3 * blockOff rowChunks j + i)) (fun r => vis (blockOff rowChunks j + r)) false junk nf
      ⟨q1, q2, hres, q4, q5, rfl, rfl, rfl⟩
    obtain ⟨t, ht, he⟩ := hs f hf hcase
    refine ⟨b, ?_, fun bd v u hbd hin => ?_⟩
    · unfold gridRowBlock
      rw [ecfg]
      exact hb
    · rw [he, (gridder_value ht).1 bd v u hbd hin, divisor, if_neg (by simp), div_one]
      refine sum_congr rfl fun r _ => sum_congr rfl fun c _ => ?_
      rw [gridBlock_rows { cfg with imageCentre := centres f } hbase npix uvw _ r c 0 (by norm_num),
        gridBlock_rows { cfg with imageCentre := centres f } hbase npix uvw _ r c 1 (by norm_num), stokes_rows]
  obtain ⟨total, ht, hP⟩ := forRangeM_ok_inv (n := rowChunks.length) (init := fun (_ : Nat) (_ : ℤ) => (0 : ℂ))
    (f := fun j acc => addBlock acc (gridRowBlock cfg centres nf npix 3 rowChunks rowChunks [cfg.nlam] uvw vis false junk j))
    (P := fun n acc => ∀ bd v u, bd < nband cfg.nmap cfg.chanmap → inGrid npix v u → acc f (cell npix bd v u) =
      ∑ j ∈ range n, ∑ r ∈ range (blockSize rowChunks j), ∑ c ∈ range cfg.nlam,
          (kappa cfg.conv cfg.kern npix (cfg.chanmap c) (scaled { cfg with imageCentre := centres f } npix uvw (blockOff rowChunks j + r) c 0)
            (scaled { cfg with imageCentre := centres f } npix uvw (blockOff rowChunks j + r) c 1) (cell npix bd v u) : ℂ) *
            stokesVal { cfg with imageCentre := centres f } uvw vis (blockOff rowChunks j + r) c) (by intros; simp) (by
      intro j acc hj hacc
      obtain ⟨b, hb, hv⟩ := hblock j
      refine ⟨fun f a => acc f a + b.stack f a, by rw [hb]; rfl, fun bd v u hbd hin => ?_⟩
      rw [sum_range_succ, ← hv bd v u hbd hin, ← hacc bd v u hbd hin])
  refine ⟨fun f a => total f a / (rowChunks.length : ℂ), ?_, fun bd v u hbd hin => ?_⟩
  · unfold daskGridder
    rw [if_neg (by simp), if_neg (by simp), if_neg (by simp), ht]
    rfl
  · have hne : (rowChunks.length : ℂ) ≠ 0 := by
      rw [Nat.cast_ne_zero]
      exact fun h => hr (List.length_eq_zero_iff.1 h)
    show (rowChunks.length : ℂ) * (total f (cell npix bd v u) / (rowChunks.length : ℂ)) = _
    rw [mul_div_cancel₀ _ hne, hP bd v u hbd hin]
    rw [(gridder_value h).1 bd v u hbd hin, divisor, if_neg (by simp), div_one]
    exact sum_blocks rowChunks (fun r => ∑ c ∈ range cfg.nlam,
          (kappa cfg.conv cfg.kern npix (cfg.chanmap c) (scaled { cfg with imageCentre := centres f } npix uvw r c 0)
            (scaled { cfg with imageCentre := centres f } npix uvw r c 1) (cell npix bd v u) : ℂ) *
            stokesVal { cfg with imageCentre := centres f } uvw vis r c)

/-- C77 is violated: two rows in two chunks give half of what they give in one. -/
theorem C77_violated : ∃ (uvw : Nat → ℝ) (vis : Nat → Nat → Nat → ℂ) (d d' : Nat → ℤ → ℂ),
    daskGridder (originCfg "None") (fun _ => (Real.pi / 2, 0)) 1 4 3 [2] [2] [1] [1] [1] uvw vis false (fun _ => 0) = .ok d ∧
    daskGridder (originCfg "None") (fun _ => (Real.pi / 2, 0)) 1 4 3 [1, 1] [1, 1] [1] [1] [1] uvw vis false (fun _ => 0) = .ok d' ∧
    d 0 (cell 4 0 2 2) = 2 ∧ d' 0 (cell 4 0 2 2) = 1 := by
  obtain ⟨s, hs, hg⟩ := origin_grid "None" (Or.inl rfl) 2 1 one_pos (fun _ => 0) (fun r => ⟨rfl, rfl⟩) (fun _ _ _ => 1)
  have hst : ∀ r, stokesVal (originCfg "None") (fun _ => 0) (fun _ _ _ => 1) r 0 = 1 := by
    intro r
    show okOr 0 (Except.ok ((1 + 1 : ℂ) * (1 / 2))) = 1
    norm_num [okOr]
  simp only [hst, sum_range_succ, sum_range_zero] at hg
  have hnb : 0 < nband (originCfg "None").nmap (originCfg "None").chanmap := by simp [originCfg, unitCfg, nband, forRange]
  obtain ⟨d, hd, hv⟩ := C77_rows_partial (originCfg "None") (Or.inl rfl) rfl (fun _ => (Real.pi / 2, 0)) 1 4 [2] (by simp) _ _ _ 0
    (by norm_num) (Or.inl rfl) s hs
  obtain ⟨d', hd', hv'⟩ := C77_rows_partial (originCfg "None") (Or.inl rfl) rfl (fun _ => (Real.pi / 2, 0)) 1 4 [1, 1] (by simp) _ _ _ 0
    (by norm_num) (Or.inl rfl) s hs
  refine ⟨fun _ => 0, fun _ _ _ => 1, d, d', hd, hd', ?_, ?_⟩
  · have := hv 0 2 2 hnb (by simp [inGrid])
    rw [hg] at this
    norm_num at this
    exact this
  · have := hv' 0 2 2 hnb (by simp [inGrid])
    rw [hg] at this
    norm_num at this
    exact this

/-! ## C102 -/

/-- C102: what the dask gridder returns depends on the first chunk of channels only, whatever the other chunks hold. -/
theorem C102_first_chunk (cfg : Cfg) (centres : Nat → RaDec) (nf npix uvwCols : Nat) (rowChunks : List Nat) (n : Nat) (rest : List Nat)
    (uvw : Nat → ℝ) (vis : Nat → Nat → Nat → ℂ) (norm : Bool) (junk : ℤ → ℂ) :
    daskGridder cfg centres nf npix uvwCols rowChunks rowChunks (n :: rest) (n :: rest) (n :: rest) uvw vis norm junk =
      daskGridder cfg centres nf npix uvwCols rowChunks rowChunks [n] [n] [n] uvw vis norm junk := by
  unfold daskGridder gridRowBlock
  simp only [ne_eq, not_true_eq_false, if_false]
  rfl

/-- C102 is violated: two channels in two chunks give another grid than in one chunk. -/
theorem C102_violated : ∃ (uvw : Nat → ℝ) (vis : Nat → Nat → Nat → ℂ) (d d' : Nat → ℤ → ℂ),
    daskGridder (originCfg "None" 2) (fun _ => (Real.pi / 2, 0)) 1 4 3 [1] [1] [2] [2] [2] uvw vis false (fun _ => 0) = .ok d ∧
    daskGridder (originCfg "None" 2) (fun _ => (Real.pi / 2, 0)) 1 4 3 [1] [1] [1, 1] [1, 1] [1, 1] uvw vis false (fun _ => 0) = .ok d' ∧
    d 0 (cell 4 0 2 2) = 3 ∧ d' 0 (cell 4 0 2 2) = 1 := by
  have hst : ∀ n c, stokesVal (originCfg "None" n) (fun _ => 0) (fun _ c _ => (c : ℂ) + 1) 0 c = c + 1 := by
    intro n c
    show okOr 0 (Except.ok (((c : ℂ) + 1 + ((c : ℂ) + 1)) * (1 / 2))) = _
    simp only [okOr]
    ring
  obtain ⟨s2, hs2, hg2⟩ := origin_grid "None" (Or.inl rfl) 1 2 two_pos (fun _ => 0) (fun r => ⟨rfl, rfl⟩) (fun _ c _ => (c : ℂ) + 1)
  obtain ⟨s1, hs1, hg1⟩ := origin_grid "None" (Or.inl rfl) 1 1 one_pos (fun _ => 0) (fun r => ⟨rfl, rfl⟩) (fun _ c _ => (c : ℂ) + 1)
  simp only [hst, sum_range_succ, sum_range_zero] at hg1 hg2
  obtain ⟨d, hd, hv⟩ := C77_rows_partial (originCfg "None" 2) (Or.inl rfl) rfl (fun _ => (Real.pi / 2, 0)) 1 4 [1] (by simp) _ _ _ 0
    (by norm_num) (Or.inl rfl) s2 hs2
  obtain ⟨d', hd', hv'⟩ := C77_rows_partial (originCfg "None" 1) (Or.inl rfl) rfl (fun _ => (Real.pi / 2, 0)) 1 4 [1] (by simp) _ _ _ 0
    (by norm_num) (Or.inl rfl) s1 hs1
  refine ⟨fun _ => 0, fun _ c _ => (c : ℂ) + 1, d, d', hd, ?_, ?_, ?_⟩
  · rw [C102_first_chunk]
    exact hd'
  · have := hv 0 2 2 (lt_nband (n := 2) (c := 0) (chanmap := fun _ => 0) two_pos) (by simp [inGrid])
    rw [hg2] at this
    norm_num at this
    exact this
  · have := hv' 0 2 2 (lt_nband (n := 1) (c := 0) (chanmap := fun _ => 0) one_pos) (by simp [inGrid])
    rw [hg1] at this
    norm_num at this
    exact this

/-- C102: chunks that differ between the arrays are refused. -/
theorem C102_rejects (cfg : Cfg) (centres : Nat → RaDec) (nf npix uvwCols : Nat) (rowChunks uvwChunks chanChunks lamChunks mapChunks : List Nat)
    (uvw : Nat → ℝ) (vis : Nat → Nat → Nat → ℂ) (norm : Bool) (junk : ℤ → ℂ)
    (h : lamChunks ≠ chanChunks ∨ mapChunks ≠ chanChunks ∨ rowChunks ≠ uvwChunks) :
    daskGridder cfg centres nf npix uvwCols rowChunks uvwChunks chanChunks lamChunks mapChunks uvw vis norm junk = .error .valueError := by
  unfold daskGridder
  split_ifs with h1 h2 h3
  · rfl
  · rfl
  · rfl
  · exact absurd h (by tauto)

/-! ## C106 -/

theorem ncorrOutPy_eq (p : String) : ncorrOutPy p = ncorrOut p := rfl

theorem coef_of_ncorr {p : String} {n : Nat} (h : ncorrOut p = .ok n) :
    ∃ coef : Nat → ℂ, ∀ s v, stokes2corr p s v = .ok (fun i => v i + coef i * s) := by
  by_cases hp : p ∈ toCorrNames
  · exact stokes2corr_affine hp
  · rw [((C75_supported p 0 fun _ => 0).2.2.1 hp).2] at h
    cases h

theorem nband_le {n : Nat} {m : Nat → Nat} {B : Nat} (h : ∀ c < n, m c + 1 ≤ B) : nband n m ≤ B := by
  unfold nband
  exact forRange_inv (P := fun _ s => s ≤ B) (Nat.zero_le _) fun i s hi hs => max_le hs (h i hi)

/-- Without transforms, a visibility that the degridder collects depends on its own row and channel only. -/
theorem degrid_none (cfg : Cfg) (gb npix nx nrow : Nat) (uvw : Nat → ℝ) (grid : ℤ → ℂ) (s : DegridState)
    (h : degridder { cfg with baseline := "None", phase := "None" } gb npix nx nrow 3 uvw grid = .ok s) (coef : Nat → ℂ)
    (hc : ∀ s v, stokes2corr cfg.stokes s v = .ok (fun i => v i + coef i * s)) (r c i : Nat) (hr : r < nrow) (hcl : c < cfg.nlam) :
    s.vis r c i = coef i * gathered (gatherTapOf cfg.conv) cfg.kern npix (cfg.chanmap c)
        (uvw (3 * r) * scaleFactor npix cfg.cellsize / cfg.wavelengths c) (uvw (3 * r + 1) * scaleFactor npix cfg.cellsize / cfg.wavelengths c) grid /
      ((weightIn (gatherTapOf cfg.conv) cfg.kern npix (uvw (3 * r) * scaleFactor npix cfg.cellsize / cfg.wavelengths c)
        (uvw (3 * r + 1) * scaleFactor npix cfg.cellsize / cfg.wavelengths c) + 1 / 100000000 : ℝ) : ℂ) := by
  rw [(degridder_value h coef hc).1, if_pos hr]
  exact if_pos hcl

/-- C106, part proved: with the policies "None" and all facets in one chunk, for every chunking of the rows and of the channels into
chunks that are not empty, the dask degridder returns the sum over the facets of what the degridder returns for all rows and
channels. Missing: facets in several chunks, see `C106_violated`. -/
theorem C106_chunks_partial (cfg : Cfg) (nf gb npix nx : Nat) (rowChunks chanChunks : List Nat) (uvw : Nat → ℝ) (stack : Nat → ℤ → ℂ)
    (S : Nat → DegridState) (hnf : 0 < nf) (hnlam : cfg.nlam = chanChunks.sum)
    (h : ∀ f < nf, degridder { cfg with baseline := "None", phase := "None" } gb npix nx rowChunks.sum 3 uvw (stack f) = .ok (S f))
    (j k : Nat) (hk : 0 < blockSize chanChunks k) :
    ∃ D, daskDegridder cfg nf gb npix nx 3 rowChunks chanChunks [nf] uvw stack j k = .ok D ∧
      ∀ r c i, r < blockSize rowChunks j → c < blockSize chanChunks k →
        D r c i = ∑ f ∈ range nf, (S f).vis (blockOff rowChunks j + r) (blockOff chanChunks k + c) i := by
  obtain ⟨⟨conv, q1⟩, ⟨n, q2⟩, q3, q4, q5, q6, q7, -⟩ := degridder_ok_iff.1 ⟨_, h 0 hnf⟩
  obtain ⟨coef, hcoef⟩ := coef_of_ncorr q2
  obtain ⟨cfgk, hcfgk⟩ : ∃ c : Cfg, c = { cfg with
      nlam := blockSize chanChunks k, nmap := blockSize chanChunks k,
      wavelengths := fun c => cfg.wavelengths (blockOff chanChunks k + c),
      chanmap := fun c => cfg.chanmap (blockOff chanChunks k + c) } := ⟨_, rfl⟩
  have hblock : ∀ f, f < nf → ∃ s, degridder { cfgk with baseline := "None", phase := "None" } gb npix nx (blockSize rowChunks j) 3
      (fun i => uvw (3 * blockOff rowChunks j + i)) (stack f) = .ok s ∧
      ∀ r c i, r < blockSize rowChunks j → c < blockSize chanChunks k →
        s.vis r c i = (S f).vis (blockOff rowChunks j + r) (blockOff chanChunks k + c) i := by
    intro f hf
    obtain ⟨s, hs⟩ := (degridder_ok_iff (cfg := { cfgk with baseline := "None", phase := "None" }) (gb := gb) (npix := npix) (nx := nx)
      (nrow := blockSize rowChunks j) (uc := 3) (uvw := fun i => uvw (3 * blockOff rowChunks j + i)) (grid := stack f)).2
      ⟨⟨conv, by rw [hcfgk]; exact q1⟩, ⟨n, by rw [hcfgk]; exact q2⟩, rfl, by rw [hcfgk], by rw [hcfgk]; simp only; omega, q6, by
        rw [hcfgk]
        refine nband_le fun c hc => ?_
        exact (lt_nband (n := cfg.nmap) (chanmap := cfg.chanmap) (c := blockOff chanChunks k + c) (by
          have := blockOff_lt hc
          simp only at q4
          omega)).trans_le q7, rfl⟩
    refine ⟨s, hs, fun r c i hr hc => ?_⟩
    have e1 := degrid_none cfgk gb npix nx _ _ _ s hs coef (by rw [hcfgk]; exact hcoef) r c i hr (by rw [hcfgk]; exact hc)
    have e2 := degrid_none cfg gb npix nx _ _ _ (S f) (h f hf) coef hcoef (blockOff rowChunks j + r) (blockOff chanChunks k + c) i
      (blockOff_lt hr) (by rw [hnlam]; exact blockOff_lt hc)
    rw [e1, e2, hcfgk]
    have a0 : 3 * (blockOff rowChunks j + r) = 3 * blockOff rowChunks j + 3 * r := by ring
    simp only [a0, add_assoc]
  obtain ⟨D, hD, hP⟩ := forRangeM_ok_inv (n := nf) (init := fun (_ _ _ : Nat) => (0 : ℂ))
    (f := fun f vis => degridFacet cfgk gb npix nx (blockSize rowChunks j) 3 (fun i => uvw (3 * blockOff rowChunks j + i)) stack f vis)
    (P := fun m vis => ∀ r c i, r < blockSize rowChunks j → c < blockSize chanChunks k →
        vis r c i = ∑ f ∈ range m, (S f).vis (blockOff rowChunks j + r) (blockOff chanChunks k + c) i) (by intros; simp) (by
      intro f vis hf hvis
      obtain ⟨s, hs, he⟩ := hblock f hf
      refine ⟨fun r c i => vis r c i + s.vis r c i, ?_, fun r c i hr hc => ?_⟩
      · unfold degridFacet
        rw [hs]
        rfl
      · rw [sum_range_succ, ← hvis r c i hr hc, ← he r c i hr hc])
  refine ⟨D, ?_, hP⟩
  have hst : cfgk.stokes = cfg.stokes := by rw [hcfgk]
  have hn : ncorrOut cfg.stokes = .ok n := q2
  have hb : degridBlock cfgk nf gb npix nx (blockSize rowChunks j) 3 (fun i => uvw (3 * blockOff rowChunks j + i)) stack = .ok D := by
    unfold degridBlock
    rw [if_neg (by simp), if_neg (by rw [hcfgk]; simp), ncorrOutPy_eq, hst, hn]
    exact hD
  unfold daskDegridder
  rw [if_neg (by simp), ncorrOutPy_eq, hn, ← hcfgk]
  exact hb

/-- C106: of the facets only the first chunk is used, whatever the other chunks hold. -/
theorem C106_first_chunk (cfg : Cfg) (gb npix nx uvwCols n : Nat) (rest rowChunks chanChunks : List Nat) (uvw : Nat → ℝ)
    (stack : Nat → ℤ → ℂ) (j k : Nat) :
    daskDegridder cfg (n :: rest).sum gb npix nx uvwCols rowChunks chanChunks (n :: rest) uvw stack j k =
      daskDegridder cfg n gb npix nx uvwCols rowChunks chanChunks [n] uvw stack j k := by
  unfold daskDegridder
  rw [if_neg (by simp), if_neg (by simp)]
  rfl

/-- C106 is violated: two facets in two chunks give half of what they give in one. -/
theorem C106_violated : ∃ (cfg : Cfg) (uvw : Nat → ℝ) (stack : Nat → ℤ → ℂ) (D D' : Nat → Nat → Nat → ℂ),
    daskDegridder cfg 2 1 4 4 3 [1] [1] [2] uvw stack 0 0 = .ok D ∧ daskDegridder cfg 2 1 4 4 3 [1] [1] [1, 1] uvw stack 0 0 = .ok D' ∧
    D 0 0 0 = 2 * D' 0 0 0 ∧ D' 0 0 0 ≠ 0 := by
  obtain ⟨cfg, hcfg⟩ : ∃ c, c = unitCfg 4 "None" "XXYY_FROM_I" "conv_1d_axisymmetric_packed_gather" (0, 0) := ⟨_, rfl⟩
  have hcfg' : ({ cfg with baseline := "None", phase := "None" } : Cfg) = cfg := by rw [hcfg]; rfl
  obtain ⟨s, hs⟩ := (degridder_ok_iff (cfg := cfg) (gb := 1) (npix := 4) (nx := 4) (nrow := 1) (uc := 3) (uvw := fun _ => 0)
    (grid := fun _ => 1)).2 (by
      rw [hcfg]
      exact ⟨⟨_, rfl⟩, ⟨_, rfl⟩, rfl, rfl, by decide, rfl, by simp [unitCfg, nband, forRange], rfl⟩)
  have hs' := hs
  rw [← hcfg'] at hs'
  obtain ⟨D, hD, hv⟩ := C106_chunks_partial cfg 2 1 4 4 [1] [1] (fun _ => 0) (fun _ _ => 1) (fun _ => s) two_pos (by rw [hcfg]; rfl)
    (fun f _ => hs') 0 0 (by decide)
  obtain ⟨D', hD', hv'⟩ := C106_chunks_partial cfg 1 1 4 4 [1] [1] (fun _ => 0) (fun _ _ => 1) (fun _ => s) one_pos (by rw [hcfg]; rfl)
    (fun f _ => hs') 0 0 (by decide)
  refine ⟨cfg, fun _ => 0, fun _ _ => 1, D, D', hD, ?_, ?_, ?_⟩
  · exact (C106_first_chunk cfg 1 4 4 3 1 [1] [1] [1] _ _ 0 0).trans hD'
  · rw [hv 0 0 0 (by decide) (by decide), hv' 0 0 0 (by decide) (by decide), sum_range_succ, sum_range_one]
    ring
  · rw [hv' 0 0 0 (by decide) (by decide), sum_range_one]
    obtain ⟨coef, hco⟩ := stokes2corr_affine (p := "XXYY_FROM_I") (by decide)
    have hc0 : coef 0 = 1 := by
      have := hco 1 (fun _ => 0)
      have h1 := congrFun (Except.ok.inj this) 0
      simp [addAt, Function.update] at h1
      exact h1.symm
    show s.vis 0 0 0 ≠ 0
    rw [degrid_none cfg 1 4 4 1 _ _ s hs' coef (by rw [hcfg]; exact hco) 0 0 0 one_pos (by rw [hcfg]; exact one_pos), hc0, one_mul]
    have hk : cfg.kern = unitKern := by rw [hcfg]; rfl
    have hd : disc 4 ((0 : ℝ) * scaleFactor 4 cfg.cellsize / cfg.wavelengths 0) = 2 := by
      have := disc_int 4 0
      simpa using this
    rw [hk]
    simp only [gathered, weightIn, unit_tap', hd, sum_range_succ, sum_range_zero]
    norm_num

/-- C106: coordinates that do not have three columns, a number of facets that is not the number of image centres and policies for the
Stokes parameters that are not known are refused. The first two raise ValueError. -/
theorem C106_rejects (cfg : Cfg) (ncentres gb npix nx uvwCols : Nat) (rowChunks chanChunks facetChunks : List Nat)
    (uvw : Nat → ℝ) (stack : Nat → ℤ → ℂ) (j k : Nat) :
    (facetChunks.sum ≠ ncentres →
      daskDegridder cfg ncentres gb npix nx uvwCols rowChunks chanChunks facetChunks uvw stack j k = .error .valueError) ∧
    (∀ n, ncorrOut cfg.stokes = .ok n → uvwCols ≠ 3 →
      daskDegridder cfg ncentres gb npix nx uvwCols rowChunks chanChunks facetChunks uvw stack j k = .error .valueError) ∧
    (∀ e, ncorrOut cfg.stokes = .error e →
      ∃ e', daskDegridder cfg ncentres gb npix nx uvwCols rowChunks chanChunks facetChunks uvw stack j k = .error e') := by
  unfold daskDegridder
  refine ⟨fun h => by rw [if_pos h], fun n hn hu => ?_, fun e he => ?_⟩
  · rw [ncorrOutPy_eq, hn]
    split_ifs
    · rfl
    · show degridBlock _ _ _ _ _ _ _ _ _ = _
      unfold degridBlock
      rw [if_pos hu]
  · rw [ncorrOutPy_eq, he]
    split_ifs
    · exact ⟨_, rfl⟩
    · exact ⟨_, rfl⟩

/-- The policies of `C106_rejects`: one that is known and one that is not. -/
example : (∃ n, ncorrOut "XXYY_FROM_I" = .ok n) ∧ ∃ e, ncorrOut "XX_FROM_V" = .error e := ⟨⟨_, rfl⟩, _, rfl⟩

end Verif.Gridding
