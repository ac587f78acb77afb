/-
C165: beams loaded from FITS files.
-/
import Verif.Examples.LoadBeams
import Verif.Util.BeamsProps
import Mathlib.Tactic.FieldSimp
import Mathlib.Tactic.Linarith
import Mathlib.Tactic.Ring
import Mathlib.Tactic.NormNum
import Mathlib.Tactic.LinearCombination
import Mathlib.Tactic.Tauto

set_option autoImplicit false

namespace Verif.Examples

open Verif.Util.Beams

/-! ### Specification -/

/-- Specification: the pixel of a file at the indices `p 1`, `p 2` and `p 3` along its first, second and third axis. The
first axis varies fastest, which makes it the last one of the array. -/
def fitsPixel (f : BeamFile) (p : Nat → Nat) : ℝ := f.data (p 3) (p 2) (p 1)

/-- Specification: indices along the axes, given the numbers of the axes of l, m and frequency. -/
def along (l m nu : Nat) (i j k : Nat) (a : Nat) : Nat := if a = l then i else if a = m then j else if a = nu then k else 0

/-- Specification: all headers agree and describe data of a known type with three axes that have the given numbers. -/
def GoodBeams (files : List (BeamFile × BeamFile)) (h : BeamHeader) (l m nu : Nat) : Prop :=
  files ≠ [] ∧ (∀ f ∈ files, f.1.header = h ∧ f.2.header = h) ∧ h.bitpix ∈ [8, 16, 32, -32, -64] ∧ Complete h.keys 3 ∧
    LastAxis h.keys 3 IsL l ∧ LastAxis h.keys 3 IsM m ∧ LastAxis h.keys 3 IsFreq nu

/-! ### Lemmas -/

private theorem agree {files : List (BeamFile × BeamFile)} {h : BeamHeader} (hne : files ≠ [])
    (hall : ∀ f ∈ files, f.1.header = h ∧ f.2.header = h) :
    ∃ rest, (files.flatMap fun f => [f.1.header, f.2.header]) = h :: rest ∧ ∀ k ∈ rest, h = k := by
  obtain ⟨f, fs, rfl⟩ := List.exists_cons_of_ne_nil hne
  obtain ⟨e1, e2⟩ := hall f (by simp)
  refine ⟨f.2.header :: fs.flatMap fun f => [f.1.header, f.2.header], by simp [e1], fun k hk => ?_⟩
  rcases List.mem_cons.1 hk with rfl | hk
  · exact e2.symm
  · obtain ⟨g, hg, hk⟩ := List.mem_flatMap.1 hk
    obtain ⟨e1, e2⟩ := hall g (List.mem_cons_of_mem _ hg)
    simp only [List.mem_cons, List.not_mem_nil, or_false] at hk
    rcases hk with rfl | rfl
    · exact e1.symm
    · exact e2.symm

private theorem last_unique {h : Header} {n : Nat} {P : List Char → Prop} {i j : Nat} (hi : LastAxis h n P i)
    (hj : LastAxis h n P j) : i = j := by
  by_contra hne
  rcases Nat.lt_or_gt_of_ne hne with hlt | hlt
  · exact hi.2.2.2 j hlt hj.2.1 hj.2.2.1
  · exact hj.2.2.2 i hlt hi.2.1 hi.2.2.1

/-- What is loaded from good files. -/
private theorem loaded {files : List (BeamFile × BeamFile)} {h : BeamHeader} {l m nu : Nat} (hg : GoodBeams files h l m nu)
    (la ma : List Char) :
    ∃ nl nm nnu gl gm gf, beamGrids h.keys (some la) (some ma) = .ok ((l, nl, gl), (m, nm, gm), (nu, nnu, gf)) ∧
      l ≠ m ∧ l ≠ nu ∧ m ≠ nu ∧ GridOf h.keys l nl (fun j => gl j * signOf (some la)) ∧
      GridOf h.keys m nm (fun j => gm j * signOf (some ma)) ∧ GridOf h.keys nu nnu gf ∧
      loadBeams files la ma = if nl = 0 ∨ nm = 0 then .error .indexError else .ok {
              shape := (nl, nm, nnu, files.length)
              beam := fun i j k c => match files[c]? with
                | none => 0
                | some (re, im) => ((transpose3 (nu - 1, m - 1, l - 1) re.data i j k : ℝ) : ℂ) +
                    ((transpose3 (nu - 1, m - 1, l - 1) im.data i j k : ℝ) : ℂ) * Complex.I
              lmExt := ((gl 0, gl (nl - 1)), (gm 0, gm (nm - 1)))
              freqs := gf } := by
  obtain ⟨hne, hall, hb, hc, hl, hm, hn⟩ := hg
  obtain ⟨rest, e, hrest⟩ := agree hne hall
  obtain ⟨out, hout⟩ := ((C55_ok_iff h.keys (some la) (some ma) 3 hc).1).2
    ⟨⟨l, hl.1, hl.2.1, hl.2.2.1⟩, ⟨m, hm.1, hm.2.1, hm.2.2.1⟩, ⟨nu, hn.1, hn.2.1, hn.2.2.1⟩⟩
  obtain ⟨⟨l', nl, gl⟩, ⟨m', nm, gm⟩, ⟨f', nnu, gf⟩⟩ := out
  obtain ⟨n, hc', hl', hm', hn', d1, d2, d3, g1, g2, g3⟩ := C55_grids h.keys _ _ _ _ _ _ _ _ _ _ _ hout
  obtain rfl : 3 = n := Option.some.inj (hc.1.symm.trans hc'.1)
  obtain rfl := last_unique hl hl'
  obtain rfl := last_unique hm hm'
  obtain rfl := last_unique hn hn'
  refine ⟨nl, nm, nnu, gl, gm, gf, hout, d1, d2, d3, g1, g2, g3, ?_⟩
  unfold loadBeams
  rw [e]
  dsimp only
  rw [if_neg (not_not.2 hrest), if_neg (not_not.2 hb), hc.1]
  dsimp only
  rw [if_neg (by simp), hout]
  by_cases hz : nl = 0 ∨ nm = 0
  · dsimp only
    rw [if_pos hz, if_pos hz]
  · dsimp only
    rw [if_neg hz, if_neg hz]
    rfl

/-! ### C165 -/

/-- **C165** If the axis of m is the second one, every pixel is at its place: the beam at the indices of l, m, channel and
correlation is that of the files of the correlation at these indices along the axes of their header. -/
theorem C165_partial {files : List (BeamFile × BeamFile)} {h : BeamHeader} {l m nu : Nat} (hg : GoodBeams files h l m nu)
    (hmid : m = 2) (la ma : List Char) (b : LoadedBeam) (hb : loadBeams files la ma = .ok b) :
    (h.keys.axis l).naxis = some b.shape.1 ∧ (h.keys.axis m).naxis = some b.shape.2.1 ∧
      (h.keys.axis nu).naxis = some b.shape.2.2.1 ∧ b.shape.2.2.2 = files.length ∧
      ∀ i j k c re im, files[c]? = some (re, im) → b.beam i j k c =
        ((fitsPixel re (along l m nu i j k) : ℝ) : ℂ) + ((fitsPixel im (along l m nu i j k) : ℝ) : ℂ) * Complex.I := by
  obtain ⟨nl, nm, nnu, gl, gm, gf, -, d1, d2, d3, g1, g2, g3, e⟩ := loaded hg la ma
  obtain ⟨-, -, -, -, hl, hm, hn⟩ := hg
  rw [e] at hb
  split_ifs at hb
  cases hb
  refine ⟨g1.1, g2.1, g3.1, rfl, fun i j k c re im hc => ?_⟩
  have h1 := hl.1
  have h2 := hl.2.1
  have h3 := hn.1
  have h4 := hn.2.1
  dsimp only
  rw [hc]
  dsimp only
  subst hmid
  have key : ∀ f : BeamFile, transpose3 (nu - 1, 2 - 1, l - 1) f.data i j k = fitsPixel f (along l 2 nu i j k) := by
    intro f
    have : (l = 1 ∧ nu = 3) ∨ (l = 3 ∧ nu = 1) := by omega
    rcases this with ⟨rfl, rfl⟩ | ⟨rfl, rfl⟩ <;> rfl
  rw [key, key]

/-- **C165** fails for every other order of the axes: there are files whose pixels are not at their places. -/
theorem C165_axes_violated {files : List (BeamFile × BeamFile)} {h : BeamHeader} {l m nu : Nat}
    (hg : GoodBeams files h l m nu) (hmid : m ≠ 2) (la ma : List Char)
    (hpix : (h.keys.axis l).naxis ≠ some 0 ∧ (h.keys.axis m).naxis ≠ some 0) :
    ∃ b i j k, loadBeams [(⟨h, fun z y x => z + 10 * y + 100 * x⟩, ⟨h, fun _ _ _ => 0⟩)] la ma = .ok b ∧
      i < 2 ∧ j < 2 ∧ k < 2 ∧
      b.beam i j k 0 ≠ ((fitsPixel ⟨h, fun z y x => z + 10 * y + 100 * x⟩ (along l m nu i j k) : ℝ) : ℂ) := by
  obtain ⟨-, -, hbp, hc, hl, hm, hn⟩ := hg
  have hg' : GoodBeams [((⟨h, fun z y x => z + 10 * y + 100 * x⟩ : BeamFile), (⟨h, fun _ _ _ => 0⟩ : BeamFile))] h l m nu :=
    ⟨by simp, by simp, hbp, hc, hl, hm, hn⟩
  obtain ⟨nl, nm, nnu, gl, gm, gf, -, d1, d2, d3, g1, g2, g3, e⟩ := loaded hg' la ma
  have n1 : nl ≠ 0 := fun h0 => hpix.1 (by rw [g1.1, h0])
  have n2 : nm ≠ 0 := fun h0 => hpix.2 (by rw [g2.1, h0])
  rw [if_neg (by tauto)] at e
  rw [e]
  have h1 := hl.1
  have h2 := hl.2.1
  have h3 := hn.1
  have h4 := hn.2.1
  have h5 := hm.1
  have h6 := hm.2.1
  have cases : (l = 2 ∧ m = 1 ∧ nu = 3) ∨ (l = 2 ∧ m = 3 ∧ nu = 1) ∨ (l = 1 ∧ m = 3 ∧ nu = 2) ∨ (l = 3 ∧ m = 1 ∧ nu = 2) := by
    omega
  rcases cases with ⟨rfl, rfl, rfl⟩ | ⟨rfl, rfl, rfl⟩ | ⟨rfl, rfl, rfl⟩ | ⟨rfl, rfl, rfl⟩
  all_goals
    refine ⟨_, 1, 0, 0, rfl, by omega, by omega, by omega, ?_⟩
    simp [transpose3, axisIndex, fitsPixel, along]

/-- **C165** On evenly spaced axes with at least two pixels the extents place every pixel: its coordinate lies at its index
between the extents. The frequencies are those of the header. -/
theorem C165_extents {files : List (BeamFile × BeamFile)} {h : BeamHeader} {l m nu : Nat} (hg : GoodBeams files h l m nu)
    (la ma : List Char) (b : LoadedBeam) (hb : loadBeams files la ma = .ok b) :
    ((∃ j, 1 ≤ j ∧ j ≤ b.shape.1 ∧ h.keys.irregular (typeOf h.keys l) j = none) → 1 < b.shape.1 →
      (h.keys.axis l).cdelt.getD 1 ≠ 0 → ∀ i < b.shape.1,
        (signOf (some la) * Util.Beams.fitsCoord (h.keys.axis l) (i + 1) - b.lmExt.1.1) /
          (b.lmExt.1.2 - b.lmExt.1.1) * ((b.shape.1 : ℝ) - 1) = i) ∧
    ((∃ j, 1 ≤ j ∧ j ≤ b.shape.2.1 ∧ h.keys.irregular (typeOf h.keys m) j = none) → 1 < b.shape.2.1 →
      (h.keys.axis m).cdelt.getD 1 ≠ 0 → ∀ i < b.shape.2.1,
        (signOf (some ma) * Util.Beams.fitsCoord (h.keys.axis m) (i + 1) - b.lmExt.2.1) /
          (b.lmExt.2.2 - b.lmExt.2.1) * ((b.shape.2.1 : ℝ) - 1) = i) ∧
    GridOf h.keys nu b.shape.2.2.1 b.freqs := by
  obtain ⟨nl, nm, nnu, gl, gm, gf, -, d1, d2, d3, g1, g2, g3, e⟩ := loaded hg la ma
  rw [e] at hb
  split_ifs at hb
  cases hb
  have sgn : ∀ a, signOf a = 1 ∨ signOf a = -1 := by
    intro a
    unfold signOf
    split <;> simp
  have axis : ∀ (x n : Nat) (g : Nat → ℝ) (a : Option (List Char)), GridOf h.keys x n (fun j => g j * signOf a) →
      (∃ j, 1 ≤ j ∧ j ≤ n ∧ h.keys.irregular (typeOf h.keys x) j = none) → 1 < n →
      (h.keys.axis x).cdelt.getD 1 ≠ 0 → ∀ i < n,
        (signOf a * Util.Beams.fitsCoord (h.keys.axis x) (i + 1) - g 0) / (g (n - 1) - g 0) * ((n : ℝ) - 1) = i := by
    intro x n g a hgr hirr hn hd i hi
    have hs2 : signOf a * signOf a = 1 := by rcases sgn a with e | e <;> rw [e] <;> norm_num
    have hs0 : signOf a ≠ 0 := by rcases sgn a with e | e <;> rw [e] <;> norm_num
    have val : ∀ j < n, g j = signOf a * Util.Beams.fitsCoord (h.keys.axis x) (j + 1) := by
      intro j hj
      have := hgr.2.1 hirr j hj
      rw [← this]
      linear_combination (-(g j)) * hs2
    have e0 := val 0 (by omega)
    have e1 := val (n - 1) (by omega)
    rw [e0, e1]
    have hcast : ((n - 1 : Nat) : ℝ) = n - 1 := by
      rw [Nat.cast_sub (by omega)]; simp
    have hn0 : (n : ℝ) - 1 ≠ 0 := by
      have : (1 : ℝ) < n := by exact_mod_cast hn
      linarith
    rw [hcast]
    unfold Util.Beams.fitsCoord
    set q : ℝ := if upper (strip ((h.keys.axis x).cunit.getD [])) = "DEG".toList then Real.pi / 180 else 1 with hq
    have hq0 : q ≠ 0 := by
      rw [hq]
      split_ifs
      · exact div_ne_zero Real.pi_ne_zero (by norm_num)
      · exact one_ne_zero
    set d := (h.keys.axis x).cdelt.getD 1 with hdd
    have den : signOf a * (q * ((h.keys.axis x).crval.getD 0 + d * ((n : ℝ) - 1 + 1 - (h.keys.axis x).crpix.getD 0))) -
        signOf a * (q * ((h.keys.axis x).crval.getD 0 + d * (((0 : Nat) : ℝ) + 1 - (h.keys.axis x).crpix.getD 0))) =
          signOf a * q * d * ((n : ℝ) - 1) := by push_cast; ring
    have num : signOf a * (q * ((h.keys.axis x).crval.getD 0 + d * ((i : ℝ) + 1 - (h.keys.axis x).crpix.getD 0))) -
        signOf a * (q * ((h.keys.axis x).crval.getD 0 + d * (((0 : Nat) : ℝ) + 1 - (h.keys.axis x).crpix.getD 0))) =
          signOf a * q * d * i := by push_cast; ring
    rw [den, num]
    field_simp
  exact ⟨axis l nl gl _ g1, axis m nm gm _ g2, g3⟩

/-- **C165** Files that disagree (other than in `DATE`), unknown types of data and other numbers of axes are refused, and
so are axes of other types. -/
theorem C165_refused (files : List (BeamFile × BeamFile)) (h : BeamHeader) (la ma : List Char) (hne : files ≠ []) :
    ((∃ f ∈ files, ∃ g ∈ files, f.1.header ≠ g.1.header ∨ f.1.header ≠ g.2.header) →
      loadBeams files la ma = .error .valueError) ∧
    ((∀ f ∈ files, f.1.header = h ∧ f.2.header = h) → h.bitpix ∉ [8, 16, 32, -32, -64] →
      loadBeams files la ma = .error .valueError) ∧
    (∀ n, (∀ f ∈ files, f.1.header = h ∧ f.2.header = h) → h.keys.naxis = some n → n ≠ 3 →
      loadBeams files la ma = .error .valueError) ∧
    ((∀ f ∈ files, f.1.header = h ∧ f.2.header = h) → Complete h.keys 3 →
      ¬ ((∃ i, 1 ≤ i ∧ i ≤ 3 ∧ IsL (typeOf h.keys i)) ∧ (∃ i, 1 ≤ i ∧ i ≤ 3 ∧ IsM (typeOf h.keys i)) ∧
        ∃ i, 1 ≤ i ∧ i ≤ 3 ∧ IsFreq (typeOf h.keys i)) → loadBeams files la ma = .error .valueError) := by
  refine ⟨?_, ?_, ?_, ?_⟩
  · rintro ⟨f, hf, g, hg, hfg⟩
    unfold loadBeams
    cases e : files.flatMap fun f => [f.1.header, f.2.header] with
    | nil =>
      have : f.1.header ∈ files.flatMap fun f => [f.1.header, f.2.header] := List.mem_flatMap.2 ⟨f, hf, by simp⟩
      rw [e] at this
      cases this
    | cons x rest =>
      dsimp only
      rw [if_pos]
      intro hall
      have all : ∀ k ∈ files.flatMap fun f => [f.1.header, f.2.header], x = k := by
        rw [e]
        intro k hk
        rcases List.mem_cons.1 hk with rfl | hk
        · rfl
        · exact hall k hk
      have a1 := all f.1.header (List.mem_flatMap.2 ⟨f, hf, by simp⟩)
      have a2 := all g.1.header (List.mem_flatMap.2 ⟨g, hg, by simp⟩)
      have a3 := all g.2.header (List.mem_flatMap.2 ⟨g, hg, by simp⟩)
      rcases hfg with hfg | hfg
      · exact hfg (a1.symm.trans a2)
      · exact hfg (a1.symm.trans a3)
  · intro hall hb
    obtain ⟨rest, e, hrest⟩ := agree hne hall
    unfold loadBeams
    rw [e]
    dsimp only
    rw [if_neg (not_not.2 hrest), if_pos hb]
  · intro n hall hn h3
    obtain ⟨rest, e, hrest⟩ := agree hne hall
    unfold loadBeams
    rw [e]
    dsimp only
    rw [if_neg (not_not.2 hrest)]
    by_cases hb : h.bitpix ∉ [8, 16, 32, -32, -64]
    · rw [if_pos hb]
    · rw [if_neg hb, hn]
      dsimp only
      rw [if_pos h3]
  · intro hall hc hno
    obtain ⟨rest, e, hrest⟩ := agree hne hall
    obtain ⟨h1, h2⟩ := C55_ok_iff h.keys (some la) (some ma) 3 hc
    unfold loadBeams
    rw [e]
    dsimp only
    rw [if_neg (not_not.2 hrest)]
    by_cases hb : h.bitpix ∉ [8, 16, 32, -32, -64]
    · rw [if_pos hb]
    · rw [if_neg hb, hc.1]
      dsimp only
      rw [if_neg (by simp)]
      cases hbg : beamGrids h.keys (some la) (some ma) with
      | error er => rw [h2 er hbg]
      | ok out => exact absurd (h1.1 ⟨out, hbg⟩) hno

/-- The header of `Util.Beams` with data of 64 bits meets the hypotheses. -/
example (f : BeamFile) (hf : f.header = ⟨exampleHeader, -64⟩) : GoodBeams [(f, f)] ⟨exampleHeader, -64⟩ 1 2 3 := by
  refine ⟨by simp, by simp [hf], by simp, ⟨rfl, ?_⟩, ⟨by omega, by omega, ?_, ?_⟩, ⟨by omega, by omega, ?_, ?_⟩,
    ⟨by omega, by omega, ?_, ?_⟩⟩
  · intro i h1 h2
    obtain rfl | rfl | rfl : i = 1 ∨ i = 2 ∨ i = 3 := by omega
    all_goals simp [exampleHeader]
  · simp only [IsL, typeOf, exampleHeader, if_true]; decide
  · intro j h1 h2
    obtain rfl | rfl : j = 2 ∨ j = 3 := by omega
    all_goals simp only [IsL, typeOf, exampleHeader, if_true]; decide
  · simp only [IsM, typeOf, exampleHeader, if_true]; decide
  · intro j h1 h2
    obtain rfl : j = 3 := by omega
    simp only [IsM, typeOf, exampleHeader, if_true]; decide
  · simp only [IsFreq, typeOf, exampleHeader, if_true]; decide
  · intro j h1 h2; omega

end Verif.Examples
