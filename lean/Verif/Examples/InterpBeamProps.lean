/-
C166: the primary beam of the example spectral fit is the beam of the files at the components' positions.
-/
import Verif.Examples.InterpBeam
import Verif.Rime.PropsBeam2
import Mathlib.Data.List.Permutation

set_option autoImplicit false

namespace Verif.Examples

open Verif.Rime

/-! ## Specification -/

/-- Parts of names of which a prefix must be free. -/
def reserved : List String := ["xx", "XX", "rr", "RR", "yy", "YY", "ll", "LL", "re", "im"]

/-- The coordinate along an axis of a pixel, counted from zero, according to the header. -/
noncomputable def cubeCoord (ref delta : ℝ) (i : Nat) : ℝ := ((i : ℝ) + 1 - ref) * delta

/-- The header describes a beam the program accepts. -/
structure GoodCube (h : CubeHeader) : Prop where
  unit1 : h.cunit1 = "deg" ∨ h.cunit1 = "DEG"
  unit2 : h.cunit2 = "deg" ∨ h.cunit2 = "DEG"
  freq : h.ctype3 = "FREQ"
  n1 : 2 ≤ h.naxis1
  n2 : 2 ≤ h.naxis2
  n3 : 2 ≤ h.naxis3
  d1 : 0 < h.cdelt1
  d2 : 0 < h.cdelt2
  d3 : 0 < h.cdelt3
  f0 : 0 < cubeFreqs h 0

/-- The components lie within the extents. -/
def InCube (h : CubeHeader) (coords : List (ℝ × ℝ)) : Prop :=
  ∀ c ∈ coords, (1 - h.crpix1) * h.cdelt1 ≤ c.1 ∧ c.1 ≤ (1 + h.naxis1 - h.crpix1) * h.cdelt1 ∧
    (1 - h.crpix2) * h.cdelt2 ≤ c.2 ∧ c.2 ≤ (1 + h.naxis2 - h.crpix2) * h.cdelt2

/-! ## Names -/

private theorem pair_infix {a b : Char} (hb : b ≠ '_') (p q : List Char) :
    [a, b] <:+: p ++ '_' :: q ↔ [a, b] <:+: p ∨ [a, b] <:+: '_' :: q := by
  induction p with
  | nil => simp
  | cons c p ih =>
    rw [List.cons_append, List.infix_cons_iff, ih, List.infix_cons_iff (l₂ := p), or_assoc]
    have : [a, b] <+: c :: (p ++ '_' :: q) ↔ [a, b] <+: c :: p := by
      rw [List.cons_prefix_cons, List.cons_prefix_cons]
      cases p with
      | nil => simp [List.cons_prefix_cons, hb]
      | cons d p => simp [List.cons_prefix_cons]
    rw [this]

private theorem inPath_append {s : String} (hs : s ∈ reserved) {p : String} (hp : ∀ s ∈ reserved, inPath s p = false)
    (q : List Char) (t : String) (ht : t.toList = '_' :: q) : inPath s (p ++ t) = inPath s t := by
  have h := hp s hs
  obtain ⟨a, b, hab, hb⟩ : ∃ a b : Char, s.toList = [a, b] ∧ b ≠ '_' := by
    simp only [reserved, List.mem_cons, List.not_mem_nil, or_false] at hs
    rcases hs with rfl | rfl | rfl | rfl | rfl | rfl | rfl | rfl | rfl | rfl <;>
      exact ⟨_, _, rfl, by decide⟩
  simp only [inPath, decide_eq_false_iff_not, hab] at h ⊢
  rw [String.toList_append, ht]
  rw [decide_eq_decide, pair_infix hb]
  simp [h]

/-- **C166** Four files named as documented, found in any order, give half the sum of the squared moduli. -/
theorem C166_names (p c1 c2 : String) (hp : ∀ s ∈ reserved, inPath s p = false)
    (hc : (c1, c2) ∈ [("xx", "yy"), ("XX", "YY"), ("rr", "ll"), ("RR", "LL")])
    (r1 i1 r2 i2 : CubeFile) (h1 : r1.path = p ++ ("_" ++ c1 ++ "_re.fits")) (h2 : i1.path = p ++ ("_" ++ c1 ++ "_im.fits"))
    (h3 : r2.path = p ++ ("_" ++ c2 ++ "_re.fits")) (h4 : i2.path = p ++ ("_" ++ c2 ++ "_im.fits"))
    (files : List CubeFile) (hf : files.Perm [r1, i1, r2, i2]) :
    ∃ power, beamPower files = .ok (r1.hdr, power) ∧ ∀ k y x, power k y x =
      (‖(⟨r1.data k y x, i1.data k y x⟩ : ℂ)‖ ^ 2 + ‖(⟨r2.data k y x, i2.data k y x⟩ : ℂ)‖ ^ 2) / 2 := by
  have key : ∀ s : Scanned,
      scanFile s r1 = .ok { s with re1 := some r1.data, hdr := s.hdr.or (some r1.hdr) } ∧
      scanFile s i1 = .ok { s with im1 := some i1.data } ∧ scanFile s r2 = .ok { s with re2 := some r2.data } ∧
      scanFile s i2 = .ok { s with im2 := some i2.data } := by
    intro s
    have hin : ∀ q ∈ reserved, ∀ (t : String) (l : List Char), t.toList = '_' :: l → inPath q (p ++ t) = inPath q t :=
      fun q hq t l ht => inPath_append hq hp l t ht
    simp only [reserved, List.mem_cons, List.not_mem_nil, or_false, Prod.mk.injEq, forall_eq_or_imp, forall_eq] at hin hc
    obtain ⟨e1, e2, e3, e4, e5, e6, e7, e8, e9, e10⟩ := hin
    unfold scanFile
    rw [h1, h2, h3, h4]
    rcases hc with ⟨rfl, rfl⟩ | ⟨rfl, rfl⟩ | ⟨rfl, rfl⟩ | ⟨rfl, rfl⟩
    all_goals
      refine ⟨?_, ?_, ?_, ?_⟩
      all_goals
        rw [e1 _ _ rfl, e2 _ _ rfl, e3 _ _ rfl, e4 _ _ rfl, e9 _ _ rfl]
        first
          | rw [if_pos (by decide), if_pos (by decide)]
          | rw [if_pos (by decide), if_neg (by decide), e10 _ _ rfl, if_pos (by decide)]
          | rw [e5 _ _ rfl, e6 _ _ rfl, e7 _ _ rfl, e8 _ _ rfl, if_neg (by decide), if_pos (by decide), if_pos (by decide)]
          | rw [e5 _ _ rfl, e6 _ _ rfl, e7 _ _ rfl, e8 _ _ rfl, if_neg (by decide), if_pos (by decide), if_neg (by decide),
              e10 _ _ rfl, if_pos (by decide)]
  have k1 := fun s => (key s).1
  have k2 := fun s => (key s).2.1
  have k3 := fun s => (key s).2.2.1
  have k4 := fun s => (key s).2.2.2
  refine ⟨fun k y x => (r1.data k y x ^ 2 + i1.data k y x ^ 2 + r2.data k y x ^ 2 + i2.data k y x ^ 2) / 2, ?_, ?_⟩
  · have hm := List.mem_permutations'.2 hf
    simp only [List.permutations', List.flatMap_cons, List.flatMap_nil, List.permutations'Aux, List.map_cons, List.map_nil,
      List.append_nil, List.cons_append, List.nil_append, List.mem_cons, List.not_mem_nil, or_false] at hm
    unfold beamPower
    rcases hm with hm | hm | hm | hm | hm | hm | hm | hm | hm | hm | hm | hm | hm | hm | hm | hm | hm | hm | hm | hm |
      hm | hm | hm | hm <;>
      rw [hm] <;> simp only [List.foldlM_cons, List.foldlM_nil, k1, k2, k3, k4] <;> rfl
  · intro k y x
    rw [← Complex.normSq_eq_norm_sq, ← Complex.normSq_eq_norm_sq, Complex.normSq_mk, Complex.normSq_mk]
    ring

/-- A prefix as in the documentation. -/
example : ∀ s ∈ reserved, inPath s "/home/user/beams/meerkat_lband" = false := by decide

private theorem scan_re {files : List CubeFile} (hf : ∀ f ∈ files, inPath "re" f.path = true) (s : Scanned)
    (hs : s.im1 = none) : ∃ t, files.foldlM scanFile s = .ok t ∧ t.im1 = none := by
  induction files generalizing s with
  | nil => exact ⟨s, rfl, hs⟩
  | cons f fs ih =>
    have h := hf f (by simp)
    rw [List.foldlM_cons]
    have : ∃ t, scanFile s f = .ok t ∧ t.im1 = none := by
      unfold scanFile
      split_ifs <;> exact ⟨_, rfl, hs⟩
    obtain ⟨t, ht, hn⟩ := this
    rw [ht]
    exact ih (fun g hg => hf g (by simp [hg])) t hn

/-- **C166** fails: if the letters `re` occur in the prefix, the imaginary parts are never loaded and the program stops. -/
theorem C166_directory_violated (p : String) (hp : inPath "re" p = true) (files : List CubeFile)
    (hf : ∀ f ∈ files, ∃ t, f.path = p ++ t) : beamPower files = .error .unboundLocalError := by
  have hre : ∀ f ∈ files, inPath "re" f.path = true := by
    intro f h
    obtain ⟨t, ht⟩ := hf f h
    rw [ht]
    simp only [inPath, decide_eq_true_eq, String.toList_append] at hp ⊢
    exact hp.trans (List.prefix_append _ _).isInfix
  obtain ⟨t, ht, hn⟩ := scan_re hre {} rfl
  unfold beamPower
  rw [ht]
  show (match t.re1, t.im1, t.re2, t.im2, t.hdr with
    | some r1, some i1, some r2, some i2, some h => _
    | _, _, _, _, _ => _) = _
  rw [hn]
  cases t.re1 <;> rfl

example : inPath "re" "/home/user/reduction/meerkat_lband" = true := by decide

/-! ## Values -/

private theorem ok_bind {α β : Type} (a : α) (f : α → Except PyErr β) : (Except.ok a >>= f) = f a := rfl

private theorem mapM_ok {α β : Type} (f : α → Except PyErr β) (g : α → β) :
    ∀ l : List α, (∀ x ∈ l, f x = .ok (g x)) → l.mapM f = .ok (l.map g)
  | [], _ => rfl
  | a :: l, h => by
    rw [List.mapM_cons, h a (by simp), mapM_ok f g l fun x hx => h x (by simp [hx])]
    rfl

private theorem increasing_freqs {h : CubeHeader} (hd : 0 < h.cdelt3) (n : Nat) : Increasing (cubeFreqs h) n := by
  intro i j _ hij _
  unfold cubeFreqs
  have : (i : ℝ) < j := by exact_mod_cast hij
  nlinarith

private theorem interpolate_eq {name : String} (hname : name ≠ "eidos") {files : List CubeFile} {h : CubeHeader}
    {power : Nat → Nat → Nat → ℝ} (hp : beamPower files = .ok (h, power)) (hh : GoodCube h) {coords : List (ℝ × ℝ)}
    (hne : coords ≠ []) (hin : InCube h coords) (freqs : List ℝ) (g : ℝ × ℝ → ℝ → ℂ)
    (hg : ∀ c ∈ coords, ∀ f ∈ freqs,
      beamCubeDde h.naxis2 h.naxis1 h.naxis3 (fun i j k => ((power k.toNat i.toNat j.toNat : ℝ) : ℂ))
        (cubeExtents h.naxis1 h.crpix1 h.cdelt1, cubeExtents h.naxis2 h.crpix2 h.cdelt2)
        (cubeFreqs h) c.1 c.2 0 0 0 1 1 f = .ok (g c f)) :
    interpolateBeam name files coords freqs = .ok (coords.map fun c => freqs.map (g c)) := by
  unfold interpolateBeam
  rw [if_neg hname, hp]
  have u1 : ¬ (h.cunit1 ≠ "DEG" ∧ h.cunit1 ≠ "deg") := by rcases hh.unit1 with e | e <;> simp [e]
  have u2 : ¬ (h.cunit2 ≠ "DEG" ∧ h.cunit2 ≠ "deg") := by rcases hh.unit2 with e | e <;> simp [e]
  have u3 : ¬ ∃ c ∈ coords, (cubeExtents h.naxis1 h.crpix1 h.cdelt1).1 > c.1 ∨
      (cubeExtents h.naxis2 h.crpix2 h.cdelt2).1 > c.2 ∨ (cubeExtents h.naxis1 h.crpix1 h.cdelt1).2 < c.1 ∨
      (cubeExtents h.naxis2 h.crpix2 h.cdelt2).2 < c.2 := by
    rintro ⟨c, hc, hx⟩
    obtain ⟨a1, a2, a3, a4⟩ := hin c hc
    simp only [cubeExtents] at hx
    rcases hx with hx | hx | hx | hx <;> linarith
  have u4 : ¬ h.ctype3 ≠ "FREQ" := not_not.2 hh.freq
  rw [ok_bind]
  simp only [if_neg u1, if_neg u2, if_neg hne, if_neg u3, if_neg u4]
  exact mapM_ok _ _ _ fun c hc => mapM_ok _ _ _ fun f hf => hg c hc f hf

/-- **C166** partially: every value lies between the smallest and the largest value of the beam; a constant beam is
exact. -/
theorem C166_partial (name : String) (hname : name ≠ "eidos") (files : List CubeFile) (h : CubeHeader)
    (power : Nat → Nat → Nat → ℝ) (hp : beamPower files = .ok (h, power)) (hh : GoodCube h) (coords : List (ℝ × ℝ))
    (hne : coords ≠ []) (hin : InCube h coords) (freqs : List ℝ) (lo hi : ℝ) (h0 : 0 ≤ lo)
    (hb : ∀ k y x, k < h.naxis3 → y < h.naxis2 → x < h.naxis1 → lo ≤ power k y x ∧ power k y x ≤ hi) :
    ∃ g : ℝ × ℝ → ℝ → ℝ, interpolateBeam name files coords freqs = .ok (coords.map fun c => freqs.map fun f => ((g c f : ℝ) : ℂ)) ∧
      ∀ c f, lo ≤ g c f ∧ g c f ≤ hi := by
  have hpos : cubeFreqs h ((h.naxis3 : Int) - 1) ≠ 0 := by
    have h1 := hh.f0
    have h3 := hh.d3
    unfold cubeFreqs at *
    have : (0 : ℝ) ≤ (((h.naxis3 : Int) - 1 : Int) : ℝ) := by
      have := hh.n3
      exact_mod_cast (by omega : (0 : Int) ≤ (h.naxis3 : Int) - 1)
    have h2 : (0 : ℝ) ≤ (((h.naxis3 : Int) - 1 : Int) : ℝ) * h.cdelt3 := mul_nonneg this h3.le
    have : (0 : ℝ) < h.crval3 + (1 - h.crpix3 + (((h.naxis3 : Int) - 1 : Int) : ℝ)) * h.cdelt3 := by
      simp only [Int.cast_zero, add_zero] at h1
      nlinarith
    exact this.ne'
  have key := fun (c : ℝ × ℝ) (f : ℝ) => C42_between h.naxis2 h.naxis1 h.naxis3 hh.n2 hh.n1 hh.n3
    (fun i j k => ((power k.toNat i.toNat j.toNat : ℝ) : ℂ)) (fun i j k => power k.toNat i.toNat j.toNat)
    (cubeExtents h.naxis1 h.crpix1 h.cdelt1, cubeExtents h.naxis2 h.crpix2 h.cdelt2) (cubeFreqs h)
    (increasing_freqs hh.d3 _) hpos lo hi h0
    (fun i j k _ _ _ _ _ _ => ⟨rfl, hb _ _ _ (by omega) (by omega) (by omega)⟩) c.1 c.2 0 0 0 1 1 f
  choose g hg1 hg2 hg3 using key
  exact ⟨g, interpolate_eq hname hp hh hne hin freqs _ fun c _ f _ => hg1 c f, fun c f => ⟨hg2 c f, hg3 c f⟩⟩

/-- What the program computes: at the pixel `(x, y)` of a beam `a + b x + c y + d f` it gives
`a + b y (n₁ - 1) / n₂ + c x (n₂ - 1) / n₁ + d f`. -/
theorem C166_linear (name : String) (hname : name ≠ "eidos") (files : List CubeFile) (h : CubeHeader)
    (power : Nat → Nat → Nat → ℝ) (hp : beamPower files = .ok (h, power)) (hh : GoodCube h) (a b c d : ℝ)
    (hb : ∀ k y x : Nat, k < h.naxis3 → y < h.naxis2 → x < h.naxis1 →
      power k y x = a + b * x + c * y + d * cubeFreqs h k ∧ 0 ≤ power k y x)
    (x y : Nat) (hx : x < h.naxis1) (hy : y < h.naxis2) (f : ℝ) (hf1 : cubeFreqs h 0 ≤ f)
    (hf2 : f ≤ cubeFreqs h ((h.naxis3 : Int) - 1)) :
    interpolateBeam name files [(cubeCoord h.crpix1 h.cdelt1 x, cubeCoord h.crpix2 h.cdelt2 y)] [f] =
      .ok [[((a + b * (y * (h.naxis1 - 1) / h.naxis2) + c * (x * (h.naxis2 - 1) / h.naxis1) + d * f : ℝ) : ℂ)]] := by
  have hpos : cubeFreqs h ((h.naxis3 : Int) - 1) ≠ 0 := by
    have := hh.f0
    linarith [hf1.trans hf2] |> fun h : 0 < cubeFreqs h ((h.naxis3 : Int) - 1) => h.ne'
  have hd1 := hh.d1
  have hd2 := hh.d2
  have hn1 : (0 : ℝ) < h.naxis1 := by exact_mod_cast (by have := hh.n1; omega : 0 < h.naxis1)
  have hn2 : (0 : ℝ) < h.naxis2 := by exact_mod_cast (by have := hh.n2; omega : 0 < h.naxis2)
  have hx' : (x : ℝ) < h.naxis1 := by exact_mod_cast hx
  have hy' : (y : ℝ) < h.naxis2 := by exact_mod_cast hy
  have bx : (1 - h.crpix1) * h.cdelt1 ≤ cubeCoord h.crpix1 h.cdelt1 x ∧
      cubeCoord h.crpix1 h.cdelt1 x ≤ (1 + h.naxis1 - h.crpix1) * h.cdelt1 := by
    unfold cubeCoord
    constructor <;> apply mul_le_mul_of_nonneg_right _ hd1.le
    · have : (0 : ℝ) ≤ x := x.cast_nonneg
      linarith
    · linarith
  have by' : (1 - h.crpix2) * h.cdelt2 ≤ cubeCoord h.crpix2 h.cdelt2 y ∧
      cubeCoord h.crpix2 h.cdelt2 y ≤ (1 + h.naxis2 - h.crpix2) * h.cdelt2 := by
    unfold cubeCoord
    constructor <;> apply mul_le_mul_of_nonneg_right _ hd2.le
    · have : (0 : ℝ) ≤ y := y.cast_nonneg
      linarith
    · linarith
  rw [interpolate_eq hname hp hh (by simp) (fun c hc => by
    rw [List.mem_singleton] at hc
    rw [hc]
    exact ⟨bx.1, bx.2, by'.1, by'.2⟩) [f]
    (fun _ _ => ((a + b * (y * (h.naxis1 - 1) / h.naxis2) + c * (x * (h.naxis2 - 1) / h.naxis1) + d * f : ℝ) : ℂ))
    (fun c' hc f' hf => ?_)]
  · rfl
  · rw [List.mem_singleton] at hc hf
    subst hf
    rw [hc]
    rw [C42_linear h.naxis2 h.naxis1 h.naxis3 hh.n2 hh.n1 hh.n3 a c b d
      (cubeExtents h.naxis1 h.crpix1 h.cdelt1, cubeExtents h.naxis2 h.crpix2 h.cdelt2)
      (by simp only [cubeExtents]; nlinarith) (by simp only [cubeExtents]; nlinarith) (cubeFreqs h)
      (increasing_freqs hh.d3 _) hpos _ (fun i j k i0 i1 j0 j1 k0 k1 => ?_) _ _ _ bx.1 bx.2 by'.1 by'.2 hf1 hf2]
    · congr 2
      have e1 : gridIndex h.naxis2 ((1 - h.crpix1) * h.cdelt1) ((1 + h.naxis1 - h.crpix1) * h.cdelt1)
          (cubeCoord h.crpix1 h.cdelt1 x) = x * (h.naxis2 - 1) / h.naxis1 := by
        unfold gridIndex cubeCoord
        rw [show ((x : ℝ) + 1 - h.crpix1) * h.cdelt1 - (1 - h.crpix1) * h.cdelt1 = x * h.cdelt1 by ring,
          show (1 + (h.naxis1 : ℝ) - h.crpix1) * h.cdelt1 - (1 - h.crpix1) * h.cdelt1 = h.naxis1 * h.cdelt1 by ring,
          mul_div_mul_right _ _ hd1.ne']
        ring
      have e2 : gridIndex h.naxis1 ((1 - h.crpix2) * h.cdelt2) ((1 + h.naxis2 - h.crpix2) * h.cdelt2)
          (cubeCoord h.crpix2 h.cdelt2 y) = y * (h.naxis1 - 1) / h.naxis2 := by
        unfold gridIndex cubeCoord
        rw [show ((y : ℝ) + 1 - h.crpix2) * h.cdelt2 - (1 - h.crpix2) * h.cdelt2 = y * h.cdelt2 by ring,
          show (1 + (h.naxis2 : ℝ) - h.crpix2) * h.cdelt2 - (1 - h.crpix2) * h.cdelt2 = h.naxis2 * h.cdelt2 by ring,
          mul_div_mul_right _ _ hd2.ne']
        ring
      simp only [cubeExtents]
      rw [e1, e2]
      ring
    · obtain ⟨v1, v2⟩ := hb k.toNat i.toNat j.toNat (by omega) (by omega) (by omega)
      rw [v1] at v2 ⊢
      have ci : ((i.toNat : Nat) : ℝ) = i := by exact_mod_cast Int.toNat_of_nonneg i0
      have cj : ((j.toNat : Nat) : ℝ) = j := by exact_mod_cast Int.toNat_of_nonneg j0
      have ck : ((k.toNat : Nat) : Int) = k := Int.toNat_of_nonneg k0
      rw [ci, cj, ck] at v2 ⊢
      constructor
      · congr 1; ring
      · linarith

/-- A header of a beam of two by two pixels and two frequencies. -/
noncomputable def cubeWitness (delta1 : ℝ) : CubeHeader :=
  { cunit1 := "deg", cunit2 := "deg", ctype3 := "FREQ", naxis1 := 2, naxis2 := 2, naxis3 := 2, crpix1 := 1, crpix2 := 1,
    crpix3 := 1, cdelt1 := delta1, cdelt2 := 1, cdelt3 := 1, crval3 := 1 }

/-- Four files of which only the first has values other than zero. -/
noncomputable def cubeFiles (delta1 : ℝ) (data : Nat → Nat → Nat → ℝ) : List CubeFile :=
  [⟨"beam_xx_re.fits", cubeWitness delta1, data⟩, ⟨"beam_xx_im.fits", cubeWitness delta1, fun _ _ _ => 0⟩,
    ⟨"beam_yy_re.fits", cubeWitness delta1, fun _ _ _ => 0⟩, ⟨"beam_yy_im.fits", cubeWitness delta1, fun _ _ _ => 0⟩]

private theorem witness_power (delta1 : ℝ) (data : Nat → Nat → Nat → ℝ) :
    ∃ power, beamPower (cubeFiles delta1 data) = .ok (cubeWitness delta1, power) ∧
      ∀ k y x, power k y x = data k y x ^ 2 / 2 := by
  obtain ⟨power, h1, h2⟩ := C166_names "beam" "xx" "yy" (by decide) (by simp) _ _ _ _ rfl rfl rfl rfl
    (cubeFiles delta1 data) (List.Perm.refl _)
  refine ⟨power, h1, fun k y x => ?_⟩
  rw [h2, ← Complex.normSq_eq_norm_sq, ← Complex.normSq_eq_norm_sq, Complex.normSq_mk, Complex.normSq_mk]
  ring

private theorem witness_good : GoodCube (cubeWitness 1) := by
  refine ⟨Or.inl rfl, Or.inl rfl, rfl, le_refl _, le_refl _, le_refl _, ?_, ?_, ?_, ?_⟩ <;>
    simp [cubeWitness, cubeFreqs]

/-- **C166** fails: axes are exchanged and stretched. A beam that is zero except at the second pixel of the first axis, where
it is one half, is given as zero at that pixel, and as one quarter instead of zero at the second pixel of the second
axis. -/
theorem C166_axes_violated :
    let data : Nat → Nat → Nat → ℝ := fun _ _ x => if x = 1 then 1 else 0
    interpolateBeam "beam" (cubeFiles 1 data) [(1, 0)] [1] = .ok [[0]] ∧
    interpolateBeam "beam" (cubeFiles 1 data) [(0, 1)] [1] = .ok [[((1 / 4 : ℝ) : ℂ)]] ∧
    ∃ power, beamPower (cubeFiles 1 data) = .ok (cubeWitness 1, power) ∧ power 0 0 1 = 1 / 2 ∧ power 0 1 0 = 0 := by
  intro data
  obtain ⟨power, h1, h2⟩ := witness_power 1 data
  have hb : ∀ k y x : Nat, k < (cubeWitness 1).naxis3 → y < (cubeWitness 1).naxis2 → x < (cubeWitness 1).naxis1 →
      power k y x = 0 + 1 / 2 * x + 0 * y + 0 * cubeFreqs (cubeWitness 1) k ∧ 0 ≤ power k y x := by
    intro k y x _ _ hx
    rw [h2]
    have : x = 0 ∨ x = 1 := by simp only [cubeWitness] at hx; omega
    rcases this with rfl | rfl <;> simp [data]
  have hf1 : cubeFreqs (cubeWitness 1) 0 ≤ 1 := by simp [cubeWitness, cubeFreqs]
  have hf2 : 1 ≤ cubeFreqs (cubeWitness 1) (((cubeWitness 1).naxis3 : Int) - 1) := by simp [cubeWitness, cubeFreqs]
  have r1 := C166_linear "beam" (by decide) _ _ power h1 witness_good 0 (1 / 2) 0 0 hb 1 0 (by simp [cubeWitness])
    (by simp [cubeWitness]) 1 hf1 hf2
  have r2 := C166_linear "beam" (by decide) _ _ power h1 witness_good 0 (1 / 2) 0 0 hb 0 1 (by simp [cubeWitness])
    (by simp [cubeWitness]) 1 hf1 hf2
  have p1 : (cubeCoord (cubeWitness 1).crpix1 (cubeWitness 1).cdelt1 1,
      cubeCoord (cubeWitness 1).crpix2 (cubeWitness 1).cdelt2 0) = ((1 : ℝ), (0 : ℝ)) := by
    simp [cubeCoord, cubeWitness]
  have p2 : (cubeCoord (cubeWitness 1).crpix1 (cubeWitness 1).cdelt1 0,
      cubeCoord (cubeWitness 1).crpix2 (cubeWitness 1).cdelt2 1) = ((0 : ℝ), (1 : ℝ)) := by
    simp [cubeCoord, cubeWitness]
  rw [p1] at r1
  rw [p2] at r2
  refine ⟨?_, ?_, power, h1, ?_, ?_⟩
  · rw [r1]; simp
  · rw [r2]; norm_num [cubeWitness]
  · rw [h2]; simp [data]
  · rw [h2]; simp [data]

/-- **C166** fails: a beam whose first axis runs against the coordinate, as is usual, is always refused. -/
theorem C166_negative_violated (name : String) (files : List CubeFile) (h : CubeHeader) (power : Nat → Nat → Nat → ℝ)
    (hname : name ≠ "eidos") (hp : beamPower files = .ok (h, power)) (hn : 0 < h.naxis1)
    (hd : h.cdelt1 < 0 ∨ h.cdelt2 < 0 ∧ 0 < h.naxis2)
    (coords : List (ℝ × ℝ)) (freqs : List ℝ) : interpolateBeam name files coords freqs = .error .valueError := by
  unfold interpolateBeam
  rw [if_neg hname, hp]
  rw [ok_bind]
  by_cases u1 : h.cunit1 ≠ "DEG" ∧ h.cunit1 ≠ "deg"
  · simp only [if_pos u1]; rfl
  by_cases u2 : h.cunit2 ≠ "DEG" ∧ h.cunit2 ≠ "deg"
  · simp only [if_neg u1, if_pos u2]; rfl
  by_cases u3 : coords = []
  · simp only [if_neg u1, if_neg u2, if_pos u3]; rfl
  have hn' : (0 : ℝ) < h.naxis1 := by exact_mod_cast hn
  have u4 : ∃ c ∈ coords, (cubeExtents h.naxis1 h.crpix1 h.cdelt1).1 > c.1 ∨
      (cubeExtents h.naxis2 h.crpix2 h.cdelt2).1 > c.2 ∨ (cubeExtents h.naxis1 h.crpix1 h.cdelt1).2 < c.1 ∨
      (cubeExtents h.naxis2 h.crpix2 h.cdelt2).2 < c.2 := by
    obtain ⟨c, hc⟩ := List.exists_mem_of_ne_nil _ u3
    refine ⟨c, hc, ?_⟩
    simp only [cubeExtents]
    by_contra hcon
    push Not at hcon
    obtain ⟨a1, a2, a3, a4⟩ := hcon
    rcases hd with hd | ⟨hd, h2⟩
    · nlinarith
    · have : (0 : ℝ) < h.naxis2 := by exact_mod_cast h2
      nlinarith
  simp only [if_neg u1, if_neg u2, if_neg u3, if_pos u4]
  rfl

/-- Cubes in other units, without a frequency axis, or that do not cover the components are refused, as are missing
files. -/
theorem C166_refused (name : String) (files : List CubeFile) (h : CubeHeader) (power : Nat → Nat → Nat → ℝ)
    (hname : name ≠ "eidos") (hp : beamPower files = .ok (h, power)) (coords : List (ℝ × ℝ)) (freqs : List ℝ)
    (hbad : (h.cunit1 ≠ "deg" ∧ h.cunit1 ≠ "DEG") ∨ (h.cunit2 ≠ "deg" ∧ h.cunit2 ≠ "DEG") ∨ h.ctype3 ≠ "FREQ" ∨
      ¬ InCube h coords) : interpolateBeam name files coords freqs = .error .valueError := by
  unfold interpolateBeam
  rw [if_neg hname, hp]
  rw [ok_bind]
  by_cases u1 : h.cunit1 ≠ "DEG" ∧ h.cunit1 ≠ "deg"
  · simp only [if_pos u1]; rfl
  by_cases u2 : h.cunit2 ≠ "DEG" ∧ h.cunit2 ≠ "deg"
  · simp only [if_neg u1, if_pos u2]; rfl
  by_cases u3 : coords = []
  · simp only [if_neg u1, if_neg u2, if_pos u3]; rfl
  by_cases u4 : ∃ c ∈ coords, (cubeExtents h.naxis1 h.crpix1 h.cdelt1).1 > c.1 ∨
      (cubeExtents h.naxis2 h.crpix2 h.cdelt2).1 > c.2 ∨ (cubeExtents h.naxis1 h.crpix1 h.cdelt1).2 < c.1 ∨
      (cubeExtents h.naxis2 h.crpix2 h.cdelt2).2 < c.2
  · simp only [if_neg u1, if_neg u2, if_neg u3, if_pos u4]; rfl
  by_cases u5 : h.ctype3 ≠ "FREQ"
  · simp only [if_neg u1, if_neg u2, if_neg u3, if_neg u4, if_pos u5]; rfl
  exfalso
  rcases hbad with hb | hb | hb | hb
  · exact u1 ⟨hb.2, hb.1⟩
  · exact u2 ⟨hb.2, hb.1⟩
  · exact u5 hb
  · refine hb fun c hc => ?_
    have := not_imp_not.2 (fun hx => (⟨c, hc, hx⟩ : ∃ c ∈ coords, _)) u4
    simp only [cubeExtents] at this
    push Not at this
    exact ⟨this.1, this.2.2.1, this.2.1, this.2.2.2⟩

end Verif.Examples
