/-
C47, C48, C50, C51: spectra, shapes and spectral index fits.
-/
import Verif.ModelData.Spectral
import Verif.Rime.PropsTerms
import Mathlib.Analysis.SpecialFunctions.Log.Base

set_option autoImplicit false

namespace Verif.ModelData

open Finset

/-! ### C47 -/

/-- Specification: the documented spectral models. -/
noncomputable def spectralSpec (k : Kind) (stokes : ℝ) (nspi : Nat) (spi : Nat → ℝ) (rf freq : ℝ) : ℝ :=
  match k with
  | .std => stokes * ∏ i ∈ range nspi, (freq / rf) ^ (spi i)
  | .log => Real.exp (Real.log stokes + ∑ i ∈ range nspi, spi i * Real.log (freq / rf) ^ (i + 1))
  | .log10 => (10 : ℝ) ^ (Real.logb 10 stokes + ∑ i ∈ range nspi, spi i * Real.logb 10 (freq / rf) ^ (i + 1))

/-- Specification: the base that applies to polarisation `p`: lists are extended by their last element. -/
def baseAt (p : Nat) : Base → Option BaseVal
  | .scalar b => some b
  | .list l => if p < l.length then l[p]? else l.getLast?
  | .other => none

/-- Specification: what the accepted values of `base` stand for. -/
def baseKind : BaseVal → Option Kind
  | .int 0 => some .std
  | .int 1 => some .log
  | .int 2 => some .log10
  | .str "std" => some .std
  | .str "log" => some .log
  | .str "log10" => some .log10
  | _ => none

theorem classify_eq (b : BaseVal) : classify b = match baseKind b with
    | some k => .ok k
    | none => .error .valueError := by
  cases b with
  | int i =>
    by_cases h0 : i = 0
    · subst h0; rfl
    · by_cases h1 : i = 1
      · subst h1; rfl
      · by_cases h2 : i = 2
        · subst h2; rfl
        · have : baseKind (.int i) = none := by
            unfold baseKind; split <;> simp_all
          simp [classify, h0, h1, h2, this]
  | str s =>
    by_cases h0 : s = "std"
    · subst h0; rfl
    · by_cases h1 : s = "log"
      · subst h1; rfl
      · by_cases h2 : s = "log10"
        · subst h2; rfl
        · have : baseKind (.str s) = none := by
            unfold baseKind; split <;> simp_all
          simp [classify, h0, h1, h2, this]

theorem forRange_mul (n : Nat) (init : ℝ) (g : Nat → ℝ) :
    (forRange n init fun i s => s * g i) = init * ∏ i ∈ range n, g i := by
  induction n with
  | zero => simp
  | succ n ih => rw [forRange_succ, ih, prod_range_succ]; ring

theorem forRange_add (n : Nat) (init : ℝ) (g : Nat → ℝ) :
    (forRange n init fun i s => s + g i) = init + ∑ i ∈ range n, g i :=
  forRange_sum (fun s => s) g fun _ _ _ => rfl

theorem specCell_eq (k : Kind) (stokes : ℝ) (nspi : Nat) (spi : Nat → ℝ) (rf freq : ℝ) :
    specCell k stokes nspi spi rf freq = spectralSpec k stokes nspi spi rf freq := by
  cases k with
  | std => exact forRange_mul _ _ _
  | log => simp only [specCell, spectralSpec]; rw [forRange_add]
  | log10 => simp only [specCell, spectralSpec]; rw [forRange_add]; rfl

theorem kindsOf_ok {l : List BaseVal} {ks : List Kind} (h : kindsOf l = .ok ks) :
    ks.length = l.length ∧ ∀ (p : Nat) (b : BaseVal), l[p]? = some b → ∃ k, baseKind b = some k ∧ ks[p]? = some k := by
  induction l generalizing ks with
  | nil => simp only [kindsOf, Except.ok.injEq] at h; subst h; simp
  | cons b l ih =>
    simp only [kindsOf, classify_eq] at h
    cases hb : baseKind b with
    | none => rw [hb] at h; cases h
    | some k =>
      rw [hb] at h
      simp only at h
      cases hl : kindsOf l with
      | error e => rw [hl] at h; cases h
      | ok ks' =>
        rw [hl] at h
        simp only [Except.ok.injEq] at h
        subst h
        obtain ⟨h1, h2⟩ := ih hl
        refine ⟨by simp [h1], ?_⟩
        intro p b' hp
        cases p with
        | zero =>
          simp only [List.getElem?_cons_zero, Option.some.injEq] at hp
          subst hp
          exact ⟨k, hb, by simp⟩
        | succ p => simpa using h2 p b' (by simpa using hp)

theorem kindsOf_error {l : List BaseVal} {e : PyErr} (h : kindsOf l = .error e) :
    e = .valueError ∧ ∃ (p : Nat) (b : BaseVal), l[p]? = some b ∧ baseKind b = none := by
  induction l with
  | nil => cases h
  | cons b l ih =>
    simp only [kindsOf, classify_eq] at h
    cases hb : baseKind b with
    | none =>
      rw [hb] at h
      exact ⟨(Except.error.inj h).symm, 0, b, by simp, hb⟩
    | some k =>
      rw [hb] at h
      simp only at h
      cases hl : kindsOf l with
      | error e' =>
        rw [hl] at h
        obtain rfl := Except.error.inj h
        obtain ⟨h1, p, b', h2, h3⟩ := ih hl
        exact ⟨h1, p + 1, b', by simpa using h2, h3⟩
      | ok ks' => rw [hl] at h; cases h

theorem promoteBase_ok {npol : Nat} {base : Base} {l : List BaseVal} (h : promoteBase npol base = .ok l) :
    npol ≤ l.length ∧ ∀ p < npol, l[p]? = baseAt p base ∧ (baseAt p base).isSome := by
  cases base with
  | other => cases h
  | scalar b =>
    simp only [promoteBase, Except.ok.injEq] at h
    subst h
    refine ⟨by simp, fun p hp => ⟨?_, rfl⟩⟩
    rw [List.getElem?_replicate, if_pos hp]; rfl
  | list m =>
    simp only [promoteBase] at h
    cases hm : m.getLast? with
    | none => rw [hm] at h; cases h
    | some b =>
      rw [hm] at h
      simp only [Except.ok.injEq] at h
      subst h
      refine ⟨by simp; omega, fun p hp => ?_⟩
      simp only [baseAt]
      by_cases hpm : p < m.length
      · rw [if_pos hpm, List.getElem?_append_left hpm]
        exact ⟨rfl, by rw [List.getElem?_eq_getElem hpm]; rfl⟩
      · rw [if_neg hpm, List.getElem?_append_right (by omega), List.getElem?_replicate, if_pos (by omega), hm]
        exact ⟨rfl, rfl⟩

/-- **C47** With matching polarisation axes and a known base for every polarisation, every cell is the documented
spectral model of its source, channel and polarisation. -/
theorem C47_value (sdims pdims : List Nat) (nspi : Nat) (stokes : Nat → Nat → ℝ) (spi : Nat → Nat → Nat → ℝ)
    (refFreq freq : Nat → ℝ) (base : Base) (hd : pdims.length = sdims.length) (hp : sdims.prod = pdims.prod)
    (kind : Nat → Kind) (nonempty : base ≠ .list []) (scalar : base ≠ .other)
    (hk : ∀ p < sdims.prod, (baseAt p base).bind baseKind = some (kind p)) :
    ∃ out, spectralModel sdims pdims nspi stokes spi refFreq freq base = .ok out ∧
      ∀ s f, ∀ p < sdims.prod, out s f p =
        spectralSpec (kind p) (stokes s p) nspi (fun i => spi s i p) (refFreq s) (freq f) := by
  obtain ⟨l, hl⟩ : ∃ l, promoteBase sdims.prod base = .ok l := by
    cases base with
    | other => exact absurd rfl scalar
    | scalar b => exact ⟨_, rfl⟩
    | list m =>
      cases hm : m.getLast? with
      | none => rw [List.getLast?_eq_none_iff] at hm; exact absurd (by rw [hm]) nonempty
      | some b => exact ⟨m ++ List.replicate (sdims.prod - m.length) b, by simp only [promoteBase, hm]⟩
  have hl' := promoteBase_ok hl
  have key : spectralModel sdims pdims nspi stokes spi refFreq freq base =
      spectralLoop sdims.prod nspi stokes spi refFreq freq l := by
    cases base with
    | other => exact absurd rfl scalar
    | scalar b => simp only [spectralModel, hd, hp.symm, ne_eq, not_true_eq_false, if_false, hl]
    | list m => simp only [spectralModel, hd, hp.symm, ne_eq, not_true_eq_false, if_false, hl]
  rw [key]
  unfold spectralLoop
  cases hks : kindsOf (l.take sdims.prod) with
  | error e =>
    exfalso
    obtain ⟨_, p, b, h1, h2⟩ := kindsOf_error hks
    have hp' : p < sdims.prod := by
      have := (List.getElem?_eq_some_iff.1 h1).1
      simp at this; omega
    rw [List.getElem?_take_of_lt hp', (hl'.2 p hp').1] at h1
    have := hk p hp'
    rw [h1, Option.bind_some, h2] at this
    cases this
  | ok ks =>
    refine ⟨_, rfl, fun s f p hp' => ?_⟩
    obtain ⟨_, h2⟩ := kindsOf_ok hks
    have hpk := hk p hp'
    obtain ⟨h3, h4⟩ := hl'.2 p hp'
    obtain ⟨b, hb⟩ := Option.isSome_iff_exists.1 h4
    rw [hb, Option.bind_some] at hpk
    obtain ⟨k, hk1, hk2⟩ := h2 p b (by rw [List.getElem?_take_of_lt hp', h3, hb])
    rw [hpk] at hk1
    cases hk1
    rw [specCell_eq, List.getD_eq_getElem?_getD, hk2]
    rfl

example : ∀ p < [2].prod, (baseAt p (.list [.str "log", .str "std"])).bind baseKind =
    some (if p = 0 then .log else .std) := by
  intro p hp
  have : p = 0 ∨ p = 1 := by simp at hp; omega
  rcases this with rfl | rfl <;> rfl

/-- **C47** At the reference frequency the model is the source's Stokes value (positive for the logarithmic models), for
every number of spectral indices and every value of them. -/
theorem C47_reference (k : Kind) (stokes : ℝ) (nspi : Nat) (spi : Nat → ℝ) (rf : ℝ) (hrf : 0 < rf)
    (hs : k ≠ .std → 0 < stokes) : specCell k stokes nspi spi rf rf = stokes := by
  rw [specCell_eq]
  cases k with
  | std => simp [spectralSpec, div_self hrf.ne']
  | log => simp [spectralSpec, div_self hrf.ne', Real.exp_log (hs (by simp))]
  | log10 =>
    simp only [spectralSpec, div_self hrf.ne', Real.logb_one]
    simp only [ne_eq, Nat.add_eq_zero_iff, one_ne_zero, and_false, not_false_eq_true, zero_pow, mul_zero, sum_const_zero,
      add_zero]
    exact Real.rpow_logb (by norm_num) (by norm_num) (hs (by simp))

/-- **C47** Zero spectral indices: no dependence on frequency. -/
theorem C47_flat (k : Kind) (stokes : ℝ) (nspi : Nat) (rf freq : ℝ) (hs : k ≠ .std → 0 < stokes) :
    specCell k stokes nspi (fun _ => 0) rf freq = stokes := by
  rw [specCell_eq]
  cases k with
  | std => simp [spectralSpec]
  | log => simp [spectralSpec, Real.exp_log (hs (by simp))]
  | log10 =>
    simp only [spectralSpec, zero_mul, sum_const_zero, add_zero]
    exact Real.rpow_logb (by norm_num) (by norm_num) (hs (by simp))

/-- **C47** The standard model is a power law whose index is the sum of the spectral indices. -/
theorem C47_power_law (stokes : ℝ) (nspi : Nat) (spi : Nat → ℝ) (rf freq : ℝ) (h : 0 < freq / rf) :
    specCell .std stokes nspi spi rf freq = stokes * (freq / rf) ^ (∑ i ∈ range nspi, spi i) := by
  rw [specCell_eq, spectralSpec, Real.rpow_sum_of_pos h]

/-- **C47** With one spectral index the three models are the same power law. -/
theorem C47_models_agree (stokes alpha rf freq : ℝ) (hs : 0 < stokes) (h : 0 < freq / rf) (k : Kind) :
    specCell k stokes 1 (fun _ => alpha) rf freq = stokes * (freq / rf) ^ alpha := by
  rw [specCell_eq]
  cases k with
  | std => simp [spectralSpec]
  | log =>
    simp only [spectralSpec, sum_range_one, zero_add, pow_one]
    rw [Real.exp_add, Real.exp_log hs, Real.rpow_def_of_pos h, mul_comm alpha]
  | log10 =>
    simp only [spectralSpec, sum_range_one, zero_add, pow_one]
    rw [Real.rpow_add (by norm_num), Real.rpow_logb (by norm_num) (by norm_num) hs, mul_comm alpha,
      Real.rpow_mul (by norm_num), Real.rpow_logb (by norm_num) (by norm_num) h]

example : specCell .log10 3 1 (fun _ => 2) 1 5 = 75 := by
  rw [C47_models_agree _ _ _ _ (by norm_num) (by norm_num)]; norm_num

/-- **C47** Invalid calls: a base that is neither number nor string raises `TypeError`, disagreeing polarisation axes and
unknown bases raise `ValueError`. -/
theorem C47_errors (sdims pdims : List Nat) (nspi : Nat) (stokes : Nat → Nat → ℝ) (spi : Nat → Nat → Nat → ℝ)
    (refFreq freq : Nat → ℝ) (base : Base) (nonempty : base ≠ .list []) :
    (base = .other → spectralModel sdims pdims nspi stokes spi refFreq freq base = .error .typeError) ∧
    (base ≠ .other → (pdims.length ≠ sdims.length ∨ sdims.prod ≠ pdims.prod ∨
      ∃ p < sdims.prod, (baseAt p base).bind baseKind = none) →
      spectralModel sdims pdims nspi stokes spi refFreq freq base = .error .valueError) := by
  refine ⟨fun h => by rw [h]; rfl, fun hb h => ?_⟩
  have key : spectralModel sdims pdims nspi stokes spi refFreq freq base =
      if pdims.length ≠ sdims.length then .error .valueError
      else if sdims.prod ≠ pdims.prod then .error .valueError
      else match promoteBase sdims.prod base with
        | .error e => .error e
        | .ok listBase => spectralLoop sdims.prod nspi stokes spi refFreq freq listBase := by
    cases base with
    | other => exact absurd rfl hb
    | scalar b => rfl
    | list m => rfl
  rw [key]
  by_cases h1 : pdims.length ≠ sdims.length
  · rw [if_pos h1]
  · rw [if_neg h1]
    by_cases h2 : sdims.prod ≠ pdims.prod
    · rw [if_pos h2]
    · rw [if_neg h2]
      obtain ⟨p, hp, hpb⟩ : ∃ p < sdims.prod, (baseAt p base).bind baseKind = none := by tauto
      cases hl : promoteBase sdims.prod base with
      | error e =>
        cases base with
        | other => exact absurd rfl hb
        | scalar b => cases hl
        | list m =>
          simp only [promoteBase] at hl
          cases hm : m.getLast? with
          | none => rw [List.getLast?_eq_none_iff] at hm; exact absurd (by rw [hm]) nonempty
          | some b => rw [hm] at hl; cases hl
      | ok l =>
        simp only [spectralLoop]
        cases hks : kindsOf (l.take sdims.prod) with
        | error e => rw [(kindsOf_error hks).1]
        | ok ks =>
          exfalso
          obtain ⟨h3, h4⟩ := (promoteBase_ok hl).2 p hp
          obtain ⟨b, hb⟩ := Option.isSome_iff_exists.1 h4
          obtain ⟨k, hk1, _⟩ := (kindsOf_ok hks).2 p b (by rw [List.getElem?_take_of_lt hp, h3, hb])
          rw [hb, Option.bind_some, hk1] at hpb
          cases hpb

theorem map_range_prod (n : Nat) (g : Nat → ℝ) : ((List.range n).map g).prod = ∏ i ∈ range n, g i := by
  induction n with
  | zero => simp
  | succ n ih => rw [List.range_succ, List.map_append, List.prod_append, ih, prod_range_succ]; simp

theorem map_range_sum (n : Nat) (g : Nat → ℝ) : ((List.range n).map g).sum = ∑ i ∈ range n, g i := by
  induction n with
  | zero => simp
  | succ n ih => rw [List.range_succ, List.map_append, List.sum_append, ih, sum_range_succ]; simp

/-- **C47** The numpy implementation agrees with the compiled one whenever it has no more bases than polarisations. -/
theorem C47_numpy_agrees (npol nspi : Nat) (stokes : Nat → Nat → ℝ) (spi : Nat → Nat → Nat → ℝ)
    (refFreq freq : Nat → ℝ) (base : Base) (len : ∀ l, base = .list l → l.length ≤ npol) :
    numpySpectralModel npol nspi stokes spi refFreq freq base =
      spectralModel [npol] [npol] nspi stokes spi refFreq freq base := by
  have cell : ∀ k stokes spi rf freq, npSpecCell k stokes nspi spi rf freq = specCell k stokes nspi spi rf freq := by
    intro k stokes spi rf freq
    rw [specCell_eq]
    cases k with
    | std => simp only [npSpecCell, spectralSpec, map_range_prod]
    | log => simp only [npSpecCell, spectralSpec, map_range_sum]
    | log10 => simp only [npSpecCell, spectralSpec, map_range_sum]; rfl
  cases base with
  | other => rfl
  | scalar b =>
    simp only [numpySpectralModel, spectralModel, spectralLoop, promoteBase, List.length_replicate, lt_self_iff_false, if_false,
      List.prod_cons, List.prod_nil, mul_one, ne_eq, not_true_eq_false, cell]
  | list m =>
    have hm := len m rfl
    simp only [numpySpectralModel, spectralModel, spectralLoop, promoteBase, List.prod_cons, List.prod_nil, mul_one, ne_eq,
      not_true_eq_false, if_false, cell]
    cases m.getLast? with
    | none => rfl
    | some b =>
      simp only [List.length_append, List.length_replicate]
      cases kindsOf (List.take npol (m ++ List.replicate (npol - m.length) b)) with
      | error e => rfl
      | ok ks => exact if_neg (by omega)

/-! ### C48 -/

/-- Specification: ordinary polynomial spectrum. -/
noncomputable def ordinarySpectrum (flux : ℝ) (n : Nat) (coeffs : Nat → ℝ) (nu nu0 : ℝ) : ℝ :=
  flux + ∑ k ∈ range n, coeffs k * (nu / nu0 - 1) ^ (k + 1)

/-- Specification: logarithmic polynomial spectrum. -/
noncomputable def logSpectrum (flux : ℝ) (n : Nat) (coeffs : Nat → ℝ) (nu nu0 : ℝ) : ℝ :=
  Real.exp (Real.log flux + ∑ k ∈ range n, coeffs k * Real.log (nu / nu0) ^ (k + 1))

theorem logTerms_ok (n : Nat) (coeffs : Nat → ℝ) (nu rf init : ℝ) (h : ∀ c < n, 0 < coeffs c) :
    logTerms n coeffs nu rf init = .ok (init + ∑ k ∈ range n, coeffs k * Real.log (nu / rf) ^ (k + 1)) := by
  unfold logTerms
  induction n with
  | zero => simp
  | succ n ih =>
    rw [forRangeM_succ, ih fun c hc => h c (by omega)]
    simp only [bind, Except.bind]
    rw [if_neg (not_le.2 (h n (by omega))), sum_range_succ, add_assoc]

theorem logTerms_error (n : Nat) (coeffs : Nat → ℝ) (nu rf init : ℝ) (h : ∃ c < n, coeffs c ≤ 0) :
    logTerms n coeffs nu rf init = .error .valueError := by
  unfold logTerms
  induction n with
  | zero => obtain ⟨c, hc, _⟩ := h; omega
  | succ n ih =>
    rw [forRangeM_succ]
    by_cases h' : ∃ c < n, coeffs c ≤ 0
    · rw [ih h']; rfl
    · have h0 : ∀ c < n, 0 < coeffs c := fun c hc => not_le.1 fun hle => h' ⟨c, hc, hle⟩
      have := logTerms_ok n coeffs nu rf init h0
      unfold logTerms at this
      rw [this]
      simp only [bind, Except.bind]
      obtain ⟨c, hc, hle⟩ := h
      obtain rfl : c = n := by
        by_contra hne
        exact h' ⟨c, by omega, hle⟩
      rw [if_pos hle]

/-- The cells that make `spectra` fail. -/
def BadLogSource (flux : ℝ) (n : Nat) (coeffs : Nat → ℝ) : Prop := flux ≤ 0 ∨ ∃ c < n, coeffs c ≤ 0

theorem logCell_ok {flux : ℝ} {n : Nat} {coeffs : Nat → ℝ} (nu rf : ℝ) (h : ¬ BadLogSource flux n coeffs) :
    logCell flux n coeffs nu rf = .ok (logSpectrum flux n coeffs nu rf) := by
  unfold BadLogSource at h
  push Not at h
  simp only [logCell]
  rw [if_neg (not_le.2 h.1), logTerms_ok _ _ _ _ _ h.2]
  rfl

theorem logCell_error {flux : ℝ} {n : Nat} {coeffs : Nat → ℝ} (nu rf : ℝ) (h : BadLogSource flux n coeffs) :
    logCell flux n coeffs nu rf = .error .valueError := by
  simp only [logCell]
  by_cases hf : flux ≤ 0
  · rw [if_pos hf]
  · rw [if_neg hf, logTerms_error _ _ _ _ _ (h.resolve_left hf)]

theorem source_ok (lp : Bool) (flux : ℝ) (n : Nat) (coeffs : Nat → ℝ) (rf : ℝ) (nchan : Nat) (freq row : Nat → ℝ)
    (h : lp = true → ¬ BadLogSource flux n coeffs) :
    ∃ row', spectraSource lp flux n coeffs rf nchan freq row = .ok row' ∧ ∀ f < nchan, row' f =
      if lp then logSpectrum flux n coeffs (freq f) rf else ordinarySpectrum flux n coeffs (freq f) rf := by
  unfold spectraSource
  induction nchan with
  | zero => exact ⟨row, rfl, by simp⟩
  | succ m ih =>
    obtain ⟨row', h1, h2⟩ := ih
    rw [forRangeM_succ, h1]
    simp only [bind, Except.bind]
    have ins : ∀ v, v = (if lp then logSpectrum flux n coeffs (freq m) rf else ordinarySpectrum flux n coeffs (freq m) rf) →
        ∀ f < m + 1, Function.update row' m v f =
          if lp then logSpectrum flux n coeffs (freq f) rf else ordinarySpectrum flux n coeffs (freq f) rf := by
      intro v hv f hf
      by_cases hfm : f = m
      · subst hfm; rw [Function.update_self, hv]
      · rw [Function.update_of_ne hfm]; exact h2 f (by omega)
    cases lp with
    | true =>
      rw [if_pos rfl, logCell_ok _ _ (h rfl)]
      exact ⟨_, rfl, ins _ (by simp)⟩
    | false =>
      refine ⟨_, rfl, ins _ ?_⟩
      simp only [Bool.false_eq_true, if_false]
      exact forRange_add _ _ _

theorem source_error (flux : ℝ) (n : Nat) (coeffs : Nat → ℝ) (rf : ℝ) (nchan : Nat) (freq row : Nat → ℝ)
    (h : BadLogSource flux n coeffs) (hn : 0 < nchan) :
    spectraSource true flux n coeffs rf nchan freq row = .error .valueError := by
  unfold spectraSource
  induction nchan with
  | zero => omega
  | succ m ih =>
    rw [forRangeM_succ]
    by_cases hm : 0 < m
    · rw [ih hm]; rfl
    · obtain rfl : m = 0 := by omega
      simp only [forRangeM_zero, bind, Except.bind, if_true]
      rw [logCell_error _ _ h]

theorem source_empty (lp : Bool) (flux : ℝ) (n : Nat) (coeffs : Nat → ℝ) (rf : ℝ) (freq row : Nat → ℝ) :
    spectraSource lp flux n coeffs rf 0 freq row = .ok row := rfl

/-- `log_poly` fits `n` sources: it is one boolean, or an array of exactly `n`. -/
def LogPoly.Fits (lp : LogPoly) (n : Nat) : Prop := match lp with
  | .array m _ => m = n
  | .scalar _ => True
  | .other => False

theorem LogPoly.badShape_iff (lp : LogPoly) (n : Nat) : lp.badShape n = true ↔ ¬ lp.Fits n := by
  cases lp with
  | array m l => 
    simp only [LogPoly.badShape, LogPoly.Fits, bne_iff_ne]
    exact not_congr eq_comm
  | scalar b => simp [LogPoly.badShape, LogPoly.Fits]
  | other => simp [LogPoly.badShape, LogPoly.Fits]

/-- **C48** Spectra of sources: ordinary sources get the ordinary polynomial, logarithmic sources with positive flux and
positive coefficients the logarithmic polynomial. (The documented formula has no condition on the coefficients: see
`C48_violated`.) -/
theorem C48_value_partial (nsrc nchan n : Nat) (flux : Nat → ℝ) (coeffs : Nat → Nat → ℝ) (lp : LogPoly)
    (refFreq freq : Nat → ℝ) (empty : Nat → Nat → ℝ) (hfit : lp.Fits nsrc)
    (good : ∀ s < nsrc, lp.at s = true → ¬ BadLogSource (flux s) n (coeffs s)) :
    ∃ out, spectra nsrc nsrc nsrc nchan n flux coeffs lp refFreq freq empty = .ok out ∧
      ∀ s < nsrc, ∀ f < nchan, out s f =
        if lp.at s then logSpectrum (flux s) n (coeffs s) (freq f) (refFreq s)
        else ordinarySpectrum (flux s) n (coeffs s) (freq f) (refFreq s) := by
  have hlp : lp.badShape nsrc = false := by
    rw [← Bool.not_eq_true, LogPoly.badShape_iff, not_not]; exact hfit
  clear hfit
  have key : spectra nsrc nsrc nsrc nchan n flux coeffs lp refFreq freq empty =
      forRangeM nsrc empty fun s out =>
      match spectraSource (lp.at s) (flux s) n (coeffs s) (refFreq s) nchan freq (out s) with
      | .error e => .error e
      | .ok row => .ok (Function.update out s row) := by
    cases lp with
    | other => cases hlp
    | scalar b => simp only [spectra, and_self, not_true_eq_false, if_false, hlp]; rfl
    | array m l => simp only [spectra, and_self, not_true_eq_false, if_false, hlp]; rfl
  rw [key]
  clear key hlp
  induction nsrc with
  | zero => exact ⟨empty, rfl, by simp⟩
  | succ m ih =>
    obtain ⟨out, h1, h2⟩ := ih fun s hs => good s (by omega)
    obtain ⟨row, h3, h4⟩ := source_ok (lp.at m) (flux m) n (coeffs m) (refFreq m) nchan freq (out m) (good m (by omega))
    rw [forRangeM_succ, h1]
    simp only [bind, Except.bind, h3]
    refine ⟨_, rfl, fun s hs f hf => ?_⟩
    by_cases hsm : s = m
    · subst hsm; rw [Function.update_self]; exact h4 f hf
    · rw [Function.update_of_ne hsm]; exact h2 s (by omega) f hf

/-- **C48** Exactly when `spectra` fails: shapes that do not match, or, with at least one channel, a logarithmic source
whose flux or one of whose coefficients is not positive. -/
theorem C48_error_iff (nI nC nR nchan n : Nat) (flux : Nat → ℝ) (coeffs : Nat → Nat → ℝ) (lp : LogPoly)
    (refFreq freq : Nat → ℝ) (empty : Nat → Nat → ℝ) :
    spectra nI nC nR nchan n flux coeffs lp refFreq freq empty = .error .valueError ↔
      (¬ (nI = nC ∧ nC = nR) ∨ ¬ lp.Fits nC ∨
        (0 < nchan ∧ ∃ s < nI, lp.at s = true ∧ BadLogSource (flux s) n (coeffs s))) := by
  rw [← LogPoly.badShape_iff]
  by_cases hs : nI = nC ∧ nC = nR
  · obtain ⟨rfl, rfl⟩ := hs
    cases hb : lp.badShape nI with
    | true =>
      simp only [and_self, not_true_eq_false, true_or, or_true, iff_true]
      cases lp with
      | other => rfl
      | scalar b => simp [LogPoly.badShape] at hb
      | array m l => simp [spectra, hb]
    | false =>
      have hf : lp.Fits nI := by
        by_contra hc
        rw [(LogPoly.badShape_iff lp nI).2 hc] at hb
        cases hb
      by_cases hg : ∀ s < nI, lp.at s = true → ¬ BadLogSource (flux s) n (coeffs s)
      · obtain ⟨out, h1, _⟩ := C48_value_partial nI nchan n flux coeffs lp refFreq freq empty hf hg
        rw [h1]
        constructor
        · intro h; cases h
        · rintro (h | h | ⟨_, s, h2, h3, h4⟩)
          · simp at h
          · cases h
          · exact absurd h4 (hg s h2 h3)
      · push Not at hg
        have key : spectra nI nI nI nchan n flux coeffs lp refFreq freq empty =
            forRangeM nI empty fun s out =>
            match spectraSource (lp.at s) (flux s) n (coeffs s) (refFreq s) nchan freq (out s) with
            | .error e => .error e
            | .ok row => .ok (Function.update out s row) := by
          cases lp with
          | other => cases hb
          | scalar b => simp only [spectra, and_self, not_true_eq_false, if_false, hb]; rfl
          | array m l => simp only [spectra, and_self, not_true_eq_false, if_false, hb]; rfl
        rw [key]
        by_cases hn : 0 < nchan
        · refine iff_of_true ?_ (Or.inr (Or.inr ⟨hn, hg⟩))
          clear key hb hf
          induction nI with
          | zero => obtain ⟨s, h, _⟩ := hg; omega
          | succ m ih =>
            rw [forRangeM_succ]
            by_cases hg' : ∃ s < m, lp.at s = true ∧ BadLogSource (flux s) n (coeffs s)
            · rw [ih hg']; rfl
            · cases hm : (forRangeM m empty fun s out =>
                match spectraSource (lp.at s) (flux s) n (coeffs s) (refFreq s) nchan freq (out s) with
                | .error e => (.error e : Except PyErr (Nat → Nat → ℝ))
                | .ok row => .ok (Function.update out s row)) with
              | error e =>
                exfalso
                obtain ⟨i, st, hi, hst⟩ := forRangeM_error hm
                obtain ⟨row, h3, _⟩ := source_ok (lp.at i) (flux i) n (coeffs i) (refFreq i) nchan freq (st i)
                  (fun h1 h2 => hg' ⟨i, hi, h1, h2⟩)
                rw [h3] at hst
                cases hst
              | ok out =>
                obtain ⟨s, h1, h2, h3⟩ := hg
                obtain rfl : s = m := by
                  by_contra hne
                  exact hg' ⟨s, by omega, h2, h3⟩
                simp only [bind, Except.bind, h2]
                rw [source_error _ _ _ _ _ _ _ h3 hn]
        · obtain rfl : nchan = 0 := by omega
          refine iff_of_false ?_ (by simp)
          intro h
          obtain ⟨i, st, hi, hst⟩ := forRangeM_error h
          rw [source_empty] at hst
          cases hst
  · refine iff_of_true ?_ (Or.inl hs)
    cases lp with
    | other => rfl
    | scalar b => simp only [spectra]; rw [if_pos hs]
    | array m l => simp only [spectra]; rw [if_pos hs]

/-- **C48** Whatever the arguments, the only exception of `spectra` is `ValueError`. -/
theorem C48_error_kind (nI nC nR nchan n : Nat) (flux : Nat → ℝ) (coeffs : Nat → Nat → ℝ) (lp : LogPoly)
    (refFreq freq : Nat → ℝ) (empty : Nat → Nat → ℝ) (e : PyErr)
    (h : spectra nI nC nR nchan n flux coeffs lp refFreq freq empty = .error e) : e = .valueError := by
  have cell : ∀ i f, logCell (flux i) n (coeffs i) f (refFreq i) = .error e → e = .valueError := by
    intro i f h
    unfold logCell at h
    split_ifs at h with h1
    · exact (Except.error.inj h).symm
    · cases ht : logTerms n (coeffs i) f (refFreq i) (Real.log (flux i)) with
      | ok v => rw [ht] at h; cases h
      | error e' =>
        rw [ht] at h
        obtain rfl := Except.error.inj h
        unfold logTerms at ht
        obtain ⟨c, a, _, hc⟩ := forRangeM_error ht
        dsimp only at hc
        split_ifs at hc
        exact (Except.error.inj hc).symm
  have src : ∀ i s, spectraSource (lp.at i) (flux i) n (coeffs i) (refFreq i) nchan freq s = .error e → e = .valueError := by
    intro i s h
    unfold spectraSource at h
    obtain ⟨f, a, _, hf⟩ := forRangeM_error h
    split_ifs at hf
    cases hc : logCell (flux i) n (coeffs i) (freq f) (refFreq i) with
    | ok v => rw [hc] at hf; cases hf
    | error e' =>
      rw [hc] at hf
      obtain rfl := Except.error.inj hf
      exact cell _ _ hc
  have loop : ∀ m, (forRangeM m empty fun s out =>
      match spectraSource (lp.at s) (flux s) n (coeffs s) (refFreq s) nchan freq (out s) with
      | .error e => (.error e : Except PyErr (Nat → Nat → ℝ))
      | .ok row => .ok (Function.update out s row)) = .error e → e = .valueError := by
    intro m h
    obtain ⟨i, st, _, hst⟩ := forRangeM_error h
    cases hs : spectraSource (lp.at i) (flux i) n (coeffs i) (refFreq i) nchan freq (st i) with
    | ok v => rw [hs] at hst; cases hst
    | error e' =>
      rw [hs] at hst
      obtain rfl := Except.error.inj hst
      exact src _ _ hs
  cases lp with
  | other => exact (Except.error.inj h).symm
  | scalar b =>
    simp only [spectra] at h
    split_ifs at h <;> first | exact (Except.error.inj h).symm | exact loop _ h
  | array m l =>
    simp only [spectra] at h
    split_ifs at h <;> first | exact (Except.error.inj h).symm | exact loop _ h

/-- **C48** At the reference frequency both spectra are the flux. -/
theorem C48_reference (flux : ℝ) (n : Nat) (coeffs : Nat → ℝ) (nu0 : ℝ) (h0 : 0 < nu0) :
    ordinarySpectrum flux n coeffs nu0 nu0 = flux ∧ (0 < flux → logSpectrum flux n coeffs nu0 nu0 = flux) := by
  constructor
  · simp [ordinarySpectrum, div_self h0.ne']
  · intro h; simp [logSpectrum, div_self h0.ne', Real.exp_log h]

/-- **C48** fails as documented: a source with positive flux and a negative coefficient, an ordinary falling spectrum, is
rejected although the numpy implementation of the same model computes the documented value. -/
theorem C48_violated :
    spectra 1 1 1 1 1 (fun _ => 1) (fun _ _ => -7 / 10) (.scalar true) (fun _ => 1) (fun _ => 2) (fun _ _ => 0) =
      .error .valueError ∧
    npLogCell 1 1 (fun _ => -7 / 10) 2 1 = logSpectrum 1 1 (fun _ => -7 / 10) 2 1 := by
  constructor
  · rw [C48_error_iff]
    exact Or.inr (Or.inr ⟨by norm_num, 0, by norm_num, rfl, Or.inr ⟨0, by norm_num, by norm_num⟩⟩)
  · simp [npLogCell, logSpectrum]

example : ∃ out, spectra 2 2 2 3 1 (fun s => if s = 0 then 1 else -5) (fun _ _ => 2) (.array 2 fun s => s = 0)
    (fun _ => 1) (fun f => f + 1) (fun _ _ => 0) = .ok out ∧ out 1 2 = -1 := by
  obtain ⟨out, h1, h2⟩ := C48_value_partial 2 3 1 (fun s => if s = 0 then 1 else -5) (fun _ _ => 2)
    (.array 2 fun s => s = 0) (fun _ => 1) (fun f => f + 1) (fun _ _ => 0) rfl
    (by
      intro s _ hs
      have : s = 0 := by simpa [LogPoly.at] using hs
      subst this
      rintro (h | ⟨c, _, h⟩) <;> norm_num at h)
  refine ⟨out, h1, ?_⟩
  rw [h2 1 (by norm_num) 2 (by norm_num)]
  norm_num [LogPoly.at, ordinarySpectrum]

/-! ### C50 -/

/-- **C50** The shape is the Fourier transform of a Gaussian with the given full widths at half maximum. -/
theorem C50_value (u v w freq emaj emin angle : ℝ) (hs : emaj = 0 → emin = 0) :
    gaussianShape u v w freq emaj emin angle = Rime.gaussianFactor emaj emin angle u v freq := by
  have h := Rime.gaussScale_sq
  simp only [gaussianShape, Rime.gaussianFactor]
  congr 2
  by_cases h0 : emaj = 0
  · rw [h0, hs h0]; simp
  · rw [if_neg h0]
    have e : (u * (emaj * Real.cos angle) - v * (emaj * Real.sin angle)) * (emin / emaj) =
        (u * Real.cos angle - v * Real.sin angle) * emin := by field_simp
    rw [e]
    have hb : ∀ x y : ℝ, 2 * Real.pi ^ 2 / (8 * Real.log 2) *
        ((emaj * (x * freq / 299792458)) ^ 2 + (emin * (y * freq / 299792458)) ^ 2) =
        (2 * Real.pi ^ 2 / (8 * Real.log 2) / 299792458 ^ 2) *
        ((emaj * x * freq) ^ 2 + (emin * y * freq) ^ 2) := by
      intro x y; field_simp
    rw [hb, ← h]
    ring

/-- **C50** Amplitudes are in (0, 1]. -/
theorem C50_range (u v w freq emaj emin angle : ℝ) :
    0 < gaussianShape u v w freq emaj emin angle ∧ gaussianShape u v w freq emaj emin angle ≤ 1 := by
  refine ⟨Real.exp_pos _, Real.exp_le_one_iff.2 ?_⟩
  nlinarith [mul_self_nonneg ((u * (emaj * Real.cos angle) - v * (emaj * Real.sin angle)) *
    (emin / if emaj = 0 then 1 else emaj) * (freq * Rime.gaussScale)),
    mul_self_nonneg ((u * (emaj * Real.sin angle) + v * (emaj * Real.cos angle)) * (freq * Rime.gaussScale))]

/-- **C50** The amplitude is 1 at zero baseline length and for sources without extent. -/
theorem C50_one (u v w freq emaj emin angle : ℝ) (h : (u = 0 ∧ v = 0) ∨ emaj = 0 ∨ freq = 0) :
    gaussianShape u v w freq emaj emin angle = 1 := by
  rcases h with ⟨rfl, rfl⟩ | rfl | rfl <;> simp [gaussianShape]

/-- **C50** Reversing a baseline does not change the amplitude. -/
theorem C50_symmetric (u v w freq emaj emin angle : ℝ) :
    gaussianShape (-u) (-v) (-w) freq emaj emin angle = gaussianShape u v w freq emaj emin angle := by
  simp only [gaussianShape]
  congr 1
  ring

/-- **C50** For circular sources the position angle is irrelevant. -/
theorem C50_circular (u v w freq e angle angle' : ℝ) :
    gaussianShape u v w freq e e angle = gaussianShape u v w freq e e angle' := by
  have key : ∀ t, gaussianShape u v w freq e e t =
      Real.exp (-((e * freq * Rime.gaussScale) ^ 2 * (u ^ 2 + v ^ 2))) := by
    intro t
    simp only [gaussianShape]
    congr 2
    by_cases h0 : e = 0
    · rw [h0]; simp
    · rw [if_neg h0, div_self h0]
      have := Real.sin_sq_add_cos_sq t
      calc _ = (e * freq * Rime.gaussScale) ^ 2 * (u ^ 2 + v ^ 2) * (Real.sin t ^ 2 + Real.cos t ^ 2) := by ring
        _ = _ := by rw [this, mul_one]
  rw [key, key]

/-- **C50** Away from zero, an extended source is strictly attenuated along its major axis. -/
theorem C50_attenuates (u v w freq emaj emin angle : ℝ) (hf : freq ≠ 0) (he : emaj ≠ 0)
    (hb : u * Real.sin angle + v * Real.cos angle ≠ 0) : gaussianShape u v w freq emaj emin angle < 1 := by
  have hg : Rime.gaussScale ≠ 0 := by
    have := Rime.gaussScale_sq
    have hl : (0 : ℝ) < Real.log 2 := Real.log_pos (by norm_num)
    intro h0
    rw [h0] at this
    have hp : (0 : ℝ) < 2 * Real.pi ^ 2 / (8 * Real.log 2) / 299792458 ^ 2 := by positivity
    rw [← this] at hp
    norm_num at hp
  unfold gaussianShape
  rw [← Real.exp_zero, Real.exp_lt_exp]
  have h1 : (u * (emaj * Real.sin angle) + v * (emaj * Real.cos angle)) * (freq * Rime.gaussScale) ≠ 0 := by
    have : u * (emaj * Real.sin angle) + v * (emaj * Real.cos angle) =
        emaj * (u * Real.sin angle + v * Real.cos angle) := by ring
    rw [this]
    exact mul_ne_zero (mul_ne_zero he hb) (mul_ne_zero hf hg)
  have h2 := mul_self_pos.2 h1
  nlinarith [mul_self_nonneg ((u * (emaj * Real.cos angle) - v * (emaj * Real.sin angle)) *
    (emin / if emaj = 0 then 1 else emaj) * (freq * Rime.gaussScale))]

example : gaussianShape 0 1 0 1 1 1 0 < 1 := C50_attenuates _ _ _ _ _ _ _ (by norm_num) (by norm_num) (by simp)

/-! ### C51 -/

/-- Specification: the model spectrum of a component. -/
noncomputable def powerLaw (beam w : Nat → ℝ) (alpha i0 : ℝ) (v : Nat) : ℝ := i0 * (beam v * (w v) ^ alpha)

/-- Specification: the weighted squared misfit of the component's spectrum. -/
noncomputable def misfit (n : Nat) (data weights beam w : Nat → ℝ) (alpha i0 : ℝ) : ℝ :=
  ∑ v ∈ range n, weights v * (data v - powerLaw beam w alpha i0 v) ^ 2

theorem sums_fields (n : Nat) (data weights beam w : Nat → ℝ) (alpha i0 : ℝ) :
    let s := sums n data weights beam w alpha i0
    s.lik = ∑ v ∈ range n, residual data beam w alpha i0 v * weights v * residual data beam w alpha i0 v ∧
    s.jr0 = ∑ v ∈ range n, jac0 beam w alpha i0 v * weights v * residual data beam w alpha i0 v ∧
    s.jr1 = ∑ v ∈ range n, jac1 beam w alpha v * weights v * residual data beam w alpha i0 v ∧
    s.hess00 = ∑ v ∈ range n, jac0 beam w alpha i0 v * weights v * jac0 beam w alpha i0 v ∧
    s.hess01 = ∑ v ∈ range n, jac0 beam w alpha i0 v * weights v * jac1 beam w alpha v ∧
    s.hess11 = ∑ v ∈ range n, jac1 beam w alpha v * weights v * jac1 beam w alpha v := by
  refine ⟨?_, ?_, ?_, ?_, ?_, ?_⟩
  · exact (forRange_sum Sums.lik _ fun _ _ _ => rfl).trans (zero_add _)
  · exact (forRange_sum Sums.jr0 _ fun _ _ _ => rfl).trans (zero_add _)
  · exact (forRange_sum Sums.jr1 _ fun _ _ _ => rfl).trans (zero_add _)
  · exact (forRange_sum Sums.hess00 _ fun _ _ _ => rfl).trans (zero_add _)
  · exact (forRange_sum Sums.hess01 _ fun _ _ _ => rfl).trans (zero_add _)
  · exact (forRange_sum Sums.hess11 _ fun _ _ _ => rfl).trans (zero_add _)

/-- The iterates of the loop. -/
theorem fitLoop_inv (n : Nat) (data weights beam w : Nat → ℝ) (mindet tol : ℝ) (P : FitState → Prop)
    (step : ∀ s, P s → s.eps > tol → P (fitStep n data weights beam w mindet s)) (left : Nat) (s : FitState) (h : P s) :
    P (fitLoop n data weights beam w mindet tol left s) := by
  induction left generalizing s with
  | zero => exact h
  | succ left ih =>
    simp only [fitLoop]
    split
    · rename_i he
      exact ih _ (step s h he)
    · exact h

theorem fitLoop_k (n : Nat) (data weights beam w : Nat → ℝ) (mindet tol : ℝ) (left : Nat) (s : FitState) :
    (fitLoop n data weights beam w mindet tol left s).k ≤ s.k + left ∧
    ((fitLoop n data weights beam w mindet tol left s).k < s.k + left →
      (fitLoop n data weights beam w mindet tol left s).eps ≤ tol) := by
  induction left generalizing s with
  | zero => exact ⟨le_refl _, fun h => absurd h (by simp [fitLoop])⟩
  | succ left ih =>
    simp only [fitLoop]
    split
    · obtain ⟨h1, h2⟩ := ih (fitStep n data weights beam w mindet s)
      have hk : (fitStep n data weights beam w mindet s).k = s.k + 1 := rfl
      rw [hk] at h1 h2
      exact ⟨by omega, fun h => h2 (by omega)⟩
    · rename_i he
      exact ⟨by omega, fun _ => not_lt.1 he⟩

theorem fitLoop_ge (n : Nat) (data weights beam w : Nat → ℝ) (mindet tol : ℝ) (m : Nat) (t : FitState) :
    t.k ≤ (fitLoop n data weights beam w mindet tol m t).k := by
  induction m generalizing t with
  | zero => exact le_refl _
  | succ m im =>
    simp only [fitLoop]
    split
    · exact le_trans (Nat.le_succ _) (im (fitStep n data weights beam w mindet t))
    · exact le_refl _

theorem fitLoop_last (n : Nat) (data weights beam w : Nat → ℝ) (mindet tol : ℝ) (left : Nat) (s : FitState)
    (h : s.k < (fitLoop n data weights beam w mindet tol left s).k) :
    ∃ p, fitLoop n data weights beam w mindet tol left s = fitStep n data weights beam w mindet p ∧ tol < p.eps := by
  induction left generalizing s with
  | zero => exact absurd h (by simp [fitLoop])
  | succ left ih =>
    simp only [fitLoop] at h ⊢
    split at h
    · rename_i he
      rw [if_pos he]
      by_cases hk : (fitStep n data weights beam w mindet s).k <
          (fitLoop n data weights beam w mindet tol left (fitStep n data weights beam w mindet s)).k
      · exact ih _ hk
      · refine ⟨s, ?_, he⟩
        cases left with
        | zero => rfl
        | succ left =>
          simp only [fitLoop] at hk ⊢
          split
          · rename_i he'
            rw [if_pos he'] at hk
            exfalso
            apply hk
            exact fitLoop_ge n data weights beam w mindet tol left
              (fitStep n data weights beam w mindet (fitStep n data weights beam w mindet s))
          · rfl
    · rename_i he
      exact absurd h (lt_irrefl _)

/-- **C51** At most `maxiter` iterations are done, and fewer only when the last update changed both the index and the
intensity by at most the tolerance (which is below one). -/
theorem C51_iterations (n : Nat) (data weights beam w : Nat → ℝ) (mindet tol alpha0 i00 : ℝ) (maxiter : Nat)
    (htol : tol < 1) :
    let s := fitLoop n data weights beam w mindet tol maxiter ⟨1, 0, alpha0, i00, none⟩
    s.k ≤ maxiter ∧ (s.k < maxiter → ∃ p, s = fitStep n data weights beam w mindet p ∧
      |s.alpha - p.alpha| ≤ tol ∧ |s.i0 - p.i0| ≤ tol) := by
  intro s
  have hs := fitLoop_k n data weights beam w mindet tol maxiter ⟨1, 0, alpha0, i00, none⟩
  simp only [zero_add] at hs
  refine ⟨hs.1, fun hk => ?_⟩
  have he : s.eps ≤ tol := hs.2 hk
  have h0 : 0 < s.k := by
    by_contra h0
    cases maxiter with
    | zero => omega
    | succ m =>
      have h1 := (fitLoop_k n data weights beam w mindet tol m
        (fitStep n data weights beam w mindet ⟨1, 0, alpha0, i00, none⟩))
      have h2 : s = fitLoop n data weights beam w mindet tol m
          (fitStep n data weights beam w mindet ⟨1, 0, alpha0, i00, none⟩) := by
        simp only [s, fitLoop]; rw [if_pos htol]
      have h3 := fitLoop_ge n data weights beam w mindet tol m (fitStep n data weights beam w mindet ⟨1, 0, alpha0, i00, none⟩)
      rw [← h2] at h3
      have h4 : (fitStep n data weights beam w mindet ⟨1, 0, alpha0, i00, none⟩).k = 1 := rfl
      omega
  obtain ⟨p, hp, _⟩ := fitLoop_last n data weights beam w mindet tol maxiter ⟨1, 0, alpha0, i00, none⟩ h0
  have hp' : s = fitStep n data weights beam w mindet p := hp
  refine ⟨p, hp', ?_⟩
  have e1 : s.eps = max |s.alpha - p.alpha| |s.i0 - p.i0| := by rw [hp']; rfl
  rw [e1] at he
  exact max_le_iff.1 he

theorem residual_zero {data beam w : Nat → ℝ} {alpha i0 : ℝ} {v : Nat} (h : data v = powerLaw beam w alpha i0 v) :
    residual data beam w alpha i0 v = 0 := by
  simp only [residual, jac1, h, powerLaw, sub_self]

/-- **C51** Data that follow the power law exactly are a fixed point: started there, the fit makes one iteration and
returns the starting point, with zero variances. -/
theorem C51_fixed_point (n : Nat) (data weights freqs : Nat → ℝ) (freq0 : ℝ) (beam : Nat → ℝ) (alpha i0 tol : ℝ)
    (maxiter : Nat) (mindet : ℝ) (hn : n ≠ 2) (htol : 0 ≤ tol ∧ tol < 1) (hm : 0 < maxiter)
    (exact_data : ∀ v < n, data v = powerLaw beam (fun v => freqs v / freq0) alpha i0 v) :
    fitComponent n data weights freqs freq0 beam alpha i0 tol maxiter mindet = .ok ⟨alpha, 0, i0, 0⟩ ∧
    (fitLoop n data weights beam (fun v => freqs v / freq0) mindet tol maxiter ⟨1, 0, alpha, i0, none⟩).k = 1 := by
  obtain ⟨m, rfl⟩ : ∃ m, maxiter = m + 1 := ⟨maxiter - 1, by omega⟩
  set w := fun v => freqs v / freq0 with hw
  obtain ⟨h1, h2, h3, _⟩ := sums_fields n data weights beam w alpha i0
  have r0 : ∀ v ∈ range n, residual data beam w alpha i0 v = 0 := fun v hv =>
    residual_zero (exact_data v (mem_range.1 hv))
  have lik0 : (sums n data weights beam w alpha i0).lik = 0 := by
    rw [h1]; exact sum_eq_zero fun v hv => by rw [r0 v hv]; ring
  have jr00 : (sums n data weights beam w alpha i0).jr0 = 0 := by
    rw [h2]; exact sum_eq_zero fun v hv => by rw [r0 v hv]; ring
  have jr10 : (sums n data weights beam w alpha i0).jr1 = 0 := by
    rw [h3]; exact sum_eq_zero fun v hv => by rw [r0 v hv]; ring
  have step : fitStep n data weights beam w mindet ⟨1, 0, alpha, i0, none⟩ =
      ⟨0, 1, alpha, i0, some (sums n data weights beam w alpha i0)⟩ := by
    simp [fitStep, stepAlpha, stepI0, jr00, jr10]
  have loop : fitLoop n data weights beam w mindet tol (m + 1) ⟨1, 0, alpha, i0, none⟩ =
      ⟨0, 1, alpha, i0, some (sums n data weights beam w alpha i0)⟩ := by
    simp only [fitLoop]
    rw [if_pos htol.2, step]
    cases m with
    | zero => rfl
    | succ m => simp only [fitLoop]; rw [if_neg (not_lt.2 htol.1)]
  refine ⟨?_, by rw [loop]⟩
  simp only [fitComponent, ← hw, loop]
  rw [if_neg (by omega)]
  simp [lik0]

/-- **C51** Variances are non-negative for non-negative weights and more than two channels. -/
theorem C51_variances (n : Nat) (data weights freqs : Nat → ℝ) (freq0 : ℝ) (beam : Nat → ℝ) (alpha0 i00 tol : ℝ)
    (maxiter : Nat) (mindet : ℝ) (hw : ∀ v < n, 0 ≤ weights v) (hd : 0 < mindet) (hn : 2 < n) (out : FitOut)
    (h : fitComponent n data weights freqs freq0 beam alpha0 i00 tol maxiter mindet = .ok out) :
    0 ≤ out.alphaVar ∧ 0 ≤ out.i0Var := by
  simp only [fitComponent] at h
  set w := fun v => freqs v / freq0
  have inv := fitLoop_inv n data weights beam w mindet tol
    (fun s => ∀ su, s.last = some su → 0 ≤ su.lik ∧ 0 ≤ su.hess00 ∧ 0 ≤ su.hess11)
    (by
      intro s _ _ su hsu
      simp only [fitStep, Option.some.injEq] at hsu
      subst hsu
      obtain ⟨h1, _, _, h4, _, h6⟩ := sums_fields n data weights beam w s.alpha s.i0
      have sq : ∀ g : Nat → ℝ, 0 ≤ ∑ v ∈ range n, g v * weights v * g v := fun g => by
        refine sum_nonneg fun v hv => ?_
        have := hw v (mem_range.1 hv)
        have h2 := mul_nonneg this (mul_self_nonneg (g v))
        nlinarith
      exact ⟨by rw [h1]; exact sq _, by rw [h4]; exact sq _, by rw [h6]; exact sq _⟩)
    maxiter ⟨1, 0, alpha0, i00, none⟩ (by simp)
  cases hl : (fitLoop n data weights beam w mindet tol maxiter ⟨1, 0, alpha0, i00, none⟩).last with
  | none => rw [hl] at h; cases h
  | some su =>
    rw [hl] at h
    simp only at h
    rw [if_neg (by omega)] at h
    obtain rfl := (Except.ok.inj h).symm
    obtain ⟨l1, l2, l3⟩ := inv su hl
    have hdet : 0 < detOf su mindet := lt_of_lt_of_le hd (le_max_right _ _)
    have hdof : (0 : ℝ) < (((n : Int) - 2 : Int) : ℝ) := by exact_mod_cast (by omega : (0 : Int) < (n : Int) - 2)
    exact ⟨div_nonneg (mul_nonneg (div_nonneg l3 hdet.le) l1) hdof.le,
      div_nonneg (mul_nonneg (div_nonneg l2 hdet.le) l1) hdof.le⟩

/-- **C51** Every iteration solves the normal equations of the linearised problem (when the determinant is not clamped):
the update `(da, di)` satisfies `J^T W J (da, di) = J^T W r`. -/
theorem C51_gauss_newton (n : Nat) (data weights beam w : Nat → ℝ) (mindet : ℝ) (hd : 0 < mindet) (s : FitState)
    (hdet : mindet ≤ (sums n data weights beam w s.alpha s.i0).hess00 * (sums n data weights beam w s.alpha s.i0).hess11 -
      (sums n data weights beam w s.alpha s.i0).hess01 ^ 2) :
    let s' := fitStep n data weights beam w mindet s
    let da := s'.alpha - s.alpha
    let di := s'.i0 - s.i0
    (∀ j : Nat → ℝ, j = (fun v => powerLaw beam w s.alpha s.i0 v * Real.log (w v)) ∨ j = (fun v => beam v * (w v) ^ s.alpha) →
      ∑ v ∈ range n, weights v * j v * (powerLaw beam w s.alpha s.i0 v * Real.log (w v) * da + beam v * (w v) ^ s.alpha * di) =
      ∑ v ∈ range n, weights v * j v * (data v - powerLaw beam w s.alpha s.i0 v)) := by
  obtain ⟨_, h2, h3, h4, h5, h6⟩ := sums_fields n data weights beam w s.alpha s.i0
  set su := sums n data weights beam w s.alpha s.i0 with hsu
  have hpos : 0 < su.hess00 * su.hess11 - su.hess01 ^ 2 := lt_of_lt_of_le hd hdet
  have ha : (fitStep n data weights beam w mindet s).alpha - s.alpha =
      (su.hess11 * su.jr0 - su.hess01 * su.jr1) / (su.hess00 * su.hess11 - su.hess01 ^ 2) := by
    simp only [fitStep, stepAlpha, ← hsu, detOf, max_eq_left hdet]; ring
  have hi : (fitStep n data weights beam w mindet s).i0 - s.i0 =
      (-su.hess01 * su.jr0 + su.hess00 * su.jr1) / (su.hess00 * su.hess11 - su.hess01 ^ 2) := by
    simp only [fitStep, stepI0, ← hsu, detOf, max_eq_left hdet]; ring
  have hpos' := hpos.ne'
  have e1 : su.hess00 * ((fitStep n data weights beam w mindet s).alpha - s.alpha) +
      su.hess01 * ((fitStep n data weights beam w mindet s).i0 - s.i0) = su.jr0 := by
    rw [ha, hi, mul_div_assoc', mul_div_assoc', ← add_div, div_eq_iff hpos']; ring
  have e2 : su.hess01 * ((fitStep n data weights beam w mindet s).alpha - s.alpha) +
      su.hess11 * ((fitStep n data weights beam w mindet s).i0 - s.i0) = su.jr1 := by
    rw [ha, hi, mul_div_assoc', mul_div_assoc', ← add_div, div_eq_iff hpos']; ring
  intro s' da di j hj
  have hda : s'.alpha - s.alpha = da := rfl
  have hdi : s'.i0 - s.i0 = di := rfl
  change su.hess00 * da + su.hess01 * di = su.jr0 at e1
  change su.hess01 * da + su.hess11 * di = su.jr1 at e2
  rcases hj with rfl | rfl
  · rw [h4, h5, h2, sum_mul, sum_mul, ← sum_add_distrib] at e1
    calc _ = ∑ v ∈ range n, (jac0 beam w s.alpha s.i0 v * weights v * jac0 beam w s.alpha s.i0 v * da +
          jac0 beam w s.alpha s.i0 v * weights v * jac1 beam w s.alpha v * di) :=
          sum_congr rfl fun v _ => by simp only [jac0, jac1, powerLaw]; ring
      _ = _ := e1
      _ = _ := sum_congr rfl fun v _ => by simp only [jac0, jac1, powerLaw, residual]; ring
  · rw [h5, h6, h3, sum_mul, sum_mul, ← sum_add_distrib] at e2
    calc _ = ∑ v ∈ range n, (jac0 beam w s.alpha s.i0 v * weights v * jac1 beam w s.alpha v * da +
          jac1 beam w s.alpha v * weights v * jac1 beam w s.alpha v * di) :=
          sum_congr rfl fun v _ => by simp only [jac0, jac1, powerLaw]; ring
      _ = _ := e2
      _ = _ := sum_congr rfl fun v _ => by simp only [jac1, powerLaw, residual]; ring

/-- **C51** The reported variances: the residual variance (weighted misfit before the last update over the degrees of
freedom) times the diagonal of the inverse of the normal matrix. -/
theorem C51_variance_value (n : Nat) (data weights freqs : Nat → ℝ) (freq0 : ℝ) (beam : Nat → ℝ) (alpha0 i00 tol : ℝ)
    (maxiter : Nat) (mindet : ℝ) (out : FitOut)
    (h : fitComponent n data weights freqs freq0 beam alpha0 i00 tol maxiter mindet = .ok out) :
    ∃ alpha i0, out.alpha = stepAlpha (sums n data weights beam (fun v => freqs v / freq0) alpha i0) mindet alpha ∧
      out.i0 = stepI0 (sums n data weights beam (fun v => freqs v / freq0) alpha i0) mindet i0 ∧
      (let su := sums n data weights beam (fun v => freqs v / freq0) alpha i0
       out.alphaVar = su.hess11 / detOf su mindet *
          (misfit n data weights beam (fun v => freqs v / freq0) alpha i0 / ((n : ℝ) - 2)) ∧
       out.i0Var = su.hess00 / detOf su mindet *
          (misfit n data weights beam (fun v => freqs v / freq0) alpha i0 / ((n : ℝ) - 2))) := by
  simp only [fitComponent] at h
  set w := fun v => freqs v / freq0
  have inv := fitLoop_inv n data weights beam w mindet tol
    (fun s => ∀ su, s.last = some su → ∃ alpha i0, su = sums n data weights beam w alpha i0 ∧
      s.alpha = stepAlpha su mindet alpha ∧ s.i0 = stepI0 su mindet i0)
    (by
      intro s _ _ su hsu
      simp only [fitStep, Option.some.injEq] at hsu
      exact ⟨s.alpha, s.i0, hsu.symm, by rw [← hsu]; rfl, by rw [← hsu]; rfl⟩)
    maxiter ⟨1, 0, alpha0, i00, none⟩ (by simp)
  cases hl : (fitLoop n data weights beam w mindet tol maxiter ⟨1, 0, alpha0, i00, none⟩).last with
  | none => rw [hl] at h; cases h
  | some su =>
    rw [hl] at h
    simp only at h
    by_cases hdof : (n : Int) - 2 = 0
    · rw [if_pos hdof] at h; cases h
    · rw [if_neg hdof] at h
      obtain rfl := (Except.ok.inj h).symm
      obtain ⟨alpha, i0, rfl, h1, h2⟩ := inv su hl
      refine ⟨alpha, i0, h1, h2, ?_⟩
      have hm : (sums n data weights beam w alpha i0).lik = misfit n data weights beam w alpha i0 := by
        rw [(sums_fields n data weights beam w alpha i0).1]
        exact sum_congr rfl fun v _ => by simp only [residual, jac1, powerLaw]; ring
      simp only [hm]
      push_cast
      exact ⟨by ring, by ring⟩

/-- **C51** Without iterations there is no result; with two channels the degrees of freedom vanish. -/
theorem C51_failures (n : Nat) (data weights freqs : Nat → ℝ) (freq0 : ℝ) (beam : Nat → ℝ) (alpha0 i00 tol : ℝ)
    (maxiter : Nat) (mindet : ℝ) :
    ((maxiter = 0 ∨ 1 ≤ tol) →
      fitComponent n data weights freqs freq0 beam alpha0 i00 tol maxiter mindet = .error .unboundLocalError) ∧
    (0 < maxiter → tol < 1 → n = 2 →
      fitComponent n data weights freqs freq0 beam alpha0 i00 tol maxiter mindet = .error .zeroDivisionError) ∧
    (0 < maxiter → tol < 1 → n ≠ 2 →
      ∃ out, fitComponent n data weights freqs freq0 beam alpha0 i00 tol maxiter mindet = .ok out) := by
  have none_case : (maxiter = 0 ∨ 1 ≤ tol) →
      (fitLoop n data weights beam (fun v => freqs v / freq0) mindet tol maxiter ⟨1, 0, alpha0, i00, none⟩).last = none := by
    intro h
    cases maxiter with
    | zero => rfl
    | succ m =>
      simp only [fitLoop]
      rw [if_neg (not_lt.2 (by rcases h with h | h; cases h; exact h))]
  have some_case : 0 < maxiter → tol < 1 → ∃ su,
      (fitLoop n data weights beam (fun v => freqs v / freq0) mindet tol maxiter ⟨1, 0, alpha0, i00, none⟩).last =
        some su := by
    intro hm ht
    obtain ⟨m, rfl⟩ : ∃ m, maxiter = m + 1 := ⟨maxiter - 1, by omega⟩
    simp only [fitLoop]
    rw [if_pos ht]
    exact fitLoop_inv n data weights beam _ mindet tol (fun s => ∃ su, s.last = some su)
      (fun s _ _ => ⟨_, rfl⟩) m _ ⟨_, rfl⟩
  refine ⟨fun h => ?_, fun h1 h2 h3 => ?_, fun h1 h2 h3 => ?_⟩
  · simp only [fitComponent, none_case h]
  · obtain ⟨su, hsu⟩ := some_case h1 h2
    simp only [fitComponent, hsu]
    rw [if_pos (by omega)]
  · obtain ⟨su, hsu⟩ := some_case h1 h2
    simp only [fitComponent, hsu]
    rw [if_neg (by omega)]
    exact ⟨_, rfl⟩

theorem refFreqIdx_spec (n : Nat) (hn : 0 < n) (freqs : Nat → ℝ) (freq0 : ℝ) :
    refFreqIdx n freqs freq0 < n ∧
    (∀ v < n, |freqs (refFreqIdx n freqs freq0) - freq0| ≤ |freqs v - freq0|) ∧
    (∀ v < refFreqIdx n freqs freq0, |freqs (refFreqIdx n freqs freq0) - freq0| < |freqs v - freq0|) := by
  have := forRange_inv (n := n) (init := 0)
    (f := fun v best => open Classical in if |freqs v - freq0| < |freqs best - freq0| then v else best)
    (P := fun k best => (best < k ∨ (k = 0 ∧ best = 0)) ∧ (∀ v < k, |freqs best - freq0| ≤ |freqs v - freq0|) ∧
      (∀ v < best, |freqs best - freq0| < |freqs v - freq0|))
    ⟨Or.inr ⟨rfl, rfl⟩, by simp, by simp⟩
    (by
      rintro i best hi ⟨h1, h2, h3⟩
      split
      · rename_i hlt
        refine ⟨Or.inl (by omega), ?_, ?_⟩
        · intro v hv
          by_cases hvi : v = i
          · rw [hvi]
          · exact hlt.le.trans (h2 v (by omega))
        · intro v hv
          exact lt_of_lt_of_le hlt (h2 v hv)
      · rename_i hlt
        refine ⟨?_, ?_, h3⟩
        · rcases h1 with h1 | ⟨rfl, rfl⟩
          · exact Or.inl (by omega)
          · exact Or.inl (by omega)
        · intro v hv
          by_cases hvi : v = i
          · rw [hvi]; exact not_lt.1 hlt
          · exact h2 v (by omega))
  obtain ⟨h1, h2, h3⟩ := this
  exact ⟨by rcases h1 with h | ⟨h, _⟩; exact h; omega, h2, h3⟩

/-- **C51** Default starting intensity: the data at the channel nearest to the reference frequency (the first of equally
near ones), divided by the beam; when that channel is at the reference frequency and the data are an exact power law with
the given index, this is the exact intensity and the fit returns it. -/
theorem C51_default_start (n : Nat) (data weights freqs : Nat → ℝ) (freq0 : ℝ) (beam : Nat → ℝ) (alpha i0 tol : ℝ)
    (maxiter : Nat) (b : Bool) (hn : 0 < n) (hn2 : n ≠ 2) (htol : 0 ≤ tol ∧ tol < 1) (hm : 0 < maxiter) (h0 : freq0 ≠ 0)
    (hb : ∀ v < n, beam v ≠ 0) (hv : ∃ v < n, freqs v = freq0)
    (exact_data : ∀ v < n, data v = powerLaw beam (fun v => freqs v / freq0) alpha i0 v) :
    fitSpi n data weights freqs freq0 (some alpha) none (some beam) tol maxiter (some b) = .ok ⟨alpha, 0, i0, 0⟩ ∧
    (alpha = -0.7 → fitSpi n data weights freqs freq0 none none (some beam) tol maxiter (some b) =
      .ok ⟨-0.7, 0, i0, 0⟩) := by
  obtain ⟨r1, r2, _⟩ := refFreqIdx_spec n hn freqs freq0
  obtain ⟨v, hvn, hvf⟩ := hv
  have hf : freqs (refFreqIdx n freqs freq0) = freq0 := by
    have := r2 v hvn
    rw [hvf, sub_self, abs_zero] at this
    have := abs_eq_zero.1 (le_antisymm this (abs_nonneg _))
    linarith
  have hi : data (refFreqIdx n freqs freq0) / beam (refFreqIdx n freqs freq0) = i0 := by
    rw [exact_data _ r1]
    simp only [powerLaw, hf, div_self h0, Real.one_rpow, mul_one]
    rw [mul_div_assoc, div_self (hb _ r1), mul_one]
  simp only [fitSpi, Option.getD_some, Option.getD_none, hi]
  have key := (C51_fixed_point n data weights freqs freq0 beam alpha i0 tol maxiter (if b then 1 / 10 ^ 12 else 1 / 10 ^ 5)
    hn2 htol hm exact_data).1
  refine ⟨key, ?_⟩
  rintro rfl
  have e : (-7 / 10 : ℝ) = -0.7 := by norm_num
  rw [e]
  exact key

example : fitSpi 3 (fun v => 5 * (v + 1 : ℝ)⁻¹) (fun _ => 1) (fun v => v + 1) 1 (some (-1)) none (some fun _ => 1) (1 / 10)
    100 (some true) = .ok ⟨-1, 0, 5, 0⟩ := by
  refine (C51_default_start 3 _ _ _ 1 _ (-1) 5 _ 100 true (by norm_num) (by norm_num) (by norm_num) (by norm_num)
    (by norm_num) (by simp) ⟨0, by norm_num, by norm_num⟩ ?_).1
  intro v _
  simp only [powerLaw, div_one, one_mul]
  rw [Real.rpow_neg_one]

end Verif.ModelData
