/-
Model of the NumPy versions of the WSClean spectra, `ordinary_spectral_model` and `log_spectral_model`
(africanus/model/wsclean/spec_model.py), and how they compare with the compiled `spectra`: C205.
-/
import Verif.ModelData.SpectralProps

set_option autoImplicit false

namespace Verif.ModelData

open Finset

/-- The extent of two axes that NumPy broadcasts (model/wsclean/spec_model.py:13-16, 25-28). -/
def castDim (a b : Nat) : Except PyErr Nat :=
  if a = b then .ok a else if a = 1 then .ok b else if b = 1 then .ok a else .error .valueError

/-- The index into a broadcast axis of extent `a` (model/wsclean/spec_model.py:13-16, 25-28). -/
def castIdx (a s : Nat) : Nat := if a = 1 then 0 else s

/-- The terms of both models (model/wsclean/spec_model.py:11-16, 23-28): `base` is the ratio of the frequencies minus one, or its
logarithm; `term**coeffs_idx` counts the powers from one. Returns the number of sources and the sums over the coefficients. -/
noncomputable def castTerms (base : ℝ → ℝ) (nC nR n : Nat) (coeffs : Nat → Nat → ℝ) (refFreq freq : Nat → ℝ) :
    Except PyErr (Nat × (Nat → Nat → ℝ)) := do
  let ns ← castDim nC nR
  return (ns, fun s f => ((List.range n).map fun c =>
    coeffs (castIdx nC s) c * base (freq f / refFreq (castIdx nR s)) ^ (c + 1)).sum)

/-- `ordinary_spectral_model` (model/wsclean/spec_model.py:9-16): number of sources and values. The argument `log_poly` is not
used. -/
noncomputable def ordinarySpectralModel (nI nC nR n : Nat) (flux : Nat → ℝ) (coeffs : Nat → Nat → ℝ) (freq refFreq : Nat → ℝ) :
    Except PyErr (Nat × (Nat → Nat → ℝ)) := do
  let t ← castTerms (· - 1) nC nR n coeffs refFreq freq
  let ns ← castDim nI t.1
  return (ns, fun s f => flux (castIdx nI s) + t.2 (castIdx t.1 s) f)

/-- `log_spectral_model` (model/wsclean/spec_model.py:19-28) for an array `log_poly` of extent `nL`; `np.where` broadcasts it with the
fluxes and replaces the flux of sources with `log_poly` false by one. Logarithms of numbers that are not positive (NaN or minus
infinity in NumPy) are not modelled. -/
noncomputable def logSpectralModel (nI nC nL nR n : Nat) (flux : Nat → ℝ) (coeffs : Nat → Nat → ℝ) (logPoly : Nat → Bool)
    (freq refFreq : Nat → ℝ) : Except PyErr (Nat × (Nat → Nat → ℝ)) := do
  let nI' ← castDim nL nI
  let t ← castTerms Real.log nC nR n coeffs refFreq freq
  let ns ← castDim nI' t.1
  return (ns, fun s f =>
    let i := castIdx nI' s
    let fl := if logPoly (castIdx nL i) = false then 1 else flux (castIdx nI i)
    Real.exp (Real.log fl + t.2 (castIdx t.1 s) f))

private theorem ok_bind {α β : Type} (a : α) (f : α → Except PyErr β) : (Except.ok a >>= f) = f a := rfl

private theorem pure_bind' {α β : Type} (a : α) (f : α → Except PyErr β) : ((pure a : Except PyErr α) >>= f) = f a := rfl

theorem castDim_self (a : Nat) : castDim a a = .ok a := by simp [castDim]

theorem castIdx_lt {a s : Nat} (h : s < a) : castIdx a s = s := by
  unfold castIdx
  split_ifs with h1
  · omega
  · rfl

theorem listSum_range (n : Nat) (g : Nat → ℝ) : ((List.range n).map g).sum = ∑ c ∈ range n, g c := by
  induction n with
  | zero => rfl
  | succ n ih => rw [List.range_succ, List.map_append, List.sum_append, ih, sum_range_succ]; simp

/-- **C205** The NumPy models give the documented spectra of each source: the ordinary polynomial, and the logarithmic one, in which
the flux of a source that is not logarithmic is replaced by one. -/
theorem C205_value (ns n : Nat) (flux : Nat → ℝ) (coeffs : Nat → Nat → ℝ) (logPoly : Nat → Bool) (freq refFreq : Nat → ℝ) :
    (∃ out, ordinarySpectralModel ns ns ns n flux coeffs freq refFreq = .ok (ns, out) ∧
      ∀ s < ns, ∀ f, out s f = ordinarySpectrum (flux s) n (coeffs s) (freq f) (refFreq s)) ∧
    (∃ out, logSpectralModel ns ns ns ns n flux coeffs logPoly freq refFreq = .ok (ns, out) ∧
      ∀ s < ns, ∀ f, out s f = logSpectrum (if logPoly s then flux s else 1) n (coeffs s) (freq f) (refFreq s)) := by
  constructor
  · refine ⟨_, by simp only [ordinarySpectralModel, castTerms, ok_bind, pure_bind', castDim_self]; rfl, fun s hs f => ?_⟩
    simp only [castIdx_lt hs, listSum_range, ordinarySpectrum]
  · refine ⟨_, by simp only [logSpectralModel, castTerms, ok_bind, pure_bind', castDim_self]; rfl, fun s hs f => ?_⟩
    simp only [castIdx_lt hs, listSum_range, logSpectrum]
    cases logPoly s <;> simp

/-- **C205** Whenever the compiled `spectra` succeeds, its values are those of the NumPy models: of the logarithmic one for sources that
are logarithmic and of the ordinary one for the others. -/
theorem C205_agree (ns nchan n : Nat) (flux : Nat → ℝ) (coeffs : Nat → Nat → ℝ) (logPoly : Nat → Bool) (freq refFreq : Nat → ℝ)
    (empty out : Nat → Nat → ℝ)
    (h : spectra ns ns ns nchan n flux coeffs (.array ns logPoly) refFreq freq empty = .ok out) :
    ∃ o l, ordinarySpectralModel ns ns ns n flux coeffs freq refFreq = .ok (ns, o) ∧
      logSpectralModel ns ns ns ns n flux coeffs logPoly freq refFreq = .ok (ns, l) ∧
      ∀ s < ns, ∀ f < nchan, out s f = if logPoly s then l s f else o s f := by
  obtain ⟨⟨o, ho, eo⟩, ⟨l, hl, el⟩⟩ := C205_value ns n flux coeffs logPoly freq refFreq
  refine ⟨o, l, ho, hl, fun s hs f hf => ?_⟩
  have good : ∀ s < ns, (LogPoly.array ns logPoly).at s = true → ¬ BadLogSource (flux s) n (coeffs s) := by
    intro s hs hl hb
    have : spectra ns ns ns nchan n flux coeffs (.array ns logPoly) refFreq freq empty = .error .valueError := by
      rw [C48_error_iff]
      exact Or.inr (Or.inr ⟨by omega, s, hs, hl, hb⟩)
    rw [this] at h
    cases h
  obtain ⟨out', h', e'⟩ := C48_value_partial ns nchan n flux coeffs (.array ns logPoly) refFreq freq empty rfl good
  rw [h] at h'
  obtain rfl := Except.ok.inj h'
  rw [e' s hs f hf, eo s hs f, el s hs f]
  cases hlp : logPoly s <;> simp [LogPoly.at, hlp]

/-- **C205** A single reference frequency serves for all sources of the NumPy model, whereas the compiled function refuses it. -/
theorem C205_broadcast (ns nchan n : Nat) (hns : ns ≠ 1) (flux : Nat → ℝ) (coeffs : Nat → Nat → ℝ) (lp : LogPoly)
    (freq refFreq : Nat → ℝ) (empty : Nat → Nat → ℝ) :
    (∃ out, ordinarySpectralModel ns ns 1 n flux coeffs freq refFreq = .ok (ns, out) ∧
      ∀ s < ns, ∀ f, out s f = ordinarySpectrum (flux s) n (coeffs s) (freq f) (refFreq 0)) ∧
    spectra ns ns 1 nchan n flux coeffs lp refFreq freq empty = .error .valueError := by
  constructor
  · refine ⟨_, by simp only [ordinarySpectralModel, castTerms, castDim, if_neg hns, if_true, ok_bind, pure_bind']; rfl, fun s hs f => ?_⟩
    simp only [castIdx_lt hs, listSum_range, ordinarySpectrum]
    rfl
  · rw [C48_error_iff]
    exact Or.inl fun h => hns h.2

private theorem err_bind {α β : Type} (e : PyErr) (f : α → Except PyErr β) : (Except.error e >>= f) = .error e := rfl

theorem castDim_cases (a b : Nat) : (castDim a b = .error .valueError ∧ a ≠ b ∧ a ≠ 1 ∧ b ≠ 1) ∨
    ∃ n, castDim a b = .ok n ∧ (a = n ∨ a = 1) ∧ (b = n ∨ b = 1) ∧ (n = a ∨ n = b) := by
  unfold castDim
  split_ifs with h1 h2 h3
  · exact Or.inr ⟨a, rfl, by omega⟩
  · exact Or.inr ⟨b, rfl, by omega⟩
  · exact Or.inr ⟨a, rfl, by omega⟩
  · exact Or.inl ⟨rfl, h1, h2, h3⟩

theorem castIdx_castIdx {a m : Nat} (s : Nat) (h : a = m ∨ a = 1) : castIdx a (castIdx m s) = if a = 1 then 0 else s := by
  unfold castIdx
  by_cases h1 : a = 1
  · rw [if_pos h1, if_pos h1]
  · rw [if_neg h1, if_neg h1, if_neg (by omega)]

/-- **C205** Arguments for `N` sources may be mixed with arguments for one, which then serve for all sources, in both models. -/
theorem C205_mixed (N nI nC nL nR n : Nat) (hI : nI = N ∨ nI = 1) (hC : nC = N ∨ nC = 1) (hL : nL = N ∨ nL = 1) (hR : nR = N ∨ nR = 1)
    (flux : Nat → ℝ) (coeffs : Nat → Nat → ℝ) (logPoly : Nat → Bool) (freq refFreq : Nat → ℝ) :
    ((N = nI ∨ N = nC ∨ N = nR) → ∃ out, ordinarySpectralModel nI nC nR n flux coeffs freq refFreq = .ok (N, out) ∧
      ∀ s < N, ∀ f, out s f = ordinarySpectrum (flux (if nI = 1 then 0 else s)) n (coeffs (if nC = 1 then 0 else s)) (freq f)
        (refFreq (if nR = 1 then 0 else s))) ∧
    ((N = nI ∨ N = nC ∨ N = nL ∨ N = nR) → ∃ out, logSpectralModel nI nC nL nR n flux coeffs logPoly freq refFreq = .ok (N, out) ∧
      ∀ s < N, ∀ f, out s f = logSpectrum (if logPoly (if nL = 1 then 0 else s) then flux (if nI = 1 then 0 else s) else 1) n
        (coeffs (if nC = 1 then 0 else s)) (freq f) (refFreq (if nR = 1 then 0 else s))) := by
  constructor
  · intro hN
    rcases castDim_cases nC nR with ⟨-, h⟩ | ⟨m, hm, hm'⟩
    · omega
    rcases castDim_cases nI m with ⟨-, h⟩ | ⟨k, hk, hk'⟩
    · omega
    obtain rfl : k = N := by omega
    refine ⟨_, by simp only [ordinarySpectralModel, castTerms, ok_bind, pure_bind', hm, hk]; rfl, fun s hs f => ?_⟩
    have e1 : castIdx nC (castIdx m s) = if nC = 1 then 0 else s := castIdx_castIdx s hm'.1
    have e2 : castIdx nR (castIdx m s) = if nR = 1 then 0 else s := castIdx_castIdx s hm'.2.1
    simp only [e1, e2, listSum_range, ordinarySpectrum]
    rfl
  · intro hN
    rcases castDim_cases nL nI with ⟨-, h⟩ | ⟨l, hl, hl'⟩
    · omega
    rcases castDim_cases nC nR with ⟨-, h⟩ | ⟨m, hm, hm'⟩
    · omega
    rcases castDim_cases l m with ⟨-, h⟩ | ⟨k, hk, hk'⟩
    · omega
    have hk1 : k = N ∨ k = 1 := by
      rcases hk'.2.2 with h | h
      · rcases hl'.2.2 with h' | h' <;> omega
      · rcases hm'.2.2 with h' | h' <;> omega
    obtain rfl : k = N := by
      rcases hk1 with h | h
      · exact h
      rcases hN with h' | h' | h' | h'
      · clear hm' hC hL hR; omega
      · clear hl' hI hL hR; omega
      · clear hm' hC hI hR; omega
      · clear hl' hI hL hC; omega
    refine ⟨_, by simp only [logSpectralModel, castTerms, ok_bind, pure_bind', hl, hm, hk]; rfl, fun s hs f => ?_⟩
    have e1 : castIdx nC (castIdx m s) = if nC = 1 then 0 else s := castIdx_castIdx s hm'.1
    have e2 : castIdx nR (castIdx m s) = if nR = 1 then 0 else s := castIdx_castIdx s hm'.2.1
    have e3 : castIdx nL (castIdx l s) = if nL = 1 then 0 else s := castIdx_castIdx s hl'.1
    have e4 : castIdx nI (castIdx l s) = if nI = 1 then 0 else s := castIdx_castIdx s hl'.2.1
    simp only [e1, e2, e3, e4, listSum_range, logSpectrum]
    cases logPoly (if nL = 1 then 0 else s) <;> simp

/-- **C205** Numbers of sources that neither agree nor are one are refused, in both models. -/
theorem C205_refused (nI nC nL nR n : Nat) (flux : Nat → ℝ) (coeffs : Nat → Nat → ℝ) (logPoly : Nat → Bool) (freq refFreq : Nat → ℝ) :
    ((∃ a ∈ [nI, nC, nR], ∃ b ∈ [nI, nC, nR], a ≠ b ∧ a ≠ 1 ∧ b ≠ 1) →
      ordinarySpectralModel nI nC nR n flux coeffs freq refFreq = .error .valueError) ∧
    ((∃ a ∈ [nI, nC, nL, nR], ∃ b ∈ [nI, nC, nL, nR], a ≠ b ∧ a ≠ 1 ∧ b ≠ 1) →
      logSpectralModel nI nC nL nR n flux coeffs logPoly freq refFreq = .error .valueError) := by
  constructor
  · rintro ⟨a, ha, b, hb, h⟩
    simp only [List.mem_cons, List.not_mem_nil, or_false] at ha hb
    rcases castDim_cases nC nR with ⟨hm, -⟩ | ⟨m, hm, hm'⟩
    · simp only [ordinarySpectralModel, castTerms, hm, err_bind]
    rcases castDim_cases nI m with ⟨hk, -⟩ | ⟨k, hk, hk'⟩
    · simp only [ordinarySpectralModel, castTerms, hm, hk, ok_bind, pure_bind', err_bind]
    exfalso
    omega
  · rintro ⟨a, ha, b, hb, h⟩
    simp only [List.mem_cons, List.not_mem_nil, or_false] at ha hb
    rcases castDim_cases nL nI with ⟨hl, -⟩ | ⟨l, hl, hl'⟩
    · simp only [logSpectralModel, hl, err_bind]
    rcases castDim_cases nC nR with ⟨hm, -⟩ | ⟨m, hm, hm'⟩
    · simp only [logSpectralModel, castTerms, hl, hm, ok_bind, err_bind]
    rcases castDim_cases l m with ⟨hk, -⟩ | ⟨k, hk, hk'⟩
    · simp only [logSpectralModel, castTerms, hl, hm, hk, ok_bind, pure_bind', err_bind]
    exfalso
    have h1 : nI = k ∨ nI = 1 := by
      clear hm' ha hb
      omega
    have h2 : nL = k ∨ nL = 1 := by
      clear hm' ha hb
      omega
    have h3 : nC = k ∨ nC = 1 := by
      clear hl' ha hb
      omega
    have h4 : nR = k ∨ nR = 1 := by
      clear hl' ha hb
      omega
    have h5 : a = k ∨ a = 1 := by
      rcases ha with rfl | rfl | rfl | rfl <;> assumption
    have h6 : b = k ∨ b = 1 := by
      rcases hb with rfl | rfl | rfl | rfl <;> assumption
    clear hl' hm' hk' ha hb h1 h2 h3 h4
    omega

/-- An ordinary source of negative flux and a logarithmic one: the compiled function succeeds, so that `C205_agree` applies. -/
example : ∃ out, spectra 2 2 2 3 1 (fun s => if s = 0 then 1 else -5) (fun _ _ => 2) (.array 2 fun s => s = 0) (fun _ => 1)
    (fun f => f + 1) (fun _ _ => 0) = .ok out := by
  obtain ⟨out, h1, -⟩ := C48_value_partial 2 3 1 (fun s => if s = 0 then 1 else -5) (fun _ _ => 2)
    (.array 2 fun s => s = 0) (fun _ => 1) (fun f => f + 1) (fun _ _ => 0) rfl
    (by
      intro s _ hs
      have : s = 0 := by simpa [LogPoly.at] using hs
      subst this
      rintro (h | ⟨c, _, h⟩) <;> norm_num at h)
  exact ⟨out, h1⟩

end Verif.ModelData
