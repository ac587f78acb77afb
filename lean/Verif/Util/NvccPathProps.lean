/- C128: how the compiler, its options and the devices are found. -/
import Verif.Util.NvccProps3
import Verif.Util.NvccWitness
import Mathlib.Order.Nat
import Mathlib.Algebra.Order.Group.Nat

set_option autoImplicit false

namespace Verif.Nvcc

/-! ### paths -/

/-- **C128.** The first place on the path: some directory of the path and one of the names, such that nothing was found in earlier
directories nor under earlier names in the same directory. -/
theorem C128_search (env : Env) (names : List String) (r : String) :
    searchOnPath env names = some r ↔ ∃ ps p qs ns n ms, env.path = ps ++ p :: qs ∧ names = ns ++ n :: ms ∧
      env.there (join p n) = true ∧ r = env.abspath (join p n) ∧
      (∀ p' ∈ ps, ∀ n' ∈ names, env.there (join p' n') = false) ∧ (∀ n' ∈ ns, env.there (join p n') = false) := by
  unfold searchOnPath
  rw [Option.map_eq_some_iff]
  constructor
  · rintro ⟨f, hf, rfl⟩
    generalize env.path = path at hf ⊢
    induction path with
    | nil => simp at hf
    | cons p path ih =>
      rw [List.flatMap_cons, List.find?_append] at hf
      cases h1 : (names.map fun f => join p f).find? env.there with
      | some g =>
        rw [h1] at hf
        simp only [Option.some_or, Option.some.injEq] at hf
        subst hf
        obtain ⟨h2, as, bs, h3, h4⟩ := List.find?_eq_some_iff_append.1 h1
        obtain ⟨ns, l, h5, h6, h7⟩ := List.map_eq_append_iff.1 h3
        obtain ⟨n, ms, h8, h9, h10⟩ := List.map_eq_cons_iff.1 h7
        refine ⟨[], p, path, ns, n, ms, rfl, by rw [h5, h8], by rw [h9]; exact h2, by rw [h9], by simp, ?_⟩
        intro n' hn'
        have := h4 (join p n') (by rw [← h6]; exact List.mem_map_of_mem hn')
        simpa using this
      | none =>
        rw [h1] at hf
        simp only [Option.none_or] at hf
        obtain ⟨ps, q, qs, ns, n, ms, h2, h3, h4, h5, h6, h7⟩ := ih hf
        refine ⟨p :: ps, q, qs, ns, n, ms, by rw [h2]; rfl, h3, h4, h5, ?_, h7⟩
        intro p' hp' n' hn'
        rcases List.mem_cons.1 hp' with rfl | hp'
        · have := List.find?_eq_none.1 h1 (join p' n') (List.mem_map_of_mem hn')
          simpa using this
        · exact h6 p' hp' n' hn'
  · rintro ⟨ps, p, qs, ns, n, ms, h1, h2, h3, rfl, h5, h6⟩
    refine ⟨join p n, ?_, rfl⟩
    rw [h1, List.flatMap_append, List.flatMap_cons, List.find?_append, List.find?_append]
    have e1 : (ps.flatMap fun p => names.map fun f => join p f).find? env.there = none := by
      rw [List.find?_eq_none]
      intro x hx
      obtain ⟨p', hp', hx⟩ := List.mem_flatMap.1 hx
      obtain ⟨n', hn', rfl⟩ := List.mem_map.1 hx
      rw [h5 p' hp' n' hn']
      simp
    have e2 : (names.map fun f => join p f).find? env.there = some (join p n) := by
      rw [h2, List.map_append, List.map_cons, List.find?_append, List.find?_cons_of_pos h3]
      have : (ns.map fun f => join p f).find? env.there = none := by
        rw [List.find?_eq_none]
        intro x hx
        obtain ⟨n', hn', rfl⟩ := List.mem_map.1 hx
        rw [h6 n' hn']
        simp
      rw [this]
      rfl
    rw [e1, e2]
    rfl

/-- **C128.** The directory of CUDA: `CUDA_PATH` if it exists, else the one above that of the nvcc on the path, and only if there is
none, `/usr/local/cuda`. Nothing is found only if none of the three exists. -/
theorem C128_cuda_path (env : Env) :
    (∀ c, env.var "CUDA_PATH" = some c → env.there c = true → findCudaPath env = some c) ∧
      (∀ c p, env.var "CUDA_PATH" = some c → env.there c = false → searchOnPath env ["nvcc", "nvcc.exe"] = some p →
        findCudaPath env = some (env.above p)) ∧
      (env.there "" = false → (findCudaPath env = none ↔ (∀ c, env.var "CUDA_PATH" = some c → env.there c = false) ∧
        (∀ p ∈ env.path, env.there (join p "nvcc") = false ∧ env.there (join p "nvcc.exe") = false) ∧
        env.there "/usr/local/cuda" = false)) := by
  refine ⟨?_, ?_, ?_⟩
  · intro c hc h
    unfold findCudaPath
    rw [hc]
    exact if_pos h
  · intro c p hc h hp
    unfold findCudaPath
    rw [hc, hp]
    exact if_neg (by rw [Option.getD_some, h]; simp)
  · intro h0
    have hs : searchOnPath env ["nvcc", "nvcc.exe"] = none ↔
        ∀ p ∈ env.path, env.there (join p "nvcc") = false ∧ env.there (join p "nvcc.exe") = false := by
      unfold searchOnPath
      simp
    unfold findCudaPath
    dsimp only
    rw [← hs]
    cases hv : env.var "CUDA_PATH" with
    | none =>
      rw [Option.getD_none, h0]
      cases searchOnPath env ["nvcc", "nvcc.exe"] with
      | none => cases env.there "/usr/local/cuda" <;> simp
      | some p => simp
    | some c =>
      rw [Option.getD_some]
      cases hc : env.there c with
      | true => simp [hc]
      | false =>
        cases searchOnPath env ["nvcc", "nvcc.exe"] with
        | none => cases env.there "/usr/local/cuda" <;> simp [hc]
        | some p => simp

/-- **C128.** What is found first is found ever after, even if the surroundings change; the devices and the options are kept as well,
but a failure is not. -/
theorem C128_cached (env env' : Env) (w : World) :
    (∀ p w', getCudaPath env w = (.ok p, w') → getCudaPath env' w' = (.ok p, w')) ∧
      (∀ i w', getCudaInfo env w = (.ok i, w') → getCudaInfo env' w' = (.ok i, w')) ∧
      (∀ o w', getCompilerBaseOptions env w = (.ok o, w') → getCompilerBaseOptions env' w' = (.ok o, w')) ∧
      (∀ e w', getCudaInfo env w = (.error e, w') → w'.cudaInfo = none) ∧
      (∀ e w', getCompilerBaseOptions env w = (.error e, w') → w'.baseOpts = none) := by
  refine ⟨?_, ?_, ?_, ?_, ?_⟩
  · intro p w' h
    have : w'.cudaPath = some p := by
      unfold getCudaPath at h
      rw [bind_run] at h
      dsimp only [getW] at h
      cases hw : w.cudaPath with
      | some q =>
        rw [hw] at h
        cases h
        exact hw
      | none =>
        rw [hw] at h
        cases h
        rfl
    unfold getCudaPath
    rw [bind_run]
    dsimp only [getW]
    rw [this]
    rfl
  · intro i w' h
    exact info_known env' (info_ok h)
  · intro o w' h
    have : w'.baseOpts = some o := by
      unfold getCompilerBaseOptions at h
      rw [bind_run] at h
      dsimp only [getW] at h
      cases hw : w.baseOpts with
      | some q =>
        rw [hw] at h
        cases h
        exact hw
      | none =>
        rw [hw] at h
        obtain ⟨_, _, _, h⟩ := bind_ok h
        cases h
        rfl
    unfold getCompilerBaseOptions
    rw [bind_run]
    dsimp only [getW]
    rw [this]
    rfl
  · intro e w' h
    cases hw : w.cudaInfo with
    | some i =>
      rw [info_known env hw] at h
      cases h
    | none =>
      rw [info_unknown env hw] at h
      rcases bind_snd (getCudaInfo' env) (fun i => modW (fun w => { w with cudaInfo := some i }) >>= fun _ => pure i) w with
        ⟨a, _, h1⟩ | ⟨_, _, h1⟩
      · rw [h1] at h
        cases h
      · rw [h1] at h
        cases h
        exact (pres_cudaInfo' indP_unknown env w).1 hw
  · intro e w' h
    unfold getCompilerBaseOptions at h
    rw [bind_run] at h
    dsimp only [getW] at h
    cases hw : w.baseOpts with
    | some q =>
      rw [hw] at h
      cases h
    | none =>
      rw [hw] at h
      change (getCompilerBaseOptions' env >>= _) w = _ at h
      have hind : IndP fun w w' : World => w.baseOpts = none → w'.baseOpts = none :=
        ⟨⟨fun h g a => g (h a), fun _ _ _ _ h => h⟩, fun _ _ h => h⟩
      rcases bind_snd (getCompilerBaseOptions' env) (fun o => modW (fun w => { w with baseOpts := some o }) >>= fun _ => pure o) w
        with ⟨a, _, h1⟩ | ⟨_, _, h1⟩
      · rw [h1] at h
        cases h
      · rw [h1] at h
        cases h
        exact (pres_baseOptions' hind env w).1 hw

/-- **C128.** The compiler is the program nvcc in the directory of CUDA, if it exists. -/
theorem C128_nvcc (env : Env) (w : World) (hn : env.var "NVCC" = none) :
    (getNvccPath env w).1 = match (getCudaPath env w).1 with
      | .ok (some c) =>
        let p := join c (if env.platform = .win32 then "bin/nvcc.exe" else "bin/nvcc")
        .ok (if env.there p = true then some [p] else none)
      | _ => .ok none := by
  unfold getNvccPath
  rw [hn]
  change ((getCudaPath env >>= _) w).1 = _
  rw [bind_run]
  have hp : ∃ p, (getCudaPath env w).1 = .ok p := by
    unfold getCudaPath
    rw [bind_run]
    dsimp only [getW]
    cases w.cudaPath <;> exact ⟨_, rfl⟩
  obtain ⟨p, hp⟩ := hp
  rcases hw : getCudaPath env w with ⟨r, w'⟩
  rw [hw] at hp
  dsimp only at hp
  rw [hp]
  cases p with
  | none => rfl
  | some c =>
    dsimp only
    generalize join c _ = q
    by_cases hq : env.there q = true
    · rw [if_pos hq, if_pos hq]
      rfl
    · rw [if_neg hq, if_neg hq]
      rfl

/-- **C128 fails**: the variable `NVCC` does not choose the compiler; if it is set, an `AttributeError` is raised. -/
theorem C128_nvcc_violated (env : Env) (w : World) (s : String) (hs : s ≠ "") (hn : env.var "NVCC" = some s) :
    getNvccPath env w = (.error .attribute, w) := by
  unfold getNvccPath
  rw [hn, if_pos (by simpa using hs)]
  rfl

/-! ### lines -/

/-- The expressions match the lines from line `i`, with the groups `m`. -/
def MatchesAt (env : Env) (lines regexs : List String) (i : Nat) (m : List (List String)) : Prop :=
  i + regexs.length ≤ lines.length ∧ m.length = regexs.length ∧
    ∀ j < regexs.length, env.rematch (regexs.getD j "") (lines.getD (i + j) "") = some (m.getD j [])

theorem mapM_zip {α : Type} (f : String × Nat → Option α) (d : α) (l : List String) : ∀ (k : Nat) (m : List α),
    (l.zipIdx k).mapM f = some m ↔ m.length = l.length ∧ ∀ j < l.length, f (l.getD j "", k + j) = some (m.getD j d) := by
  induction l with
  | nil =>
    intro k m
    simp only [List.zipIdx_nil, List.mapM_nil]
    constructor
    · intro h
      cases h
      exact ⟨rfl, by simp⟩
    · rintro ⟨h, _⟩
      rw [List.length_eq_zero_iff.1 h]
      rfl
  | cons a l ih =>
    intro k m
    rw [List.zipIdx_cons, List.mapM_cons]
    constructor
    · intro h
      obtain ⟨x, hx, h⟩ := Option.bind_eq_some_iff.1 h
      obtain ⟨y, hy, h⟩ := Option.bind_eq_some_iff.1 h
      cases h
      obtain ⟨h1, h2⟩ := (ih (k + 1) y).1 hy
      refine ⟨by simp [h1], fun j hj => ?_⟩
      cases j with
      | zero => exact hx
      | succ j =>
        have := h2 j (by simpa using hj)
        simp only [List.getD_cons_succ]
        rw [← this]
        congr 2
        omega
    · rintro ⟨h1, h2⟩
      cases m with
      | nil => simp at h1
      | cons x m =>
        have hx : f (a, k) = some x := h2 0 (by simp)
        have hm : (l.zipIdx (k + 1)).mapM f = some m := by
          refine (ih (k + 1) m).2 ⟨by simpa using h1, fun j hj => ?_⟩
          have := h2 (j + 1) (by simpa using hj)
          simp only [List.getD_cons_succ] at this
          rw [← this]
          congr 2
          omega
        rw [hx]
        change ((l.zipIdx (k + 1)).mapM f).bind _ = _
        rw [hm]
        rfl

theorem matchFrom_iff (env : Env) (lines : List String) (i : Nat) (regexs : List String) (m : List (List String)) :
    matchFrom env lines i regexs = some m ↔ m.length = regexs.length ∧
      ∀ j < regexs.length, env.rematch (regexs.getD j "") (lines.getD (i + j) "") = some (m.getD j []) := by
  unfold matchFrom
  rw [mapM_zip _ []]
  simp only [Nat.zero_add]

/-- **C128.** The lines that are found are those of the first place where the expressions match; the last possible place is not
tried. -/
theorem C128_match_partial (env : Env) (lines regexs : List String) (m : List (List String)) :
    matchOutputLines env lines regexs = some m ↔ ∃ i, i + regexs.length < lines.length ∧ MatchesAt env lines regexs i m ∧
      ∀ k < i, ∀ m', ¬ MatchesAt env lines regexs k m' := by
  unfold matchOutputLines
  by_cases hl : lines.length < regexs.length
  · rw [if_pos hl]
    constructor
    · intro h; cases h
    · rintro ⟨i, hi, _⟩; omega
  · rw [if_neg hl, List.findSome?_eq_some_iff]
    constructor
    · rintro ⟨as, i, bs, h1, h2, h3⟩
      have hi : i < lines.length - regexs.length := by
        rw [← List.mem_range, h1]; simp
      have has : as = List.range as.length ∧ i = as.length := by
        have hlen : as.length < (List.range (lines.length - regexs.length)).length := by rw [h1]; simp
        constructor
        · apply List.ext_getElem (by simp)
          intro n h4 h5
          have : (List.range (lines.length - regexs.length))[n]'(by omega) = as[n] := by
            simp only [h1]
            rw [List.getElem_append_left h4]
          rw [← this, List.getElem_range, List.getElem_range]
        · have : (List.range (lines.length - regexs.length))[as.length]'hlen = i := by
            simp only [h1]
            rw [List.getElem_append_right le_rfl]
            simp
          rw [← this, List.getElem_range]
      refine ⟨i, by omega, ⟨by omega, (matchFrom_iff env lines i regexs m).1 h2⟩, ?_⟩
      intro k hk m' hm'
      have hk' : k ∈ as := by
        rw [has.1, List.mem_range, ← has.2]
        exact hk
      have := h3 k hk'
      rw [(matchFrom_iff env lines k regexs m').2 hm'.2] at this
      cases this
    · rintro ⟨i, hi, h1, h2⟩
      refine ⟨List.range i, i, (List.range' (i + 1) (lines.length - regexs.length - i - 1)), ?_,
        (matchFrom_iff env lines i regexs m).2 h1.2, ?_⟩
      · apply List.ext_getElem (by simp; omega)
        intro n h3 h4
        rw [List.getElem_range]
        by_cases hn : n < i
        · rw [List.getElem_append_left (by simpa using hn), List.getElem_range]
        · rw [List.getElem_append_right (by simpa using hn)]
          obtain ⟨q, rfl⟩ : ∃ q, n = i + q := ⟨n - i, by omega⟩
          cases q with
          | zero => simp
          | succ q => simp; omega
      · intro k hk
        rw [List.mem_range] at hk
        cases hm : matchFrom env lines k regexs with
        | none => rfl
        | some m' => exact absurd ⟨by omega, (matchFrom_iff env lines k regexs m').1 hm⟩ (h2 k hk m')

/-- **C128.** If the output ends with a line that the last expression does not match, as it does if it ends with a line feed, the
last possible place is no match either, and lines are found exactly if there are any. -/
theorem C128_match_ends (env : Env) (lines regexs : List String) (r l : String) (hr : regexs.getLast? = some r)
    (hl : lines.getLast? = some l) (hn : env.rematch r l = none) :
    (matchOutputLines env lines regexs).isSome = true ↔ ∃ i m, MatchesAt env lines regexs i m := by
  classical
  rw [Option.isSome_iff_exists]
  constructor
  · rintro ⟨m, h⟩
    obtain ⟨i, _, h, _⟩ := (C128_match_partial env lines regexs m).1 h
    exact ⟨i, m, h⟩
  · intro h
    obtain ⟨m, hm⟩ := Nat.find_spec h
    refine ⟨m, (C128_match_partial env lines regexs m).2 ⟨Nat.find h, ?_, hm, fun k hk m' hm' => Nat.find_min h hk ⟨m', hm'⟩⟩⟩
    obtain ⟨h1, h2, h3⟩ := hm
    rcases Nat.lt_or_eq_of_le h1 with h4 | h4
    · exact h4
    · exfalso
      have hpos : 0 < regexs.length := by
        cases regexs with
        | nil => simp at hr
        | cons a b => simp
      have := h3 (regexs.length - 1) (by omega)
      have e1 : regexs.getD (regexs.length - 1) "" = r := by
        rw [List.getLast?_eq_getElem?] at hr
        rw [List.getD_eq_getElem?_getD, hr]
        rfl
      have e2 : lines.getD (Nat.find h + (regexs.length - 1)) "" = l := by
        rw [List.getLast?_eq_getElem?] at hl
        rw [List.getD_eq_getElem?_getD, show Nat.find h + (regexs.length - 1) = lines.length - 1 by omega, hl]
        rfl
      rw [e1, e2, hn] at this
      cases this

/-- The hypotheses can be met: an output that ends with a line feed. -/
example : matchOutputLines { machine (.error .value) none with rematch := fun r s => if r = s then some [] else none }
    ["x", "a", "b", ""] ["a", "b"] = some [[], []] := by decide +kernel

/-- **C128 fails**: a match at the end is not found. -/
theorem C128_match_violated : ∃ env : Env, MatchesAt env ["a", "b"] ["a", "b"] 0 [[], []] ∧
    matchOutputLines env ["a", "b"] ["a", "b"] = none := by
  refine ⟨{ machine (.error .value) none with rematch := fun r s => if r = s then some [] else none }, ⟨by simp, rfl, ?_⟩, rfl⟩
  intro j hj
  have : j = 0 ∨ j = 1 := by simp at hj; omega
  rcases this with rfl | rfl <;> rfl

end Verif.Nvcc
