/-
C185: the Stokes conversions of the gridder and those of `convert`.
-/
import Verif.Gridding.PoliciesProps
import Verif.ModelData.CoherencyProps

set_option autoImplicit false

namespace Verif.Gridding

open Verif.ModelData

/-! ### Specification -/

/-- The names of a list of correlations written without separators: two letters each. -/
def corrsOf : List Char → List String
  | a :: b :: rest => String.ofList [a, b] :: corrsOf rest
  | _ => []

/-- A schema without nesting. -/
def flat (names : List String) : Schema := .list (names.map .str)

/-- Stokes parameters `I`, `Q`, `U`, `V` of which only `st` is not zero. -/
noncomputable def onlyStokes (st : String) (s : ℂ) (p : List Nat) : ℂ :=
  if (["I", "Q", "U", "V"] : List String)[p.headD 0]? = some st then s else 0

/-- The correlations and Stokes parameters of the conversions to correlations: those named in both directions and one more. -/
def toCorrPairs : List (String × String) := pairs ++ [("RLLR", "Q")]

/-- The sets of correlations that these names mention. -/
def corrSets : List (List String) :=
  [["XX", "YY"], ["XY", "YX"], ["RR", "LL"], ["RL", "LR"], ["XX", "XY", "YX", "YY"], ["RR", "RL", "LR", "LL"]]

/-! ### Lemmas -/

/-- The correlations of Stokes parameters. -/
private noncomputable def corrFormula (x : Nat → ℂ) (c : String) : ℂ :=
  if c = "XX" then x 0 + x 1 else if c = "XY" then x 2 + x 3 * Complex.I else if c = "YX" then x 2 - x 3 * Complex.I
  else if c = "YY" then x 0 - x 1 else if c = "RR" then x 0 + x 3 else if c = "RL" then x 1 + x 2 * Complex.I
  else if c = "LR" then x 1 - x 2 * Complex.I else x 0 - x 3

private theorem conv4 (x : List Nat → ℂ) (names : List String) (h : names ∈ corrSets) :
    ∃ mid, convert [4] x (flat ["I", "Q", "U", "V"]) (flat names) = .ok mid ∧
      ∀ k, ∀ c, names[k]? = some c → mid [k] = some (corrFormula (fun i => x [i]) c) := by
  have hin : elementIndices (.list (["I", "Q", "U", "V"].map .str)) =
      .ok ([("I", [0]), ("Q", [1]), ("U", [2]), ("V", [3])], [4]) := rfl
  simp only [corrSets, List.mem_cons, List.not_mem_nil, or_false] at h
  rw [show ([4] : List Nat) = [] ++ [4] from rfl]
  rcases h with rfl | rfl | rfl | rfl | rfl | rfl
  · refine ⟨_, convert_eq (ores := [("XX", [0]), ("YY", [1])]) (oshape := [2]) hin rfl, fun k c hk => ?_⟩
    rcases k with _ | _ | _ | _ | k <;> simp at hk <;> subst hk <;> simp [runMapping, corrFormula]
  · refine ⟨_, convert_eq (ores := [("XY", [0]), ("YX", [1])]) (oshape := [2]) hin rfl, fun k c hk => ?_⟩
    rcases k with _ | _ | _ | _ | k <;> simp at hk <;> subst hk <;> simp [runMapping, corrFormula]
  · refine ⟨_, convert_eq (ores := [("RR", [0]), ("LL", [1])]) (oshape := [2]) hin rfl, fun k c hk => ?_⟩
    rcases k with _ | _ | _ | _ | k <;> simp at hk <;> subst hk <;> simp [runMapping, corrFormula]
  · refine ⟨_, convert_eq (ores := [("RL", [0]), ("LR", [1])]) (oshape := [2]) hin rfl, fun k c hk => ?_⟩
    rcases k with _ | _ | _ | _ | k <;> simp at hk <;> subst hk <;> simp [runMapping, corrFormula]
  · refine ⟨_, convert_eq (ores := [("XX", [0]), ("XY", [1]), ("YX", [2]), ("YY", [3])]) (oshape := [4]) hin rfl, fun k c hk => ?_⟩
    rcases k with _ | _ | _ | _ | k <;> simp at hk <;> subst hk <;> simp [runMapping, corrFormula]
  · refine ⟨_, convert_eq (ores := [("RR", [0]), ("RL", [1]), ("LR", [2]), ("LL", [3])]) (oshape := [4]) hin rfl, fun k c hk => ?_⟩
    rcases k with _ | _ | _ | _ | k <;> simp at hk <;> subst hk <;> simp [runMapping, corrFormula]

private theorem corrs_eq : corrsOf "XXYY".toList = ["XX", "YY"] ∧ corrsOf "XYYX".toList = ["XY", "YX"] ∧
    corrsOf "RRLL".toList = ["RR", "LL"] ∧ corrsOf "RLLR".toList = ["RL", "LR"] ∧
    corrsOf "XXXYYXYY".toList = ["XX", "XY", "YX", "YY"] ∧ corrsOf "RRRLLRLL".toList = ["RR", "RL", "LR", "LL"] := by decide

private theorem convOne {lead : List Nat} (x : List Nat → ℂ) {il : List Schema} {ires : List (String × List Nat)} {ishape : List Nat}
    (hin : elementIndices (.list il) = .ok (ires, ishape)) {st : String} {p q : List Nat} {fn : ℂ → ℂ → ℂ}
    (hb : buildMapping ires false [(st, [0])] [] = .ok [(p, q, [0], fn)])
    (ho : elementIndices (flat [st]) = .ok ([(st, [0])], [1])) :
    ∃ mid, convert (lead ++ ishape) x (.list il) (flat [st]) = .ok mid ∧ mid [0] = some (fn (x p) (x q)) := by
  refine ⟨runMapping x [(p, q, [0], fn)], (convert_eq hin ho).trans ?_, ?_⟩
  · rw [hb]
    rfl
  · simp [runMapping]

/-! ### The property -/

/-- **C185** The names that both ways mention are the names of the conversions to correlations, and their correlations are one of
the sets. -/
theorem C185_names (p : String) : p ∈ toCorrNames ↔ ∃ c st, (c, st) ∈ toCorrPairs ∧ p = c ++ "_FROM_" ++ st := by
  simp only [toCorrNames, toCorrPairs, pairs, List.cons_append, List.nil_append, List.mem_cons, List.not_mem_nil, or_false,
    Prod.mk.injEq]
  constructor
  · rintro (h | h | h | h | h | h | h | h | h | h | h | h | h | h | h | h)
    · exact ⟨"XXYY", "I", by simp, h⟩
    · exact ⟨"XXXYYXYY", "I", by simp, h⟩
    · exact ⟨"RRLL", "I", by simp, h⟩
    · exact ⟨"RRRLLRLL", "I", by simp, h⟩
    · exact ⟨"XXYY", "Q", by simp, h⟩
    · exact ⟨"XXXYYXYY", "Q", by simp, h⟩
    · exact ⟨"RLLR", "Q", by simp, h⟩
    · exact ⟨"RRRLLRLL", "Q", by simp, h⟩
    · exact ⟨"XYYX", "U", by simp, h⟩
    · exact ⟨"XXXYYXYY", "U", by simp, h⟩
    · exact ⟨"RLLR", "U", by simp, h⟩
    · exact ⟨"RRRLLRLL", "U", by simp, h⟩
    · exact ⟨"XYYX", "V", by simp, h⟩
    · exact ⟨"XXXYYXYY", "V", by simp, h⟩
    · exact ⟨"RRLL", "V", by simp, h⟩
    · exact ⟨"RRRLLRLL", "V", by simp, h⟩
  · rintro ⟨c, st, h, rfl⟩
    rcases h with h | h | h | h | h | h | h | h | h | h | h | h | h | h | h | h <;> obtain ⟨rfl, rfl⟩ := h <;> decide

/-- **C185** The number of correlations announced for a conversion is the number of correlations in its name. -/
theorem C185_ncorr (c st : String) (h : (c, st) ∈ toCorrPairs) :
    ncorrOut (c ++ "_FROM_" ++ st) = .ok (corrsOf c.toList).length := by
  simp only [toCorrPairs, pairs, List.cons_append, List.nil_append, List.mem_cons, List.not_mem_nil, or_false, Prod.mk.injEq] at h
  rcases h with h | h | h | h | h | h | h | h | h | h | h | h | h | h | h | h <;> obtain ⟨rfl, rfl⟩ := h <;> rfl

/-- **C185** Every conversion of a Stokes parameter by the degridder gives the correlations that `convert` gives for this
parameter and no others. -/
theorem C185_to_corr (c st : String) (h : (c, st) ∈ toCorrPairs) (s : ℂ) :
    ∃ mid v, convert [4] (onlyStokes st s) (flat ["I", "Q", "U", "V"]) (flat (corrsOf c.toList)) = .ok mid ∧
      stokes2corr (c ++ "_FROM_" ++ st) s (fun _ => 0) = .ok v ∧ ∀ k < (corrsOf c.toList).length, mid [k] = some (v k) := by
  have hset : corrsOf c.toList ∈ corrSets := by
    simp only [toCorrPairs, pairs, List.cons_append, List.nil_append, List.mem_cons, List.not_mem_nil, or_false, Prod.mk.injEq] at h
    rcases h with h | h | h | h | h | h | h | h | h | h | h | h | h | h | h | h <;> obtain ⟨rfl, rfl⟩ := h <;> decide
  obtain ⟨mid, h1, h2⟩ := conv4 (onlyStokes st s) _ hset
  have hv : ∃ v, stokes2corr (c ++ "_FROM_" ++ st) s (fun _ => 0) = .ok v ∧ ∀ k c', (corrsOf c.toList)[k]? = some c' →
      corrFormula (fun i => onlyStokes st s [i]) c' = v k := by
    simp only [toCorrPairs, pairs, List.cons_append, List.nil_append, List.mem_cons, List.not_mem_nil, or_false, Prod.mk.injEq] at h
    rcases h with h | h | h | h | h | h | h | h | h | h | h | h | h | h | h | h <;> obtain ⟨rfl, rfl⟩ := h <;>
      refine ⟨_, rfl, fun k c' hk => ?_⟩ <;>
      simp only [corrs_eq] at hk <;>
      rcases k with _ | _ | _ | _ | k <;> simp at hk <;> subst hk <;>
      simp [corrFormula, onlyStokes, addAt, mul_comm]
  obtain ⟨v, h3, h4⟩ := hv
  refine ⟨mid, v, h1, h3, fun k hk => ?_⟩
  rw [h2 k _ (List.getElem?_eq_getElem hk), h4 k _ (List.getElem?_eq_getElem hk)]

/-- **C185** Adding the conversions of all four Stokes parameters gives the correlations that `convert` gives for them. -/
theorem C185_all (c : String) (hc : c = "XXXYYXYY" ∨ c = "RRRLLRLL") (x : Nat → ℂ) :
    ∃ mid v0 v1 v2 v3, convert [4] (fun p => x (p.headD 0)) (flat ["I", "Q", "U", "V"]) (flat (corrsOf c.toList)) = .ok mid ∧
      stokes2corr (c ++ "_FROM_I") (x 0) (fun _ => 0) = .ok v0 ∧ stokes2corr (c ++ "_FROM_Q") (x 1) v0 = .ok v1 ∧
      stokes2corr (c ++ "_FROM_U") (x 2) v1 = .ok v2 ∧ stokes2corr (c ++ "_FROM_V") (x 3) v2 = .ok v3 ∧
      ∀ k < 4, mid [k] = some (v3 k) := by
  rcases hc with rfl | rfl
  · obtain ⟨mid, h1, h2⟩ := conv4 (fun p => x (p.headD 0)) (corrsOf "XXXYYXYY".toList) (by decide)
    refine ⟨mid, _, _, _, _, h1, rfl, rfl, rfl, rfl, fun k hk => ?_⟩
    simp only [corrs_eq] at h2
    rcases k with _ | _ | _ | _ | k
    · rw [h2 0 "XX" rfl]; simp [corrFormula, addAt]
    · rw [h2 1 "XY" rfl]; simp [corrFormula, addAt, mul_comm]
    · rw [h2 2 "YX" rfl]; simp [corrFormula, addAt, mul_comm]; ring
    · rw [h2 3 "YY" rfl]; simp [corrFormula, addAt]; ring
    · omega
  · obtain ⟨mid, h1, h2⟩ := conv4 (fun p => x (p.headD 0)) (corrsOf "RRRLLRLL".toList) (by decide)
    refine ⟨mid, _, _, _, _, h1, rfl, rfl, rfl, rfl, fun k hk => ?_⟩
    simp only [corrs_eq] at h2
    rcases k with _ | _ | _ | _ | k
    · rw [h2 0 "RR" rfl]; simp [corrFormula, addAt]
    · rw [h2 1 "RL" rfl]; simp [corrFormula, addAt, mul_comm]
    · rw [h2 2 "LR" rfl]; simp [corrFormula, addAt, mul_comm]; ring
    · rw [h2 3 "LL" rfl]; simp [corrFormula, addAt]; ring
    · omega

/-- **C185** Every conversion of the gridder has as real part the Stokes parameter that `convert` gives for the correlations. -/
theorem C185_to_stokes (c st : String) (h : (c, st) ∈ pairs) (v : Nat → ℂ) :
    ∃ mid z, convert [(corrsOf c.toList).length] (fun p => v (p.headD 0)) (flat (corrsOf c.toList)) (flat [st]) = .ok mid ∧
      corr2stokes (st ++ "_FROM_" ++ c) v = .ok z ∧ mid [0] = some (z.re : ℂ) := by
  simp only [pairs, List.mem_cons, List.not_mem_nil, or_false, Prod.mk.injEq] at h
  rcases h with h | h | h | h | h | h | h | h | h | h | h | h | h | h | h <;> obtain ⟨rfl, rfl⟩ := h <;> simp only [corrs_eq]
  · obtain ⟨mid, h1, h2⟩ := convOne (lead := []) (fun p => v (p.headD 0)) (il := [.str "XX", .str "YY"]) (st := "I")
      (ires := [("XX", [0]), ("YY", [1])]) (ishape := [2]) (p := [0]) (q := [1]) rfl rfl rfl
    exact ⟨mid, _, h1, rfl, h2.trans (congrArg (fun r : ℝ => some (r : ℂ)) (by simp; try ring))⟩
  · obtain ⟨mid, h1, h2⟩ := convOne (lead := []) (fun p => v (p.headD 0)) (il := [.str "XX", .str "XY", .str "YX", .str "YY"]) (st := "I")
      (ires := [("XX", [0]), ("XY", [1]), ("YX", [2]), ("YY", [3])]) (ishape := [4]) (p := [0]) (q := [3]) rfl rfl rfl
    exact ⟨mid, _, h1, rfl, h2.trans (congrArg (fun r : ℝ => some (r : ℂ)) (by simp; try ring))⟩
  · obtain ⟨mid, h1, h2⟩ := convOne (lead := []) (fun p => v (p.headD 0)) (il := [.str "RR", .str "LL"]) (st := "I")
      (ires := [("RR", [0]), ("LL", [1])]) (ishape := [2]) (p := [0]) (q := [1]) rfl rfl rfl
    exact ⟨mid, _, h1, rfl, h2.trans (congrArg (fun r : ℝ => some (r : ℂ)) (by simp; try ring))⟩
  · obtain ⟨mid, h1, h2⟩ := convOne (lead := []) (fun p => v (p.headD 0)) (il := [.str "RR", .str "RL", .str "LR", .str "LL"]) (st := "I")
      (ires := [("RR", [0]), ("RL", [1]), ("LR", [2]), ("LL", [3])]) (ishape := [4]) (p := [0]) (q := [3]) rfl rfl rfl
    exact ⟨mid, _, h1, rfl, h2.trans (congrArg (fun r : ℝ => some (r : ℂ)) (by simp; try ring))⟩
  · obtain ⟨mid, h1, h2⟩ := convOne (lead := []) (fun p => v (p.headD 0)) (il := [.str "XX", .str "YY"]) (st := "Q")
      (ires := [("XX", [0]), ("YY", [1])]) (ishape := [2]) (p := [0]) (q := [1]) rfl rfl rfl
    exact ⟨mid, _, h1, rfl, h2.trans (congrArg (fun r : ℝ => some (r : ℂ)) (by simp; try ring))⟩
  · obtain ⟨mid, h1, h2⟩ := convOne (lead := []) (fun p => v (p.headD 0)) (il := [.str "XX", .str "XY", .str "YX", .str "YY"]) (st := "Q")
      (ires := [("XX", [0]), ("XY", [1]), ("YX", [2]), ("YY", [3])]) (ishape := [4]) (p := [0]) (q := [3]) rfl rfl rfl
    exact ⟨mid, _, h1, rfl, h2.trans (congrArg (fun r : ℝ => some (r : ℂ)) (by simp; try ring))⟩
  · obtain ⟨mid, h1, h2⟩ := convOne (lead := []) (fun p => v (p.headD 0)) (il := [.str "RR", .str "RL", .str "LR", .str "LL"]) (st := "Q")
      (ires := [("RR", [0]), ("RL", [1]), ("LR", [2]), ("LL", [3])]) (ishape := [4]) (p := [1]) (q := [2]) rfl rfl rfl
    exact ⟨mid, _, h1, rfl, h2.trans (congrArg (fun r : ℝ => some (r : ℂ)) (by simp; try ring))⟩
  · obtain ⟨mid, h1, h2⟩ := convOne (lead := []) (fun p => v (p.headD 0)) (il := [.str "XY", .str "YX"]) (st := "U")
      (ires := [("XY", [0]), ("YX", [1])]) (ishape := [2]) (p := [0]) (q := [1]) rfl rfl rfl
    exact ⟨mid, _, h1, rfl, h2.trans (congrArg (fun r : ℝ => some (r : ℂ)) (by simp; try ring))⟩
  · obtain ⟨mid, h1, h2⟩ := convOne (lead := []) (fun p => v (p.headD 0)) (il := [.str "XX", .str "XY", .str "YX", .str "YY"]) (st := "U")
      (ires := [("XX", [0]), ("XY", [1]), ("YX", [2]), ("YY", [3])]) (ishape := [4]) (p := [1]) (q := [2]) rfl rfl rfl
    exact ⟨mid, _, h1, rfl, h2.trans (congrArg (fun r : ℝ => some (r : ℂ)) (by simp; try ring))⟩
  · obtain ⟨mid, h1, h2⟩ := convOne (lead := []) (fun p => v (p.headD 0)) (il := [.str "RL", .str "LR"]) (st := "U")
      (ires := [("RL", [0]), ("LR", [1])]) (ishape := [2]) (p := [0]) (q := [1]) rfl rfl rfl
    exact ⟨mid, _, h1, rfl, h2.trans (congrArg (fun r : ℝ => some (r : ℂ)) (by simp; try ring))⟩
  · obtain ⟨mid, h1, h2⟩ := convOne (lead := []) (fun p => v (p.headD 0)) (il := [.str "RR", .str "RL", .str "LR", .str "LL"]) (st := "U")
      (ires := [("RR", [0]), ("RL", [1]), ("LR", [2]), ("LL", [3])]) (ishape := [4]) (p := [1]) (q := [2]) rfl rfl rfl
    exact ⟨mid, _, h1, rfl, h2.trans (congrArg (fun r : ℝ => some (r : ℂ)) (by simp; try ring))⟩
  · obtain ⟨mid, h1, h2⟩ := convOne (lead := []) (fun p => v (p.headD 0)) (il := [.str "XY", .str "YX"]) (st := "V")
      (ires := [("XY", [0]), ("YX", [1])]) (ishape := [2]) (p := [0]) (q := [1]) rfl rfl rfl
    exact ⟨mid, _, h1, rfl, h2.trans (congrArg (fun r : ℝ => some (r : ℂ)) (by simp; try ring))⟩
  · obtain ⟨mid, h1, h2⟩ := convOne (lead := []) (fun p => v (p.headD 0)) (il := [.str "XX", .str "XY", .str "YX", .str "YY"]) (st := "V")
      (ires := [("XX", [0]), ("XY", [1]), ("YX", [2]), ("YY", [3])]) (ishape := [4]) (p := [1]) (q := [2]) rfl rfl rfl
    exact ⟨mid, _, h1, rfl, h2.trans (congrArg (fun r : ℝ => some (r : ℂ)) (by simp; try ring))⟩
  · obtain ⟨mid, h1, h2⟩ := convOne (lead := []) (fun p => v (p.headD 0)) (il := [.str "RR", .str "LL"]) (st := "V")
      (ires := [("RR", [0]), ("LL", [1])]) (ishape := [2]) (p := [0]) (q := [1]) rfl rfl rfl
    exact ⟨mid, _, h1, rfl, h2.trans (congrArg (fun r : ℝ => some (r : ℂ)) (by simp; try ring))⟩
  · obtain ⟨mid, h1, h2⟩ := convOne (lead := []) (fun p => v (p.headD 0)) (il := [.str "RR", .str "RL", .str "LR", .str "LL"]) (st := "V")
      (ires := [("RR", [0]), ("RL", [1]), ("LR", [2]), ("LL", [3])]) (ishape := [4]) (p := [0]) (q := [3]) rfl rfl rfl
    exact ⟨mid, _, h1, rfl, h2.trans (congrArg (fun r : ℝ => some (r : ℂ)) (by simp; try ring))⟩

/-- Non-vacuity: a conversion named in both directions and one named in one. -/
example : ("RRRLLRLL", "U") ∈ toCorrPairs ∧ ("RLLR", "Q") ∈ toCorrPairs ∧ ("RLLR", "Q") ∉ pairs ∧ ("RLLR", "U") ∈ pairs := by decide

end Verif.Gridding
