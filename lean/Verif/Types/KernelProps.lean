/-
C133: a kernel that was generated for earlier arguments is only used for arguments that would generate the same.
-/
import Verif.Types.Kernels

set_option autoImplicit false

namespace Verif.Types

open DT

/-- Keeping results is invisible: whatever calls come one after the other, each gets what the generator gives for its own
arguments, results and exceptions. -/
def Transparent {A K V : Type} [DecidableEq K] (key : A → K) (gen : A → Except PyErr V) : Prop :=
  ∀ calls : List A, memoRun key gen [] calls = calls.map gen

/-- The same for calls with arguments of some kind. -/
def TransparentOn {A K V : Type} [DecidableEq K] (ok : A → Prop) (key : A → K) (gen : A → Except PyErr V) : Prop :=
  ∀ calls : List A, (∀ a ∈ calls, ok a) → memoRun key gen [] calls = calls.map gen

private theorem lookup_cases {K V : Type} [DecidableEq K] {k k' : K} {v v' : V} {c : List (K × V)}
    (h : ((k, v) :: c).lookup k' = some v') : (k' = k ∧ v' = v) ∨ c.lookup k' = some v' := by
  rw [List.lookup_cons] at h
  cases e : k' == k
  · rw [e] at h
    exact Or.inr h
  · rw [e] at h
    exact Or.inl ⟨beq_iff_eq.1 e, (Option.some.inj h).symm⟩

private theorem run_eq {A K V : Type} [DecidableEq K] (ok : A → Prop) (key : A → K) (gen : A → Except PyErr V)
    (h : ∀ a b v, ok a → ok b → key a = key b → gen a = .ok v → gen b = .ok v) (calls : List A)
    (hok : ∀ a ∈ calls, ok a) : ∀ cache : List (K × V),
    (∀ k v, cache.lookup k = some v → ∃ a, ok a ∧ key a = k ∧ gen a = .ok v) →
    memoRun key gen cache calls = calls.map gen := by
  induction calls with
  | nil => intro cache _; rfl
  | cons a calls ih =>
    intro cache hc
    have ih' := ih fun x hx => hok x (List.mem_cons_of_mem _ hx)
    have ha := hok a List.mem_cons_self
    unfold memoRun
    rw [List.map_cons]
    cases hl : cache.lookup (key a) with
    | some v =>
      obtain ⟨b, hb, hk, hg⟩ := hc _ _ hl
      show Except.ok v :: _ = _
      rw [h b a v hb ha hk hg, ih' cache hc]
    | none =>
      show (match gen a with
        | .ok v => Except.ok v :: memoRun key gen ((key a, v) :: cache) calls
        | .error e => .error e :: memoRun key gen cache calls) = _
      cases hg : gen a with
      | error e =>
        show Except.error e :: _ = _
        rw [ih' cache hc]
      | ok v =>
        show Except.ok v :: _ = _
        rw [ih']
        intro k v' hkv
        rcases lookup_cases hkv with ⟨rfl, rfl⟩ | hkv
        · exact ⟨a, ha, rfl, hg⟩
        · exact hc k v' hkv

/-- Keeping results is invisible exactly when arguments with the same key as arguments that give a result give the same
result. -/
theorem transparentOn_iff {A K V : Type} [DecidableEq K] (ok : A → Prop) (key : A → K) (gen : A → Except PyErr V) :
    TransparentOn ok key gen ↔ ∀ a b v, ok a → ok b → key a = key b → gen a = .ok v → gen b = .ok v := by
  constructor
  · intro h a b v ha hb hk hg
    have := h [a, b] (by
      intro x hx
      simp only [List.mem_cons, List.not_mem_nil, or_false] at hx
      rcases hx with rfl | rfl
      · exact ha
      · exact hb)
    simp only [memoRun, List.lookup_nil, hg, List.lookup_cons, hk, beq_self_eq_true, List.map_cons, List.map_nil,
      List.cons.injEq, and_true, true_and] at this
    exact this.symm
  · intro h calls hok
    exact run_eq ok key gen h calls hok [] fun k v hv => by cases hv

private theorem transparent_of {A K V : Type} [DecidableEq K] {key : A → K} {gen : A → Except PyErr V}
    (h : ∀ a b, key a = key b → gen a = gen b) : Transparent key gen := fun calls =>
  (transparentOn_iff (fun _ => True) key gen).2 (fun a b _ _ _ hk hg => (h a b hk) ▸ hg) calls fun _ _ => trivial

/-- C133 for `phase_delay`, `feed_rotation` and the interpolation of frequencies: in any history of calls, with arrays of
any shapes. -/
theorem C133_terms (typename : DT → Except PyErr String) :
    Transparent phaseKey (phaseGen typename) ∧ Transparent feedKey (feedGen typename) ∧
      Transparent interpKey (interpGen typename) := by
  refine ⟨transparent_of ?_, transparent_of ?_, transparent_of ?_⟩
  · intro a b h
    simp only [phaseKey, Prod.mk.injEq] at h
    obtain ⟨h1, h2, h3⟩ := h
    unfold phaseGen
    rw [h1, h2, h3]
  · intro a b h
    simp only [feedKey, Prod.mk.injEq] at h
    obtain ⟨h1, h2⟩ := h
    unfold feedGen
    rw [h1, h2]
  · intro a b h
    simp only [interpKey, Prod.mk.injEq] at h
    obtain ⟨h1, h2⟩ := h
    unfold interpGen
    rw [h1, h2]

/-- CuPy's names of the types, for the examples. -/
private def demoName : DT → Except PyErr String := cudaType

example : memoRun phaseKey (phaseGen demoName) []
    [⟨⟨float32, [5, 2]⟩, ⟨float32, [7, 3]⟩, ⟨float32, [4]⟩⟩, ⟨⟨int32, [5, 2]⟩, ⟨float32, [7, 3]⟩, ⟨float32, [4]⟩⟩,
      ⟨⟨float32, [9, 2]⟩, ⟨float32, [1, 3]⟩, ⟨float32, [2]⟩⟩]
    = [.ok ⟨["float", "float", "float", "float", "sqrtf", "sincosf", "32", "32"], (32, 32, 1), complex64⟩,
        .error .valueError,
        .ok ⟨["float", "float", "float", "float", "sqrtf", "sincosf", "32", "32"], (32, 32, 1), complex64⟩] := rfl

private theorem ndim_of {a b : Option Arr} (h : keyOf a = keyOf b) : a.map Arr.ndim = b.map Arr.ndim := by
  cases a <;> cases b <;> simp_all [keyOf]

private theorem dtype_of {a b : Option Arr} (h : keyOf a = keyOf b) : a.map Arr.dtype = b.map Arr.dtype := by
  cases a <;> cases b <;> simp_all [keyOf]

private theorem template_of {a b : Option Arr} (h : keyOf a = keyOf b) : predictTemplate a = predictTemplate b := by
  unfold predictTemplate
  rw [dtype_of h]
  cases a <;> cases b <;> simp_all [keyOf]

/-- C133 for `predict_vis`: the key tells apart which matrices are there, their types, numbers of axes and
correlations. -/
theorem C133_predict : Transparent predictKey predictGen := by
  refine transparent_of ?_
  intro a b h
  simp only [predictKey, Prod.mk.injEq, List.map_cons, List.map_nil, List.cons.injEq, and_true] at h
  obtain ⟨⟨ht, h1, h2, hd1, hc, hd2, hg1, hb, hg2⟩, hcorr, hn⟩ := h
  have et : a.timeIndex.dtype = b.timeIndex.dtype := Option.some.inj (dtype_of ht)
  have e1 : a.antenna1.dtype = b.antenna1.dtype := Option.some.inj (dtype_of h1)
  have e2 : a.antenna2.dtype = b.antenna2.dtype := Option.some.inj (dtype_of h2)
  unfold predictGen
  simp only [List.map_cons, List.map_nil, List.mapM_cons, List.mapM_nil]
  rw [ndim_of hd1, ndim_of hc, ndim_of hd2, ndim_of hg1, ndim_of hb, ndim_of hg2, et, e1, e2, dtype_of hd1, dtype_of hc,
    dtype_of hd2, dtype_of hg1, dtype_of hb, dtype_of hg2, template_of hd1, template_of hc, template_of hd2,
    template_of hg1, template_of hb, template_of hg2, hcorr, hn]

example : ∃ k k', memoRun predictKey predictGen []
    [⟨⟨int32, [9]⟩, ⟨int32, [9]⟩, ⟨int32, [9]⟩, none, some ⟨complex64, [3, 9, 4, 4]⟩, none, none, none, none, [2, 2], 3⟩,
      ⟨⟨int32, [9]⟩, ⟨int32, [9]⟩, ⟨int32, [9]⟩, none, some ⟨complex64, [3, 9, 4, 4]⟩, none, none, none, none, [4], 3⟩]
    = [.ok k, .ok k'] := ⟨_, _, rfl⟩

/-- The extents of the beam can be interpolated in. -/
def MainArgs.Wide (a : MainArgs) : Prop := ∀ i < 3, 2 ≤ a.beam.shape.getD i 0

/-- C133 for `beam_cube_dde`, if all beams have at least two samples along each axis. Missing: smaller beams. -/
theorem C133_beam_partial (typename : DT → Except PyErr String) :
    TransparentOn MainArgs.Wide mainKey (mainGen typename) := by
  rw [transparentOn_iff]
  intro a b v ha hb hk hg
  rw [← hg]
  simp only [mainKey, Prod.mk.injEq, List.cons.injEq, and_true] at hk
  obtain ⟨⟨k1, k2, k3, k4, k5, k6, k7, k8⟩, k9, k10, k11⟩ := hk
  have na : ¬ (a.beam.shape.getD 0 0 < 2 ∨ a.beam.shape.getD 1 0 < 2 ∨ a.beam.shape.getD 2 0 < 2) := by
    have := ha 0 (by decide); have := ha 1 (by decide); have := ha 2 (by decide)
    omega
  have nb : ¬ (b.beam.shape.getD 0 0 < 2 ∨ b.beam.shape.getD 1 0 < 2 ∨ b.beam.shape.getD 2 0 < 2) := by
    have := hb 0 (by decide); have := hb 1 (by decide); have := hb 2 (by decide)
    omega
  unfold mainGen
  simp only [if_neg na, if_neg nb, k1, k2, k3, k4, k5, k6, k7, k8, k9, k10, k11]

example : MainArgs.Wide ⟨⟨complex64, [2, 3, 4, 1]⟩, ⟨float32, [2, 2]⟩, ⟨float32, [4]⟩, ⟨float32, [1, 2]⟩, ⟨float32, [1, 1]⟩,
    ⟨float32, [1, 1, 1, 2]⟩, ⟨float32, [1, 1, 2]⟩, ⟨float32, [1]⟩, 5, 1⟩ := by
  unfold MainArgs.Wide
  decide

/-- C133 fails for `beam_cube_dde`: a beam with one frequency is refused at first, and accepted after a beam with two. -/
theorem C133_beam_violated : ∃ (good thin : MainArgs) (k : Kernel),
    memoRun mainKey (mainGen demoName) [] [thin, good, thin] = [.error .valueError, .ok k, .ok k] := by
  refine ⟨⟨⟨complex64, [2, 2, 2, 1]⟩, ⟨float32, [2, 2]⟩, ⟨float32, [2]⟩, ⟨float32, [1, 2]⟩, ⟨float32, [1, 1]⟩,
      ⟨float32, [1, 1, 1, 2]⟩, ⟨float32, [1, 1, 2]⟩, ⟨float32, [1]⟩, 5, 1⟩,
    ⟨⟨complex64, [2, 2, 1, 1]⟩, ⟨float32, [2, 2]⟩, ⟨float32, [1]⟩, ⟨float32, [1, 2]⟩, ⟨float32, [1, 1]⟩,
      ⟨float32, [1, 1, 1, 2]⟩, ⟨float32, [1, 1, 2]⟩, ⟨float32, [1]⟩, 5, 1⟩, _, rfl⟩

open Classical in
/-- `_key_fn` and `_generate_kernel` of `convert` (model/coherency/cuda/conversion.py:116-185); a kernel that has not been
generated is planned with the shape of the input. -/
noncomputable def convertRun (calls : List ConvertGenArgs) : List (Except PyErr Cuda.ConvPlan) :=
  memoRun (fun a => (a.dtype, a.inSchema, a.outSchema))
    (fun a => Cuda.convertPlan false a.dtype a.shape a.inSchema a.outSchema) [] calls

/-- The last axes of the input are those of the schema. -/
def ConvertGenArgs.Matches (a : ConvertGenArgs) : Prop :=
  ∀ i, ModelData.elementIndices a.inSchema = .ok i → a.shape.drop (a.shape.length - i.2.length) = i.2

/-- C133 for `convert`, if the inputs have the axes of the schema. Missing: other inputs. -/
theorem C133_convert_partial (calls : List ConvertGenArgs) (h : ∀ a ∈ calls, a.Matches) :
    convertRun calls = calls.map fun a => Cuda.convertPlan false a.dtype a.shape a.inSchema a.outSchema := by
  classical
  have key := (transparentOn_iff ConvertGenArgs.Matches (fun a : ConvertGenArgs => (a.dtype, a.inSchema, a.outSchema))
    (fun a => Cuda.convertPlan false a.dtype a.shape a.inSchema a.outSchema)).2 ?_ calls h
  · unfold convertRun
    convert key
  · intro a b v ha hb hk hg
    rw [← hg]
    simp only [Prod.mk.injEq] at hk
    obtain ⟨k1, k2, k3⟩ := hk
    unfold Cuda.convertPlan
    rw [k1, k2, k3]
    cases hi : ModelData.elementIndices b.inSchema with
    | error e => rfl
    | ok i =>
      have e1 := ha i (by rw [k2, hi])
      have e2 := hb i hi
      simp only [bind, Except.bind, e1, e2]

/-- Two by two correlations, and the Stokes parameters that they are converted to. -/
private def demoIn : ModelData.Schema := .list [.list [.str "XX", .str "XY"], .list [.str "YX", .str "YY"]]
private def demoOut : ModelData.Schema := .list [.list [.str "I", .str "Q"], .list [.str "U", .str "V"]]

private theorem demo_ok : ∃ k, Cuda.convertPlan false .complex64 [5, 2, 2] demoIn demoOut = .ok k := ⟨_, rfl⟩

private theorem demo_error : Cuda.convertPlan false .complex64 [5, 1, 4] demoIn demoOut = .error .valueError := rfl

example : (⟨.complex64, [5, 2, 2], demoIn, demoOut⟩ : ConvertGenArgs).Matches := by
  intro i hi
  cases hi
  rfl

/-- C133 fails for `convert`: one by four correlations are refused for a schema of two by two at first, and accepted after
two by two correlations. -/
theorem C133_convert_violated : ∃ (good bad : ConvertGenArgs) (k : Cuda.ConvPlan),
    convertRun [bad, good, bad] = [.error .valueError, .ok k, .ok k] := by
  obtain ⟨k, hk⟩ := demo_ok
  refine ⟨⟨.complex64, [5, 2, 2], demoIn, demoOut⟩, ⟨.complex64, [5, 1, 4], demoIn, demoOut⟩, k, ?_⟩
  unfold convertRun
  simp only [memoRun, List.lookup_nil, demo_error, hk, List.lookup_cons, beq_self_eq_true]

end Verif.Types
