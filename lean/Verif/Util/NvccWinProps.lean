/-
C197: compiling several files on Windows.
-/
import Verif.Util.NvccWin
import Verif.Util.NvccProps2
import Verif.Util.NvccProps3
import Verif.Util.NvccWitness
import Mathlib.Data.List.Perm.Basic

set_option autoImplicit false

namespace Verif.Nvcc

/-! ### Specification -/

/-- distutils names the object file of a source file by `obj`, one for each, and builds all of them. -/
structure Distutils.Names (d : Distutils) (obj : Source → String) : Prop where
  compile : ∀ l w objs w', d.compile l w = (.ok objs, w') → objs = l.map obj
  setup : ∀ l, d.setup l = l.map fun s => (obj s, some s.name)

/-- The CUDA C files among the sources. -/
def cudaFiles (l : List Source) : List Source := l.filter fun s => s.ext = ".cu"

/-- The other ones. -/
def otherFiles (l : List Source) : List Source := l.filter fun s => s.ext ≠ ".cu"

/-! ### Theorems -/

theorem cuLoop_ok {env : Env} {d : Distutils} {nvcc : Option (List String)} {post : List String} {l : List (String × String)}
    {w w' : World} (h : cuLoop env d nvcc post (l.map fun o => (o.1, some o.2)) w = (.ok (), w')) :
    (l ≠ [] → nvcc ≠ none) ∧
    w'.log = w.log ++ l.map (fun o => nvcc.getD [] ++ (d.ccArgs ++ [o.2, "-o", o.1] ++ post)) ∧
      w'.made = w.made ++ l.map (·.1) ∧
      ∀ o ∈ l, ∃ n, env.spawn n (nvcc.getD [] ++ (d.ccArgs ++ [o.2, "-o", o.1] ++ post)) = none := by
  induction l generalizing w with
  | nil =>
    cases h
    simp
  | cons o l ih =>
    rw [List.map_cons] at h
    unfold cuLoop at h
    obtain ⟨_, w1, h1, h⟩ := bind_ok h
    obtain ⟨-, i2, i3, i4⟩ := ih h
    unfold cuStep at h1
    obtain ⟨cmd, w2, h2, h1⟩ := bind_ok h1
    cases nvcc with
    | none => cases h2
    | some p =>
      obtain ⟨rfl, rfl⟩ : p ++ (d.ccArgs ++ [o.2, "-o", o.1] ++ post) = cmd ∧ w = w2 := by
        cases h2
        exact ⟨rfl, rfl⟩
      obtain ⟨_, w3, h3, h1⟩ := bind_ok h1
      obtain rfl : { w with log := w.log ++ [p ++ (d.ccArgs ++ [o.2, "-o", o.1] ++ post)] } = w3 := by
        cases h3
        rfl
      obtain ⟨_, w4, h4, h1⟩ := bind_ok h1
      obtain rfl : { w4 with made := w4.made ++ [o.1] } = w1 := by
        cases h1
        rfl
      have h4' : w4.log = w.log ++ [p ++ (d.ccArgs ++ [o.2, "-o", o.1] ++ post)] ∧ w4.made = w.made ∧
          env.spawn w.clock (p ++ (d.ccArgs ++ [o.2, "-o", o.1] ++ post)) = none := by
        unfold except' ask at h4
        dsimp only at h4
        cases hs : env.spawn w.clock (p ++ (d.ccArgs ++ [o.2, "-o", o.1] ++ post)) with
        | none =>
          rw [hs] at h4
          cases h4
          exact ⟨rfl, rfl, rfl⟩
        | some e =>
          rw [hs] at h4
          dsimp only at h4
          by_cases he : e = .exec
          · rw [if_pos he] at h4
            cases h4
          · rw [if_neg he] at h4
            cases h4
      refine ⟨fun _ => by simp, ?_, ?_, ?_⟩
      · rw [i2]
        dsimp only
        rw [h4'.1]
        simp
      · rw [i3]
        dsimp only
        rw [h4'.2.1]
        simp
      · intro q hq
        rcases List.mem_cons.1 hq with rfl | hq
        · exact ⟨_, h4'.2.2⟩
        · exact i4 q hq

theorem cuLoop_info {env : Env} {d : Distutils} {nvcc : Option (List String)} {post : List String}
    {l : List (String × Option String)} {w w' : World} (h : cuLoop env d nvcc post l w = (.ok (), w')) :
    w'.cudaInfo = w.cudaInfo := by
  induction l generalizing w with
  | nil =>
    cases h
    rfl
  | cons o l ih =>
    unfold cuLoop at h
    obtain ⟨_, w1, h1, h⟩ := bind_ok h
    rw [ih h]
    rcases o with ⟨o, _ | src⟩
    · cases h1
      rfl
    · unfold cuStep at h1
      dsimp only at h1
      obtain ⟨cmd, w2, h2, h1⟩ := bind_ok h1
      obtain ⟨_, w3, h3, h1⟩ := bind_ok h1
      obtain ⟨_, w4, h4, h1⟩ := bind_ok h1
      have e1 : w1.cudaInfo = w4.cudaInfo := by
        cases h1
        rfl
      have e3 : w3.cudaInfo = w2.cudaInfo := by
        cases h3
        rfl
      have e2 : w2.cudaInfo = w.cudaInfo := by
        cases nvcc <;> cases h2
        rfl
      have e4 : w4.cudaInfo = w3.cudaInfo := by
        unfold except' ask at h4
        dsimp only at h4
        cases hs : env.spawn w3.clock cmd with
        | none =>
          rw [hs] at h4
          cases h4
          rfl
        | some e =>
          rw [hs] at h4
          dsimp only at h4
          by_cases he : e = .exec
          · rw [if_pos he] at h4
            cases h4
          · rw [if_neg he] at h4
            cases h4
      rw [e1, e4, e3, e2]

theorem result_eq {env : Env} {d : Distutils} {obj : Source → String} (hd : d.Names obj) {extra : List String}
    {sources : List Source} {w w' : World} {objs : List String}
    (h : winCompile env d extra sources w = (.ok objs, w')) :
    objs = (otherFiles sources).map obj ++ (cudaFiles sources).map obj := by
  unfold winCompile at h
  obtain ⟨o, w1, h1, h⟩ := bind_ok h
  obtain ⟨c, w2, h2, h⟩ := bind_ok h
  cases h
  unfold compileCu at h2
  obtain ⟨nvcc, w3, h3, h2⟩ := bind_ok h2
  obtain ⟨v, w4, h4, h2⟩ := bind_ok h2
  obtain ⟨gen, w5, h5, h2⟩ := bind_ok h2
  obtain ⟨_, w6, h6, h2⟩ := bind_ok h2
  cases h2
  rw [hd.compile _ _ _ _ h1, hd.setup, List.map_map]
  rfl

/-- **C197**: compiling succeeds only by compiling the files without CUDA C with the compiler of the platform and then each CUDA
C file with one run of the nvcc that was found, in their order, each of which
succeeds, and returns the object files of all sources. -/
theorem C197_commands {env : Env} {d : Distutils} {obj : Source → String} (hd : d.Names obj) {extra : List String}
    {sources : List Source} {w w' : World} {objs : List String}
    (h : winCompile env d extra sources w = (.ok objs, w')) :
    objs.Perm (sources.map obj) ∧
    ∃ o w1, d.compile (otherFiles sources) w = (.ok o, w1) ∧ ∃ i, w'.cudaInfo = some i ∧ 8000 ≤ i.version ∧
      ∃ nvcc : String, (cudaFiles sources ≠ [] → env.there nvcc = true) ∧
        w'.log = w1.log ++ (cudaFiles sources).map (fun s => nvcc :: (d.ccArgs ++ [s.name, "-o", obj s] ++
          (i.devices.map fun v => gencode env (v.1 * 10 + v.2)) ++ ["-O2", "-Xcompiler", "/MD"] ++ extra)) ∧
        w'.made = w1.made ++ (cudaFiles sources).map obj ∧
        ∀ s ∈ cudaFiles sources, ∃ n, env.spawn n (nvcc :: (d.ccArgs ++ [s.name, "-o", obj s] ++
          (i.devices.map fun v => gencode env (v.1 * 10 + v.2)) ++ ["-O2", "-Xcompiler", "/MD"] ++ extra)) = none := by
  unfold winCompile at h
  obtain ⟨o, w1, h1, h⟩ := bind_ok h
  obtain ⟨c, w2, h2, h⟩ := bind_ok h
  cases h
  unfold compileCu at h2
  obtain ⟨nvcc, w3, h3, h2⟩ := bind_ok h2
  obtain ⟨v, w4, h4, h2⟩ := bind_ok h2
  obtain ⟨gen, w5, h5, h2⟩ := bind_ok h2
  obtain ⟨_, w6, h6, h2⟩ := bind_ok h2
  cases h2
  have s3 := Pres.run (pres_nvccPath indP_same env) h3
  have s4 := Pres.run (same_version env) h4
  obtain ⟨i, w7, h7, h8⟩ := bind_ok h4
  have hi := info_ok h7
  have hv : 8000 ≤ i.version ∧ w7 = w4 := by
    by_cases hlt : i.version < 8000
    · rw [if_pos hlt] at h8
      cases h8
    · rw [if_neg hlt] at h8
      cases h8
      exact ⟨not_lt.1 hlt, rfl⟩
  obtain ⟨hv, rfl⟩ := hv
  unfold getGencodeOptions at h5
  obtain ⟨j, w8, h9, h5⟩ := bind_ok h5
  rw [info_known env hi] at h9
  cases h9
  cases h5
  rw [hd.setup] at h6
  have e : ((sources.filter fun s => s.ext = ".cu").map fun s => (obj s, some s.name)) =
      ((cudaFiles sources).map fun s => (obj s, s.name)).map fun o => (o.1, some o.2) := by
    rw [List.map_map]
    rfl
  rw [e] at h6
  obtain ⟨k1, k2, k3, k5⟩ := cuLoop_ok h6
  have k4 := cuLoop_info h6
  have ho := hd.compile _ _ _ _ h1
  refine ⟨?_, o, w1, h1, i, k4.trans hi, hv, ?_⟩
  · rw [ho, hd.setup, List.map_map]
    show (List.map obj (sources.filter fun s => s.ext ≠ ".cu") ++ List.map obj (sources.filter fun s => s.ext = ".cu")).Perm _
    rw [← List.map_append]
    refine List.Perm.map _ ?_
    have := List.filter_append_perm (fun s : Source => decide (s.ext ≠ ".cu")) sources
    simpa using this
  · have hn : ∃ f : String, (cudaFiles sources ≠ [] → env.there f = true ∧ nvcc = some [f]) := by
      cases nvcc with
      | none => exact ⟨"", fun hne => absurd rfl (k1 (by simpa using hne))⟩
      | some p =>
        obtain ⟨f, rfl, hf⟩ := nvccPath_ok h3
        exact ⟨f, fun _ => ⟨hf, rfl⟩⟩
    obtain ⟨f, hf⟩ := hn
    refine ⟨f, fun hne => (hf hne).1, ?_, ?_, ?_⟩
    · rw [k2, s4.2.2.2.2, s3.2.2.2.2, List.map_map]
      congr 1
      by_cases hne : cudaFiles sources = []
      · rw [hne]
        rfl
      · rw [(hf hne).2]
        refine List.map_congr_left fun s _ => ?_
        simp
    · rw [k3, s4.2.2.2.1, s3.2.2.2.1, List.map_map]
      rfl
    · intro s hs
      obtain ⟨n, hn⟩ := k5 (obj s, s.name) (List.mem_map_of_mem hs)
      refine ⟨n, ?_⟩
      rw [(hf (List.ne_nil_of_mem hs)).2] at hn
      rw [← hn]
      simp

/-- **C197** for sources in which no other file comes after a CUDA C file: the object files are returned in the order of the
sources. The full claim is for all sources. -/
theorem C197_order_partial {env : Env} {d : Distutils} {obj : Source → String} (hd : d.Names obj) {extra : List String}
    {a b : List Source} (ha : ∀ s ∈ a, s.ext ≠ ".cu") (hb : ∀ s ∈ b, s.ext = ".cu") {w w' : World} {objs : List String}
    (h : winCompile env d extra (a ++ b) w = (.ok objs, w')) : objs = (a ++ b).map obj := by
  rw [result_eq hd h]
  unfold otherFiles cudaFiles
  have e1 : a.filter (fun s => s.ext = ".cu") = [] := by simpa using ha
  have e2 : b.filter (fun s => s.ext = ".cu") = b := by simpa using hb
  have e3 : a.filter (fun s => s.ext ≠ ".cu") = a := by simpa using ha
  have e4 : b.filter (fun s => s.ext ≠ ".cu") = [] := by simpa using hb
  rw [List.filter_append, List.filter_append, e1, e2, e3, e4, List.append_nil, List.nil_append, List.map_append]

/-- **C197 fails**: whenever a file without CUDA C comes after a CUDA C file, the object files come in another order than the
sources: the first one is not that of the first source. -/
theorem C197_order_violated {env : Env} {d : Distutils} {obj : Source → String} (hd : d.Names obj) (hinj : Function.Injective obj)
    {extra : List String} {a b : Source} (ha : a.ext = ".cu") (hb : b.ext ≠ ".cu") {l : List Source} {w w' : World}
    {objs : List String} (h : winCompile env d extra (a :: b :: l) w = (.ok objs, w')) :
    objs.head? = some (obj b) ∧ objs ≠ (a :: b :: l).map obj := by
  have e : objs.head? = some (obj b) := by
    rw [result_eq hd h]
    unfold otherFiles
    rw [List.filter_cons_of_neg (by simpa using ha), List.filter_cons_of_pos (by simpa using hb)]
    rfl
  refine ⟨e, fun h' => ?_⟩
  rw [h', List.map_cons, List.head?_cons, Option.some.injEq] at e
  exact hb (hinj e ▸ ha)

/-- **C197 fails**: in the supported versions of Python, compiling always raises, also if none of the files is CUDA C and all of
them have been compiled. -/
theorem C197_python3_violated {env : Env} (hp : env.Python3) (d : Distutils) (extra : List String) (sources : List Source)
    (w w1 : World) (o : List String) (h : d.compile (otherFiles sources) w = (.ok o, w1)) (hw : w1.cudaInfo = none) :
    ∃ e, (winCompile env d extra sources w).1 = .error e := by
  have hr : Raises (compileCu env d extra (cudaFiles sources)) := by
    unfold compileCu
    exact raises_right (pres_nvccPath indP_unknown env) fun _ => raises_left _ (raises_version hp)
  obtain ⟨e, he⟩ := hr w1 hw
  refine ⟨e, ?_⟩
  unfold winCompile
  rw [bind_run]
  unfold otherFiles at h
  rw [h]
  dsimp only
  rw [bind_run]
  unfold cudaFiles at he
  rcases hx : compileCu env d extra (sources.filter fun s => s.ext = ".cu") w1 with ⟨r, w2⟩
  rw [hx] at he
  dsimp only at he
  subst he
  rfl

theorem cuLoop_append (env : Env) (d : Distutils) (nvcc : Option (List String)) (post : List String)
    (a b : List (String × Option String)) (w : World) :
    cuLoop env d nvcc post (a ++ b) w = (cuLoop env d nvcc post a >>= fun _ => cuLoop env d nvcc post b) w := by
  induction a generalizing w with
  | nil => rfl
  | cons o a ih =>
    rw [List.cons_append]
    change (cuStep env d nvcc post o >>= fun _ => cuLoop env d nvcc post (a ++ b)) w =
      ((cuStep env d nvcc post o >>= fun _ => cuLoop env d nvcc post a) >>= fun _ => cuLoop env d nvcc post b) w
    rw [bind_run, bind_run, bind_run]
    rcases cuStep env d nvcc post o w with ⟨r, w1⟩
    cases r with
    | error e => rfl
    | ok u =>
      dsimp only
      rw [ih, bind_run]

/-- **C197**: if the compiler fails for a CUDA C file, `CompileError` is raised, the files before it have been compiled and those
after it are not tried. -/
theorem C197_failure (env : Env) (d : Distutils) (p post : List String) (a b : List (String × Option String)) (o src : String)
    (w w1 : World) (h : cuLoop env d (some p) post a w = (.ok (), w1))
    (hs : env.spawn w1.clock (p ++ (d.ccArgs ++ [src, "-o", o] ++ post)) = some .exec) :
    (cuLoop env d (some p) post (a ++ (o, some src) :: b) w).1 = .error .compile ∧
      (cuLoop env d (some p) post (a ++ (o, some src) :: b) w).2.log = w1.log ++ [p ++ (d.ccArgs ++ [src, "-o", o] ++ post)] ∧
      (cuLoop env d (some p) post (a ++ (o, some src) :: b) w).2.made = w1.made := by
  have hstep : cuStep env d (some p) post (o, some src) w1 = (.error .compile, { w1 with
      log := w1.log ++ [p ++ (d.ccArgs ++ [src, "-o", o] ++ post)], clock := w1.clock + 1 }) := by
    unfold cuStep
    dsimp only
    rw [bind_run]
    unfold addPath
    change (modW _ >>= _) w1 = _
    rw [bind_run]
    change (except' (ask fun n => match env.spawn n (p ++ (d.ccArgs ++ [src, "-o", o] ++ post)) with
        | none => (.ok () : Except Exc Unit)
        | some e => .error e) (fun e => if e = .exec then some (throw .compile) else none) >>= _)
      { w1 with log := w1.log ++ [p ++ (d.ccArgs ++ [src, "-o", o] ++ post)] } = _
    rw [bind_run]
    unfold except' ask
    dsimp only
    rw [hs]
    rfl
  have e : cuLoop env d (some p) post (a ++ (o, some src) :: b) w = (.error .compile, { w1 with
      log := w1.log ++ [p ++ (d.ccArgs ++ [src, "-o", o] ++ post)], clock := w1.clock + 1 }) := by
    rw [cuLoop_append, bind_run, h]
    dsimp only
    unfold cuLoop
    rw [bind_run, hstep]
  rw [e]
  exact ⟨rfl, rfl, rfl⟩

/-- distutils with a compiler that always succeeds. -/
def someDistutils : Distutils where
  compile := fun l => pure (l.map fun s => s.stem ++ ".obj")
  setup := fun l => l.map fun s => (s.stem ++ ".obj", some s.name)
  ccArgs := ["-c"]

/-- The hypotheses on distutils can be met, and a CUDA C file before another one is compiled after it. -/
example : someDistutils.Names fun s => s.stem ++ ".obj" where
  compile := fun l w objs w' h => by cases h; rfl
  setup := fun _ => rfl

example : (winCompile (machine (.ok ⟨10000, [(7, 0), (6, 1)]⟩) none) someDistutils ["-g"] [⟨"k", ".cu"⟩, ⟨"a", ".cpp"⟩] fresh).1 =
    .ok ["a.obj", "k.obj"] := by decide +kernel

example : (winCompile (machine (.ok ⟨10000, [(7, 0), (6, 1)]⟩) none) someDistutils ["-g"] [⟨"a", ".cpp"⟩, ⟨"k", ".cu"⟩] fresh).2.log =
    [["/usr/local/cuda/bin/nvcc", "-c", "k.cu", "-o", "k.obj", "--generate-code=arch=compute_70,code=sm_70",
      "--generate-code=arch=compute_61,code=sm_61", "-O2", "-Xcompiler", "/MD", "-g"]] := by decide +kernel

/-- Without any CUDA C file, compiling fails in Python 3. -/
example : (winCompile (machine (.error .value) none) someDistutils [] [⟨"a", ".cpp"⟩] fresh).1 = .error .value := by decide +kernel

/-- A compiler that fails for the second file. -/
example : (cuLoop { machine (.ok ⟨10000, [(7, 0)]⟩) none with spawn := fun n _ => if n = 1 then some .exec else none }
    someDistutils (some ["nvcc"]) [] [("a.obj", some "a.cu"), ("b.obj", some "b.cu"), ("c.obj", some "c.cu")] fresh).2.made =
    ["a.obj"] := by decide +kernel

end Verif.Nvcc
