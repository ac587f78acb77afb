/-
Model of africanus/util/nvcc.py: choosing and asking the CUDA compiler, and compiling with it. A computation changes a world (open
file descriptors, temporary directories, files, lists and cached values) and returns a value or raises an exception; the world is
also changed if an exception is raised. What the operating system and other programs answer is given by an environment.
-/
import Mathlib.Data.List.Basic

set_option autoImplicit false

namespace Verif.Nvcc

/-- Exceptions. `exec` is distutils' `DistutilsExecError`, `compile` its `CompileError`, `unknownFile` its `UnknownFileError`
(for util/nvcc.py:40-500, what it uses of the operating system, of distutils and of Python). -/
inductive Exc where
  | os | unboundLocal | type | value | runtime | assertion | attribute | compile | exec | unknownFile
  | other (n : Nat)
deriving DecidableEq, Repr

/-- The values of `_get_cuda_info` that are used: version, and compute capability of the devices (util/nvcc.py:231-311). -/
structure Info where
  version : Int
  devices : List (Int × Int)
deriving DecidableEq, Repr

/-- The state of a process (for util/nvcc.py:40-500, what it uses of the operating system, of distutils and of Python). -/
structure World where
  /-- counts calls to the system, so that the same call can have different outcomes -/
  clock : Nat
  /-- descriptors and the open files they refer to -/
  fds : Nat → Option Nat
  /-- the next number of an open file -/
  nextFile : Nat
  /-- the temporary directories that exist -/
  tmp : List Nat
  /-- paths made by the compiler outside of temporary directories -/
  made : List String
  /-- the contents of the list that the caller passes as `options` -/
  caller : List String
  /-- `_cuda_path` (nvcc.py:57); `none` is `'NOT_INITIALIZED'` -/
  cudaPath : Option (Option String)
  /-- `_compiler_base_options` (nvcc.py:58) -/
  baseOpts : Option (List String)
  /-- `_cuda_info` (nvcc.py:59) -/
  cudaInfo : Option Info
  /-- the attribute `compiler_so` of the compiler object; it can be `None` -/
  compilerSo : Option (List String)
  /-- the commands that the compiler object has run -/
  log : List (List String)

/-- A computation (for util/nvcc.py:40-500, what it uses of the operating system, of distutils and of Python). -/
def M (α : Type) := World → Except Exc α × World

instance : Monad M where
  pure a := fun w => (.ok a, w)
  bind x f := fun w => match x w with
    | (.ok a, w') => f a w'
    | (.error e, w') => (.error e, w')

/-- `raise` (for util/nvcc.py:40-500, what it uses of the operating system, of distutils and of Python). -/
def throw {α : Type} (e : Exc) : M α := fun w => (.error e, w)

/-- The state (for util/nvcc.py:40-500, what it uses of the operating system, of distutils and of Python). -/
def getW : M World := fun w => (.ok w, w)

/-- A change of the state (for util/nvcc.py:40-500, what it uses of the operating system, of distutils and of Python). -/
def modW (f : World → World) : M Unit := fun w => (.ok (), f w)

/-- `try: … finally: …`: an exception of the second part replaces the outcome of the first
(for util/nvcc.py:40-500, what it uses of the operating system, of distutils and of Python). -/
def finally' {α : Type} (x : M α) (f : M Unit) : M α := fun w =>
  match f (x w).2 with
  | (.ok _, w'') => ((x w).1, w'')
  | (.error e, w'') => (.error e, w'')

/-- `try: … except …`, with the exceptions that are handled given by `f`
(for util/nvcc.py:40-500, what it uses of the operating system, of distutils and of Python). -/
def except' {α : Type} (x : M α) (f : Exc → Option (M α)) : M α := fun w =>
  match x w with
  | (.ok a, w') => (.ok a, w')
  | (.error e, w') => match f e with
    | none => (.error e, w')
    | some h => h w'

/-- Calls to the system that may fail (for util/nvcc.py:40-500, what it uses of the operating system, of distutils and of Python). -/
inductive Sys where
  | dup | open | write | read | mkdtemp | mkpath | resource
deriving DecidableEq, Repr

/-- The platforms that are distinguished (nvcc.py:49-51). -/
inductive Platform where
  | linux | darwin | win32
deriving DecidableEq, Repr

/-- What the surroundings of the process answer
(for util/nvcc.py:40-500, what it uses of the operating system, of distutils and of Python). -/
structure Env where
  platform : Platform
  /-- environment variables -/
  var : String → Option String
  /-- the directories of `PATH` -/
  path : List String
  /-- `os.path.exists` -/
  there : String → Bool
  /-- `os.path.abspath` -/
  abspath : String → String
  /-- `os.path.normpath(os.path.join(os.path.dirname(p), '..'))` -/
  above : String → String
  /-- failing calls -/
  fails : Nat → Sys → Option Exc
  /-- the largest number of descriptors -/
  limit : Nat
  /-- the path of a temporary directory -/
  tmpName : Nat → String
  /-- `Popen(…).communicate()`: return code and lines of the error output -/
  popen : Nat → List String → Except Exc (Int × List String)
  /-- `subprocess.check_output` -/
  checkOutput : Nat → String → Except Exc String
  /-- `ast.literal_eval` of bytes -/
  literalEval : String → Except Exc Info
  /-- `re.match`: the groups -/
  rematch : String → String → Option (List String)
  /-- `CCompiler.spawn` -/
  spawn : Nat → List String → Option Exc
  /-- `Module.load_file` -/
  load : Nat → String → Option Exc
  /-- `resource_filename("cupy", "core/include")` -/
  cupyPath : String
  /-- the text of numbers -/
  str : Int → String

/-- In the versions of Python that are supported (setup.py:86), `literal_eval` rejects bytes. -/
def Env.Python3 (env : Env) : Prop := ∀ s, env.literalEval s = .error .value

section
variable (env : Env)

/-- A call to the system (for util/nvcc.py:40-500, what it uses of the operating system, of distutils and of Python). -/
def sys (c : Sys) : M Unit := fun w =>
  let w' := { w with clock := w.clock + 1 }
  match env.fails w.clock c with
  | none => (.ok (), w')
  | some e => (.error e, w')

/-- An outcome that depends on the time (for util/nvcc.py:40-500, what it uses of the operating system, of distutils and of Python). -/
def ask {α : Type} (f : Nat → Except Exc α) : M α := fun w => (f w.clock, { w with clock := w.clock + 1 })

/-! ### descriptors -/

/-- `f[n] = v` (for util/nvcc.py:40-500, what it uses of the operating system, of distutils and of Python). -/
def upd (f : Nat → Option Nat) (n : Nat) (v : Option Nat) : Nat → Option Nat := fun k => if k = n then v else f k

/-- The lowest free descriptor refers to an open file; an `OSError` if there is none
(for util/nvcc.py:40-500, what it uses of the operating system, of distutils and of Python). -/
def alloc (file : Nat) : M Nat := fun w =>
  match (List.range env.limit).find? fun n => (w.fds n).isNone with
  | some n => (.ok n, { w with fds := upd w.fds n (some file) })
  | none => (.error .os, w)

/-- `os.dup` (for util/nvcc.py:40-500, what it uses of the operating system, of distutils and of Python). -/
def osDup (fd : Nat) : M Nat := do
  sys env .dup
  match (← getW).fds fd with
  | none => throw .os
  | some f => alloc env f

/-- `open` (for util/nvcc.py:40-500, what it uses of the operating system, of distutils and of Python). -/
def osOpen : M Nat := do
  sys env .open
  let w ← getW
  modW fun w => { w with nextFile := w.nextFile + 1 }
  alloc env w.nextFile

/-- `os.dup2(a, b)`: it fails only if `a` is not open
(for util/nvcc.py:40-500, what it uses of the operating system, of distutils and of Python). -/
def osDup2 (a b : Nat) : M Unit := do
  match (← getW).fds a with
  | none => throw .os
  | some f => modW fun w => { w with fds := upd w.fds b (some f) }

/-- `close` (for util/nvcc.py:40-500, what it uses of the operating system, of distutils and of Python). -/
def osClose (fd : Nat) : M Unit := modW fun w => { w with fds := upd w.fds fd none }

/-- `with open(…) as f: …`; the body reads or writes
(for util/nvcc.py:40-500, what it uses of the operating system, of distutils and of Python). -/
def withOpen (c : Sys) : M Unit := do
  let fd ← osOpen env
  finally' (sys env c) (osClose fd)

/-- `stdchannel_redirected` (nvcc.py:435-457) around a body. If `os.dup` or `open` raises, the `finally` clause reads a local
variable that is not bound, and `UnboundLocalError` replaces the exception. -/
def stdchannelRedirected {α : Type} (fileno : Nat) (body : M α) : M α := fun w =>
  match osDup env fileno w with
  | (.error _, w1) => (.error .unboundLocal, w1)
  | (.ok old, w1) => match osOpen env w1 with
    | (.error _, w2) => (do osDup2 old fileno; throw .unboundLocal) w2
    | (.ok dest, w2) => finally' (do osDup2 dest fileno; body) (do osDup2 old fileno; osClose dest) w2

/-- `_tempdir` (nvcc.py:62-68) around a body. Simplified: `rmtree` removes the directory. -/
def tempdir {α : Type} (body : Nat → M α) : M α := do
  sys env .mkdtemp
  let t := (← getW).clock
  modW fun w => { w with tmp := t :: w.tmp }
  finally' (body t) (modW fun w => { w with tmp := w.tmp.erase t })

/-! ### paths -/

/-- `os.path.join` of a directory and a relative path
(for util/nvcc.py:40-500, what it uses of the operating system, of distutils and of Python). -/
def join (d f : String) : String := if d = "" then f else if d.endsWith "/" then d ++ f else d ++ "/" ++ f

/-- `search_on_path` (nvcc.py:40-46). -/
def searchOnPath (names : List String) : Option String :=
  ((env.path.flatMap fun p => names.map fun f => join p f).find? env.there).map env.abspath

/-- What `get_cuda_path` finds (nvcc.py:79-100). -/
def findCudaPath : Option String :=
  let dflt := (searchOnPath env ["nvcc", "nvcc.exe"]).map env.above
  let cuda := (env.var "CUDA_PATH").getD ""
  if env.there cuda then some cuda
  else match dflt with
    | some d => some d
    | none => if env.there "/usr/local/cuda" then some "/usr/local/cuda" else none

/-- `get_cuda_path` (nvcc.py:71-102). -/
def getCudaPath : M (Option String) := do
  match (← getW).cudaPath with
  | some p => pure p
  | none =>
    modW fun w => { w with cudaPath := some (findCudaPath env) }
    pure (findCudaPath env)

/-- `get_nvcc_path` (nvcc.py:105-123). The package `distutils` has no attribute `split_quoted`. -/
def getNvccPath : M (Option (List String)) := do
  if (env.var "NVCC").getD "" ≠ "" then throw .attribute
  else
    match ← getCudaPath env with
    | none => pure none
    | some c =>
      let p := join c (if env.platform = .win32 then "bin/nvcc.exe" else "bin/nvcc")
      if env.there p then pure (some [p]) else pure none

/-- The include directories and macros of `get_compiler_setting` (nvcc.py:126-157); the library directories are not used for
compiling and left out. -/
def getCompilerSetting : M (List String × List String) := do
  let c ← getCudaPath env
  let inc := match c with
    | some p => if p ≠ "" then [join p "include"] else []
    | none => []
  if env.platform = .win32 then
    let nvtx := (env.var "NVTOOLSEXT_PATH").getD ""
    if env.there nvtx then pure (inc ++ [join nvtx "include"], []) else pure (inc, ["CUPY_NO_NVTX=1"])
  else pure (inc, [])

/-! ### the questions asked of the compiler -/

/-- The loop over the expressions in `_match_output_lines` (nvcc.py:169-176) at one line. -/
def matchFrom (lines : List String) (i : Nat) (regexs : List String) : Option (List (List String)) :=
  (regexs.zipIdx).mapM fun r => env.rematch r.1 (lines.getD (i + r.2) "")

/-- `_match_output_lines` (nvcc.py:160-179). -/
def matchOutputLines (lines regexs : List String) : Option (List (List String)) :=
  if lines.length < regexs.length then none
  else (List.range (lines.length - regexs.length)).findSome? fun i => matchFrom env lines i regexs

/-- The expressions (nvcc.py:213-217). -/
def hostRegexs : List String :=
  ["^ERROR: No supported gcc/g\\+\\+ host compiler found, but .* is available.$", "^ *Use 'nvcc (.*)' to use that instead.$"]

/-- `nvcc_path + […]` (nvcc.py:203, 285): a `TypeError` if there is no path. -/
def addPath (nvcc : Option (List String)) (l : List String) : M (List String) :=
  match nvcc with
  | none => throw .type
  | some p => pure (p ++ l)

/-- `_get_compiler_base_options` (nvcc.py:192-228). -/
def getCompilerBaseOptions' : M (List String) := do
  let nvcc ← getNvccPath env
  tempdir env fun t => do
    withOpen env .write
    let cmd ← addPath nvcc ["-o", join (env.tmpName t) "test.out", join (env.tmpName t) "test.cu"]
    let r ← ask fun n => env.popen n cmd
    if r.1 ≠ 0 then
      match matchOutputLines env r.2 hostRegexs with
      | some m => pure (((m.getD 1 []).getD 0 "").splitOn " ")
      | none => throw .runtime
    else pure []

/-- `get_compiler_base_options` (nvcc.py:182-189). -/
def getCompilerBaseOptions : M (List String) := do
  match (← getW).baseOpts with
  | some o => pure o
  | none =>
    let o ← getCompilerBaseOptions' env
    modW fun w => { w with baseOpts := some o }
    pure o

/-- `_get_cuda_info` (nvcc.py:231-302). -/
def getCudaInfo' : M Info := do
  let nvcc ← getNvccPath env
  tempdir env fun t => do
    withOpen env .write
    let out := join (env.tmpName t) "test.out"
    let cmd ← addPath nvcc ["-o", out, join (env.tmpName t) "test.cu"]
    let r ← ask fun n => env.popen n cmd
    if r.1 ≠ 0 then throw .runtime
    else
      let s ← except' (ask fun n => env.checkOutput n out) fun _ => some (throw (.other 0))
      match env.literalEval s with
      | .ok i => pure i
      | .error e => throw e

/-- `get_cuda_info` (nvcc.py:305-311). -/
def getCudaInfo : M Info := do
  match (← getW).cudaInfo with
  | some i => pure i
  | none =>
    let i ← getCudaInfo' env
    modW fun w => { w with cudaInfo := some i }
    pure i

/-- `get_cuda_version` (nvcc.py:318-326). -/
def getCudaVersion : M Int := do
  let i ← getCudaInfo env
  if i.version < 8000 then throw .value else pure i.version

/-- The option for one device (nvcc.py:330-331, 471). -/
def gencode (a : Int) : String := "--generate-code=arch=compute_" ++ env.str a ++ ",code=sm_" ++ env.str a

/-- `get_gencode_options` (nvcc.py:329-332). -/
def getGencodeOptions : M (List String) := do
  let i ← getCudaInfo env
  pure (i.devices.map fun d => gencode env (d.1 * 10 + d.2))

/-! ### compiling -/

/-- `UnixCCompiler._compile` of distutils, without the changes made on one platform: it runs the program `compiler_so`; adding lists
to `None` is a `TypeError` (for util/nvcc.py:40-500, what it uses of the operating system, of distutils and of Python). -/
def superCompile (obj src : String) (ccArgs postargs : List String) : M Unit := do
  let cmd ← addPath (← getW).compilerSo (ccArgs ++ [src, "-o", obj] ++ postargs)
  modW fun w => { w with log := w.log ++ [cmd] }
  except' (ask fun n => match env.spawn n cmd with
      | none => .ok ()
      | some e => .error e) fun e => if e = .exec then some (throw .compile) else none
  modW fun w => { w with made := w.made ++ [obj] }

/-- `_UnixCCompiler._compile` (nvcc.py:339-361). -/
def unixCompile (obj src ext : String) (ccArgs extra : List String) : M Unit := do
  if ext ≠ ".cu" then superCompile env obj src ccArgs extra
  else
    let saved := (← getW).compilerSo
    finally' (do
        let nvcc ← getNvccPath env
        let base ← getCompilerBaseOptions env
        modW fun w => { w with compilerSo := nvcc }
        let _ ← getCudaVersion env
        let gen ← getGencodeOptions env
        superCompile env obj src (base ++ ccArgs) (gen ++ ["-O2", "--compiler-options=\"-fPIC\""] ++ extra))
      (modW fun w => { w with compilerSo := saved })

/-- The extensions of source files that the compiler object accepts (nvcc.py:336-337). -/
def srcExtensions : List String := [".c", ".C", ".cc", ".cxx", ".cpp", ".m", ".cu"]

/-- distutils' name of the object file of a source file: a leading slash is removed
(for util/nvcc.py:40-500, what it uses of the operating system, of distutils and of Python). -/
def objectName (base : String) : String := (if base.startsWith "/" then (base.drop 1).toString else base) ++ ".o"

/-- `CCompiler.compile` of distutils for one source file `base ++ ext`, with `output_dir` not given
(for util/nvcc.py:40-500, what it uses of the operating system, of distutils and of Python). -/
def ccCompile (dir stem ext : String) (inc macros extra : List String) : M (List String) := do
  if ext ∉ srcExtensions then throw .unknownFile
  else
    let obj := objectName (join dir stem)
    sys env .mkpath
    modW fun w => { w with made := w.made ++ [objectName dir] }
    unixCompile env obj (join dir stem ++ ext) ext (macros.map ("-D" ++ ·) ++ inc.map ("-I" ++ ·) ++ ["-c"]) extra
    pure [obj]

/-- The least of a list of numbers (Python's `min`: a `ValueError` if it is empty)
(for util/nvcc.py:40-500, what it uses of the operating system, of distutils and of Python). -/
def pyMin : List Int → Except Exc Int
  | [] => .error .value
  | a :: l => .ok (l.foldl min a)

/-- How the options are given: not at all, or as a list of the caller
(for util/nvcc.py:40-500, what it uses of the operating system, of distutils and of Python). -/
inductive Opts where
  | none | caller
deriving DecidableEq, Repr

/-- `options = options or []` and `options += ['-cubin']` (nvcc.py:462, 473): a list of the caller that is not empty is changed. -/
def cubin (o : Opts) : M (List String) := do
  let w ← getW
  if o = .caller ∧ w.caller ≠ [] then
    modW fun w => { w with caller := w.caller ++ ["-cubin"] }
    pure (w.caller ++ ["-cubin"])
  else pure ["-cubin"]

/-- The architecture (nvcc.py:464-467, 471). -/
def chooseArch (arch : Option Int) : M String := do
  match arch with
  | some a => pure (gencode env a)
  | none =>
    let i ← getCudaInfo env
    match pyMin (i.devices.map fun d => d.1 * 10 + d.2) with
    | .ok a => pure (gencode env a)
    | .error e => throw e

/-- `compile_using_nvcc` (nvcc.py:460-512) for the file `stem ++ ext`, on platforms with `_UnixCCompiler`. The result is the object
file that the module is loaded from. `raise (ex, None, tb)` is a `TypeError`: a tuple is not an exception. -/
def compileUsingNvcc (stem ext : String) (opts : Opts) (arch : Option Int) : M String := do
  let _arch ← chooseArch env arch
  let (inc, macros) ← getCompilerSetting env
  let options ← cubin opts
  sys env .resource
  tempdir env fun t => do
    withOpen env .write
    let objects ← except' (stdchannelRedirected env 2
        (ccCompile env (env.tmpName t) stem ext (inc ++ [env.cupyPath]) macros options)) fun e =>
      if e = .compile then some (do withOpen env .read; throw .type) else none
    if objects.length ≠ 1 then throw .assertion
    else
      ask fun n => match env.load n (objects.getD 0 "") with
        | none => .ok ()
        | some e => .error e
      pure (objects.getD 0 "")

end

end Verif.Nvcc
