/-
Model of `_MSVCCompiler` of africanus/util/nvcc.py: compiling several files on Windows.
-/
import Verif.Util.Nvcc

set_option autoImplicit false

namespace Verif.Nvcc

/-- A source file, as `os.path.splitext` takes it apart (util/nvcc.py:370-417). -/
structure Source where
  stem : String
  ext : String
deriving DecidableEq, Repr

/-- The name of a source file (util/nvcc.py:370-417). -/
def Source.name (s : Source) : String := s.stem ++ s.ext

/-- What distutils does for `_MSVCCompiler` (util/nvcc.py:370-417). -/
structure Distutils where
  /-- `MSVCCompiler.compile` of distutils: the object files -/
  compile : List Source → M (List String)
  /-- the object files of `_setup_compile`, with the source file found in `_build` (none if there is no entry) -/
  setup : List Source → List (String × Option String)
  /-- `_get_cc_args` -/
  ccArgs : List String

section
variable (env : Env) (d : Distutils)

/-- One object file in `_MSVCCompiler._compile_cu` (nvcc.py:387-395). -/
def cuStep (nvcc : Option (List String)) (postargs : List String) : String × Option String → M Unit
  | (_, none) => pure ()
  | (obj, some src) => do
    let cmd ← addPath nvcc (d.ccArgs ++ [src, "-o", obj] ++ postargs)
    modW fun w => { w with log := w.log ++ [cmd] }
    except' (ask fun n => match env.spawn n cmd with
        | none => .ok ()
        | some e => .error e) fun e => if e = .exec then some (throw .compile) else none
    modW fun w => { w with made := w.made ++ [obj] }

/-- The loop of `_MSVCCompiler._compile_cu` (nvcc.py:387-395). -/
def cuLoop (nvcc : Option (List String)) (postargs : List String) : List (String × Option String) → M Unit
  | [] => pure ()
  | o :: l => do
    cuStep env d nvcc postargs o
    cuLoop nvcc postargs l

/-- `_MSVCCompiler._compile_cu` (nvcc.py:370-397). -/
def compileCu (extra : List String) (sources : List Source) : M (List String) := do
  let objects := d.setup sources
  let nvcc ← getNvccPath env
  let _ ← getCudaVersion env
  let gen ← getGencodeOptions env
  cuLoop env d nvcc (gen ++ ["-O2"] ++ ["-Xcompiler", "/MD"] ++ extra) objects
  pure (objects.map (·.1))

/-- `_MSVCCompiler.compile` (nvcc.py:399-417). -/
def winCompile (extra : List String) (sources : List Source) : M (List String) := do
  let cuSources := sources.filter fun s => s.ext = ".cu"
  let otherSources := sources.filter fun s => s.ext ≠ ".cu"
  let otherObjects ← d.compile otherSources
  let cuObjects ← compileCu env d extra cuSources
  pure (otherObjects ++ cuObjects)

end

end Verif.Nvcc
