/- C127: concrete runs. -/
import Verif.Util.NvccProps3

set_option autoImplicit false

namespace Verif.Nvcc

/-- A machine with nvcc and two devices; `eval` is what `literal_eval` says, `spawn` what the compiler says. -/
def machine (eval : Except Exc Info) (spawn : Option Exc) : Env where
  platform := .linux
  var := fun _ => none
  path := ["/bin"]
  there := fun p => p == "/usr/local/cuda" || p == "/usr/local/cuda/bin/nvcc"
  abspath := id
  above := id
  fails := fun _ _ => none
  limit := 8
  tmpName := fun _ => "/tmp/d"
  popen := fun _ _ => .ok (0, [])
  checkOutput := fun _ _ => .ok "{}"
  literalEval := fun _ => eval
  rematch := fun _ _ => none
  spawn := fun _ _ => spawn
  load := fun _ _ => none
  cupyPath := "/cupy"
  str := fun a => if a = 70 then "70" else "61"

/-- Standard input, output and error are open, and nothing is known. -/
def fresh : World where
  clock := 0
  fds := fun n => if n < 3 then some n else none
  nextFile := 3
  tmp := []
  made := []
  caller := ["-g"]
  cudaPath := none
  baseOpts := none
  cudaInfo := none
  compilerSo := some ["cc"]
  log := []

/-- If `literal_eval` understood the output, a module would be returned: the hypothesis of `C127_command` can be met. -/
example : (compileUsingNvcc (machine (.ok ⟨10000, [(7, 0), (6, 1)]⟩) none) "kern" ".cu" .caller none fresh).1 =
    .ok "tmp/d/kern.o" := by decide +kernel

example : (compileUsingNvcc (machine (.ok ⟨10000, [(7, 0), (6, 1)]⟩) none) "kern" ".cu" .caller none fresh).2.log =
    [["/usr/local/cuda/bin/nvcc", "-I/usr/local/cuda/include", "-I/cupy", "-c", "/tmp/d/kern.cu", "-o", "tmp/d/kern.o",
      "--generate-code=arch=compute_70,code=sm_70", "--generate-code=arch=compute_61,code=sm_61", "-O2",
      "--compiler-options=\"-fPIC\"", "-g", "-cubin"]] := by decide +kernel

/-- Python 3. -/
example : (machine (.error .value) none).Python3 := fun _ => rfl

example : (compileUsingNvcc (machine (.error .value) none) "kern" ".cu" .caller none fresh).1 = .error .value := by decide +kernel

/-- A compilation error is reported as a `TypeError`, and the machine is plain. -/
example : (machine (.ok ⟨10000, [(7, 0)]⟩) (some .exec)).Plain := ⟨by simp [machine], by simp [machine], by simp [machine], by simp [machine]⟩

example : (compileUsingNvcc (machine (.ok ⟨10000, [(7, 0)]⟩) (some .exec)) "kern" ".cu" .caller none fresh).1 = .error .type := by
  decide +kernel

/-- The fifth use of the redirection fails when there are eight descriptors: five of them are free at first, and the file needs
one. -/
example : (List.range 6).map (fun k => (stdchannelRedirected (machine (.error .value) none) 2 (pure ())
      (uses (machine (.error .value) none) 2 (pure ()) fresh k)).1.toBool) = [true, true, true, true, false, false] := by
  decide +kernel

end Verif.Nvcc
