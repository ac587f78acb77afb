/- C127: compiling with nvcc; exceptions and the command. -/
import Verif.Util.NvccProps

set_option autoImplicit false

namespace Verif.Nvcc

/-! ### computations that raise -/

/-- Nothing is known of the devices. -/
def Unknown (w w' : World) : Prop := w.cudaInfo = none → w'.cudaInfo = none

theorem ind_unknown : Ind Unknown where
  trans := fun h g a => g (h a)
  ext := fun _ _ _ _ h => h

theorem indP_unknown : IndP Unknown := ⟨ind_unknown, fun _ _ h => h⟩

theorem indC_unknown : IndC Unknown := ⟨indP_unknown, fun _ _ h => h⟩

/-- The computation raises if nothing is known of the devices. -/
def Raises {α : Type} (x : M α) : Prop := ∀ w, w.cudaInfo = none → ∃ e, (x w).1 = .error e

theorem raises_throw {α : Type} (e : Exc) : Raises (throw e : M α) := fun _ _ => ⟨e, rfl⟩

theorem raises_left {α β : Type} {x : M α} (f : α → M β) (hx : Raises x) : Raises (x >>= f) := by
  intro w hw
  obtain ⟨e, he⟩ := hx w hw
  rcases bind_snd x f w with ⟨a, ha, _⟩ | ⟨e', _, h⟩
  · rw [he] at ha
    cases ha
  · exact ⟨e', by rw [h]⟩

theorem raises_right {α β : Type} {x : M α} {f : α → M β} (hx : Pres Unknown x) (hf : ∀ a, Raises (f a)) : Raises (x >>= f) := by
  intro w hw
  rcases bind_snd x f w with ⟨a, _, h⟩ | ⟨e', _, h⟩
  · obtain ⟨e, he⟩ := hf a (x w).2 ((hx w).1 hw)
    exact ⟨e, by rw [h, he]⟩
  · exact ⟨e', by rw [h]⟩

theorem raises_finally {α : Type} {x : M α} (f : M Unit) (hx : Raises x) : Raises (finally' x f) := by
  intro w hw
  obtain ⟨e, he⟩ := hx w hw
  unfold finally'
  rcases f (x w).2 with ⟨r, w'⟩
  cases r with
  | ok _ => exact ⟨e, he⟩
  | error e' => exact ⟨e', rfl⟩

theorem raises_tempdir (env : Env) {α : Type} {body : Nat → M α} (hb : ∀ t, Raises (body t)) : Raises (tempdir env body) := by
  unfold tempdir
  refine raises_right (Pres.sys ind_unknown env _) fun _ => raises_right (Pres.get ind_unknown) fun w => ?_
  intro w1 hw1
  rw [bind_run]
  exact raises_finally _ (hb _) _ hw1

theorem raises_info' {env : Env} (hp : env.Python3) : Raises (getCudaInfo' env) := by
  unfold getCudaInfo'
  refine raises_right (pres_nvccPath indP_unknown env) fun p => raises_tempdir env fun t => ?_
  refine raises_right (Pres.withOpen ind_unknown env _) fun _ => ?_
  dsimp only
  refine raises_right (pres_addPath indP_unknown _ _) fun cmd => raises_right (Pres.ask ind_unknown _) fun r => ?_
  split
  · exact raises_throw _
  · refine raises_right (Pres.except ind_unknown (Pres.ask ind_unknown _) ?_) fun s => ?_
    · intro e y hy
      cases hy
      exact Pres.throw ind_unknown _
    · rw [hp s]
      exact raises_throw _

theorem info_unknown (env : Env) {w : World} (hw : w.cudaInfo = none) :
    getCudaInfo env w = (getCudaInfo' env >>= fun i => modW (fun w => { w with cudaInfo := some i }) >>= fun _ => pure i) w := by
  unfold getCudaInfo
  rw [bind_run]
  dsimp only [getW]
  rw [hw]

theorem raises_info {env : Env} (hp : env.Python3) : Raises (getCudaInfo env) := by
  intro w hw
  rw [info_unknown env hw]
  exact raises_left _ (raises_info' hp) w hw

theorem unknown_info {env : Env} (hp : env.Python3) : Pres Unknown (getCudaInfo env) := by
  intro w
  refine ⟨fun hw => ?_, (same_cudaInfo env w).2⟩
  rw [info_unknown env hw]
  obtain ⟨e, he⟩ := raises_info' hp w hw
  rcases bind_snd (getCudaInfo' env) (fun i => modW (fun w => { w with cudaInfo := some i }) >>= fun _ => pure i) w with
    ⟨a, ha, _⟩ | ⟨_, _, h⟩
  · rw [he] at ha
    cases ha
  · rw [h]
    exact (pres_cudaInfo' indP_unknown env w).1 hw

theorem unknown_super (env : Env) (obj src : String) (a b : List String) : Pres Unknown (superCompile env obj src a b) := by
  unfold superCompile
  refine Pres.bind ind_unknown (Pres.get ind_unknown) fun w => ?_
  refine Pres.bind ind_unknown (pres_addPath indP_unknown _ _) fun cmd => ?_
  refine Pres.bind ind_unknown (fun w => ⟨fun h => h, rfl⟩) fun _ => Pres.bind ind_unknown
    (Pres.except ind_unknown (Pres.ask ind_unknown _) ?_) fun _ => fun w => ⟨fun h => h, rfl⟩
  intro e y hy
  split at hy
  · cases hy
    exact Pres.throw ind_unknown _
  · cases hy

theorem raises_version {env : Env} (hp : env.Python3) : Raises (getCudaVersion env) := raises_left _ (raises_info hp)

theorem unknown_version {env : Env} (hp : env.Python3) : Pres Unknown (getCudaVersion env) := by
  unfold getCudaVersion
  refine Pres.bind ind_unknown (unknown_info hp) fun i => ?_
  split
  · exact Pres.throw ind_unknown _
  · exact Pres.pure ind_unknown _

theorem raises_unix {env : Env} (hp : env.Python3) (obj src : String) (a b : List String) :
    Raises (unixCompile env obj src ".cu" a b) := by
  unfold unixCompile
  rw [if_neg (by simp)]
  refine raises_right (Pres.get ind_unknown) fun w => raises_finally _ ?_
  refine raises_right (pres_nvccPath indP_unknown env) fun nvcc => raises_right (pres_baseOptions indC_unknown env) fun base => ?_
  exact raises_right (fun w => ⟨fun h => h, rfl⟩) fun _ => raises_left _ (raises_version hp)

theorem unknown_unix {env : Env} (hp : env.Python3) (obj src ext : String) (a b : List String) :
    Pres Unknown (unixCompile env obj src ext a b) := by
  unfold unixCompile
  split
  · exact unknown_super env obj src a b
  · intro w
    rw [bind_run]
    dsimp only [getW]
    rw [finally_snd]
    dsimp only [modW]
    have : Pres Unknown (do
        let nvcc ← getNvccPath env
        let base ← getCompilerBaseOptions env
        modW fun w => { w with compilerSo := nvcc }
        let _ ← getCudaVersion env
        let gen ← getGencodeOptions env
        superCompile env obj src (base ++ a) (gen ++ ["-O2", "--compiler-options=\"-fPIC\""] ++ b)) := by
      refine Pres.bind ind_unknown (pres_nvccPath indP_unknown env) fun nvcc => ?_
      refine Pres.bind ind_unknown (pres_baseOptions indC_unknown env) fun base => ?_
      refine Pres.bind ind_unknown (fun w => ⟨fun h => h, rfl⟩) fun _ => ?_
      refine Pres.bind ind_unknown (unknown_version hp) fun _ => ?_
      refine Pres.bind ind_unknown (Pres.bind ind_unknown (unknown_info hp) fun _ => Pres.pure ind_unknown _) fun gen => ?_
      exact unknown_super env obj src _ _
    exact this w

theorem raises_redirected (env : Env) {α : Type} {body : M α} (fileno : Nat) (hb : Raises body) :
    Raises (stdchannelRedirected env fileno body) := by
  intro w hw
  rcases redirected_cases env fileno body w with ⟨e, _, h, _⟩ | ⟨n, m, f, _, _, _, _, _, h⟩
  · exact ⟨e, h⟩
  · rw [h]
    exact raises_finally _ hb _ hw

theorem unknown_redirected (env : Env) {α : Type} {body : M α} (fileno : Nat) (hk : Pres Keep body) (hb : Pres Unknown body) :
    Pres Unknown (stdchannelRedirected env fileno body) := by
  intro w
  refine ⟨fun hw => ?_, (open_redirected env fileno body hk w).2⟩
  rcases redirected_cases env fileno body w with ⟨e, _, _, h | ⟨k, m, f, h1, h2, h⟩⟩ | ⟨p, m, f, _, h1, h2, hmp, h3, h⟩
  · rw [h]; exact hw
  · rw [h]; exact hw
  · rw [h, finally_snd, bind_run]
    have hfp : p ≠ fileno := by rintro rfl; rw [h1] at h3; cases h3
    rw [osDup2_open fileno (f := f) (by
      rw [(hk _).1.1]; dsimp only [inside]; rw [upd_ne _ _ hfp, upd_ne _ _ hmp.symm, upd_self])]
    exact (hb _).1 hw

/-- **C127 fails**: in all supported versions of Python, compiling a CUDA file never returns a module, whatever the surroundings do,
and the same is true of the next attempt. -/
theorem C127_python3_violated {env : Env} (hp : env.Python3) (stem : String) (opts : Opts) (arch : Option Int) (w : World)
    (hw : w.cudaInfo = none) :
    (∃ e, (compileUsingNvcc env stem ".cu" opts arch w).1 = .error e) ∧
      (compileUsingNvcc env stem ".cu" opts arch w).2.cudaInfo = none := by
  have hcubin : Pres Unknown (cubin opts) := by
    unfold cubin
    refine Pres.bind ind_unknown (Pres.get ind_unknown) fun w => ?_
    split
    · exact Pres.bind ind_unknown (fun w => ⟨fun h => h, rfl⟩) fun _ => Pres.pure ind_unknown _
    · exact Pres.pure ind_unknown _
  have hcc : ∀ dir inc macros o, Raises (ccCompile env dir stem ".cu" inc macros o) := by
    intro dir inc macros o
    unfold ccCompile
    rw [if_neg (by simp [srcExtensions])]
    dsimp only
    exact raises_right (Pres.sys ind_unknown env _) fun _ => raises_right (fun w => ⟨fun h => h, rfl⟩) fun _ =>
      raises_left _ (raises_unix hp _ _ _ _)
  have hcc' : ∀ dir inc macros o, Pres Unknown (ccCompile env dir stem ".cu" inc macros o) := by
    intro dir inc macros o
    unfold ccCompile
    rw [if_neg (by simp [srcExtensions])]
    dsimp only
    exact Pres.bind ind_unknown (Pres.sys ind_unknown env _) fun _ => Pres.bind ind_unknown (fun w => ⟨fun h => h, rfl⟩) fun _ =>
      Pres.bind ind_unknown (unknown_unix hp _ _ _ _ _) fun _ => Pres.pure ind_unknown _
  have harch : Pres Unknown (chooseArch env arch) := by
    cases arch with
    | some a => exact Pres.pure ind_unknown _
    | none =>
      refine Pres.bind ind_unknown (unknown_info hp) fun i => ?_
      cases pyMin (i.devices.map fun d => d.1 * 10 + d.2) with
      | ok a => exact Pres.pure ind_unknown _
      | error e => exact Pres.throw ind_unknown _
  rw [compile_eq]
  constructor
  · refine raises_right harch (fun _ => raises_right (pres_setting indP_unknown env) fun s => raises_right hcubin fun o => ?_) w hw
    unfold compileTail
    refine raises_right (Pres.sys ind_unknown env _) fun _ => raises_tempdir env fun t => ?_
    refine raises_right (Pres.withOpen ind_unknown env _) fun _ => raises_left _ ?_
    intro w hw
    obtain ⟨e, he⟩ := raises_redirected env 2 (hcc (env.tmpName t) (s.1 ++ [env.cupyPath]) s.2 o) w hw
    unfold except'
    rcases hx : stdchannelRedirected env 2 (ccCompile env (env.tmpName t) stem ".cu" (s.1 ++ [env.cupyPath]) s.2 o) w with ⟨r, w'⟩
    rw [hx] at he
    dsimp only at he
    rw [he]
    dsimp only
    by_cases hc : e = .compile
    · rw [if_pos hc]
      dsimp only
      rcases bind_snd (withOpen env .read) (fun _ => (throw .type : M (List String))) w' with ⟨_, _, h⟩ | ⟨e', _, h⟩
      · exact ⟨.type, by rw [h]; rfl⟩
      · exact ⟨e', by rw [h]⟩
    · rw [if_neg hc]
      exact ⟨e, rfl⟩
  · refine ((Pres.bind ind_unknown harch fun _ => Pres.bind ind_unknown (pres_setting indP_unknown env) fun s =>
      Pres.bind ind_unknown hcubin fun o => ?_) w).1 hw
    unfold compileTail
    refine Pres.bind ind_unknown (Pres.sys ind_unknown env _) fun _ => Pres.tempdir ind_unknown env fun t => ?_
    refine Pres.bind ind_unknown (Pres.withOpen ind_unknown env _) fun _ => ?_
    refine Pres.bind ind_unknown (Pres.except ind_unknown (unknown_redirected env 2 (keep_cc env _ _ _ _ _ _) (hcc' _ _ _ _)) ?_)
      fun objects => ?_
    · intro e y hy
      split at hy
      · cases hy
        exact Pres.bind ind_unknown (Pres.withOpen ind_unknown env _) fun _ => Pres.throw ind_unknown _
      · cases hy
    · split
      · exact Pres.throw ind_unknown _
      · exact Pres.bind ind_unknown (Pres.ask ind_unknown _) fun _ => Pres.pure ind_unknown _

end Verif.Nvcc
