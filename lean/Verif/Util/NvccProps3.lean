/- C127: compiling with nvcc; the exception of a failed compilation, and the command of a successful one. -/
import Verif.Util.NvccProps2

set_option autoImplicit false

namespace Verif.Nvcc

/-! ### the exception of a failed compilation -/

/-- Only the compiler object raises `CompileError`. -/
structure Env.Plain (env : Env) : Prop where
  fails : ∀ n c, env.fails n c ≠ some .compile
  popen : ∀ n c, env.popen n c ≠ .error .compile
  eval : ∀ s, env.literalEval s ≠ .error .compile
  load : ∀ n s, env.load n s ≠ some .compile

/-- The computation does not raise `CompileError`. -/
def Clean {α : Type} (x : M α) : Prop := ∀ w, (x w).1 ≠ .error .compile

theorem clean_pure {α : Type} (a : α) : Clean (pure a : M α) := fun _ h => by cases h

theorem clean_throw {α : Type} {e : Exc} (he : e ≠ .compile) : Clean (throw e : M α) := fun _ h => he (Except.error.inj h)

theorem clean_get : Clean getW := fun _ h => by cases h

theorem clean_mod (f : World → World) : Clean (modW f) := fun _ h => by cases h

theorem clean_bind {α β : Type} {x : M α} {f : α → M β} (hx : Clean x) (hf : ∀ a, Clean (f a)) : Clean (x >>= f) := by
  intro w
  rcases bind_snd x f w with ⟨a, _, h⟩ | ⟨e, he, h⟩
  · rw [h]
    exact hf a _
  · rw [h]
    intro h'
    have h' : e = .compile := Except.error.inj h'
    exact hx w (by rw [he, h'])

theorem clean_finally {α : Type} {x : M α} {f : M Unit} (hx : Clean x) (hf : Clean f) : Clean (finally' x f) := by
  intro w
  have := hf (x w).2
  unfold finally'
  rcases hfx : f (x w).2 with ⟨r, w'⟩
  rw [hfx] at this
  cases r with
  | ok _ => exact hx w
  | error e =>
    intro h
    have h : e = .compile := Except.error.inj h
    exact this (by rw [h])

theorem clean_sys {env : Env} (hp : env.Plain) (c : Sys) : Clean (sys env c) := by
  intro w
  rcases sys_cases env c w with ⟨_, h⟩ | ⟨e, he, h⟩ <;> rw [h]
  · exact fun h => by cases h
  · exact fun h => hp.fails w.clock c (by rw [he, Except.error.inj h])

theorem clean_withOpen {env : Env} (hp : env.Plain) (c : Sys) : Clean (withOpen env c) := by
  unfold withOpen
  refine clean_bind ?_ fun fd => clean_finally (clean_sys hp c) (clean_mod _)
  intro w
  rcases osOpen_cases env w with ⟨n, _, _, h⟩ | ⟨e, k, he, h⟩ <;> rw [h]
  · exact fun h => by cases h
  · intro h
    rw [Except.error.inj h] at he
    rcases he with he | he
    · cases he
    · exact hp.fails _ _ he

theorem clean_tempdir {env : Env} (hp : env.Plain) {α : Type} {body : Nat → M α} (hb : ∀ t, Clean (body t)) :
    Clean (tempdir env body) :=
  clean_bind (clean_sys hp _) fun _ => clean_bind clean_get fun _ => clean_bind (clean_mod _) fun _ =>
    clean_finally (hb _) (clean_mod _)

theorem clean_cudaPath (env : Env) : Clean (getCudaPath env) := by
  unfold getCudaPath
  refine clean_bind clean_get fun w => ?_
  cases w.cudaPath with
  | some p => exact clean_pure _
  | none => exact clean_bind (clean_mod _) fun _ => clean_pure _

theorem clean_info {env : Env} (hp : env.Plain) : Clean (getCudaInfo env) := by
  unfold getCudaInfo
  refine clean_bind clean_get fun w => ?_
  cases w.cudaInfo with
  | some p => exact clean_pure _
  | none =>
    refine clean_bind ?_ fun _ => clean_bind (clean_mod _) fun _ => clean_pure _
    unfold getCudaInfo'
    refine clean_bind ?_ fun p => clean_tempdir hp fun t => ?_
    · unfold getNvccPath
      split
      · exact clean_throw (by simp)
      · refine clean_bind (clean_cudaPath env) fun c => ?_
        cases c with
        | none => exact clean_pure _
        | some c =>
          dsimp only
          generalize join c _ = p
          split
          · exact clean_pure _
          · exact clean_pure _
    · refine clean_bind (clean_withOpen hp _) fun _ => ?_
      dsimp only
      refine clean_bind ?_ fun cmd => clean_bind ?_ fun r => ?_
      · cases p with
        | none => exact clean_throw (by simp)
        | some p => exact clean_pure _
      · exact fun w h => hp.popen _ _ h
      · split
        · exact clean_throw (by simp)
        · refine clean_bind ?_ fun s => ?_
          · intro w
            unfold except' ask
            dsimp only
            cases env.checkOutput w.clock (join (env.tmpName t) "test.out") with
            | ok a => exact fun h => by cases h
            | error e => exact fun h => by cases h
          · cases he : env.literalEval s with
            | ok i => exact clean_pure _
            | error e => exact clean_throw fun h => hp.eval s (by rw [he, h])

/-- **C127 fails**: a compilation error is never reported as a `CompileError`. -/
theorem C127_error_violated {env : Env} (hp : env.Plain) (stem ext : String) (opts : Opts) (arch : Option Int) (w : World) :
    (compileUsingNvcc env stem ext opts arch w).1 ≠ .error .compile := by
  rw [compile_eq]
  refine clean_bind ?_ (fun _ => clean_bind ?_ fun s => clean_bind ?_ fun o => ?_) w
  · cases arch with
    | some a => exact clean_pure _
    | none =>
      refine clean_bind (clean_info hp) fun i => ?_
      cases i.devices.map fun d => d.1 * 10 + d.2 with
      | nil => exact clean_throw (by simp)
      | cons a l => exact clean_pure _
  · unfold getCompilerSetting
    refine clean_bind (clean_cudaPath env) fun c => ?_
    dsimp only
    split
    · split
      · exact clean_pure _
      · exact clean_pure _
    · exact clean_pure _
  · unfold cubin
    refine clean_bind clean_get fun w => ?_
    split
    · exact clean_bind (clean_mod _) fun _ => clean_pure _
    · exact clean_pure _
  · unfold compileTail
    refine clean_bind (clean_sys hp _) fun _ => clean_tempdir hp fun t => ?_
    refine clean_bind (clean_withOpen hp _) fun _ => clean_bind ?_ fun objects => ?_
    · intro w
      unfold except'
      rcases stdchannelRedirected env 2 (ccCompile env (env.tmpName t) stem ext (s.1 ++ [env.cupyPath]) s.2 o) w with ⟨r, w'⟩
      cases r with
      | ok a => exact fun h => by cases h
      | error e =>
        dsimp only
        by_cases he : e = .compile
        · rw [if_pos he]
          exact clean_bind (clean_withOpen hp _) (fun _ => clean_throw (by simp)) w'
        · rw [if_neg he]
          exact fun h => he (Except.error.inj h)
    · split
      · exact clean_throw (by simp)
      · refine clean_bind ?_ fun _ => clean_pure _
        intro w
        unfold ask
        dsimp only
        cases hl : env.load w.clock (objects.getD 0 "") with
        | none => exact fun h => by cases h
        | some e => exact fun h => hp.load w.clock _ (by rw [hl, Except.error.inj h])

/-! ### the command of a successful compilation -/

theorem run_eq {α : Type} {x : M α} {w w' : World} {r : Except Exc α} (h : x w = (r, w')) : (x w).2 = w' := by rw [h]

theorem Pres.run {R : World → World → Prop} {α : Type} {x : M α} (hx : Pres R x) {w w' : World} {r : Except Exc α}
    (h : x w = (r, w')) : R w w' := by
  have := (hx w).1
  rwa [run_eq h] at this

theorem info_ok {env : Env} {w w' : World} {i : Info} (h : getCudaInfo env w = (.ok i, w')) : w'.cudaInfo = some i := by
  cases hw : w.cudaInfo with
  | some j =>
    unfold getCudaInfo at h
    rw [bind_run] at h
    dsimp only [getW] at h
    rw [hw] at h
    cases h
    exact hw
  | none =>
    rw [info_unknown env hw] at h
    obtain ⟨a, w1, _, h⟩ := bind_ok h
    cases h
    rfl

theorem info_known (env : Env) {w : World} {i : Info} (hw : w.cudaInfo = some i) : getCudaInfo env w = (.ok i, w) := by
  unfold getCudaInfo
  rw [bind_run]
  dsimp only [getW]
  rw [hw]
  rfl

theorem finally_ok {α : Type} {x : M α} {f : M Unit} {w w' : World} {a : α} (h : finally' x f w = (.ok a, w')) :
    ∃ w1, x w = (.ok a, w1) ∧ w' = (f w1).2 := by
  unfold finally' at h
  rcases hx : x w with ⟨r, w1⟩
  rw [hx] at h
  dsimp only at h
  refine ⟨w1, ?_⟩
  rcases hf : f w1 with ⟨s, w2⟩
  rw [hf] at h
  cases s with
  | ok _ => cases h; exact ⟨rfl, rfl⟩
  | error e => cases h

theorem super_ok {env : Env} {obj src : String} {a b : List String} {w w' : World}
    (h : superCompile env obj src a b w = (.ok (), w')) :
    ∃ p, w.compilerSo = some p ∧ w'.log = w.log ++ [p ++ (a ++ [src, "-o", obj] ++ b)] ∧ w'.made = w.made ++ [obj] ∧
      w'.cudaInfo = w.cudaInfo := by
  unfold superCompile at h
  obtain ⟨w0, _, h0, h⟩ := bind_ok h
  cases h0
  obtain ⟨cmd, w1, h1, h⟩ := bind_ok h
  cases hp : w.compilerSo with
  | none =>
    rw [hp] at h1
    cases h1
  | some p =>
    rw [hp] at h1
    cases h1
    obtain ⟨_, w2, h2, h⟩ := bind_ok h
    cases h2
    obtain ⟨_, w3, h3, h⟩ := bind_ok h
    cases h
    refine ⟨p, rfl, ?_⟩
    unfold except' ask at h3
    dsimp only at h3
    cases hs : env.spawn w.clock (p ++ (a ++ [src, "-o", obj] ++ b)) with
    | none =>
      rw [hs] at h3
      cases h3
      exact ⟨rfl, rfl, rfl⟩
    | some e =>
      rw [hs] at h3
      dsimp only at h3
      by_cases he : e = .exec
      · rw [if_pos he] at h3
        cases h3
      · rw [if_neg he] at h3
        cases h3

theorem nvccPath_ok {env : Env} {w w' : World} {p : List String} (h : getNvccPath env w = (.ok (some p), w')) :
    ∃ f, p = [f] ∧ env.there f = true := by
  unfold getNvccPath at h
  by_cases h1 : (env.var "NVCC").getD "" ≠ ""
  · rw [if_pos h1] at h
    cases h
  · rw [if_neg h1] at h
    obtain ⟨c, w1, _, h⟩ := bind_ok h
    cases c with
    | none => cases h
    | some c =>
      dsimp only at h
      revert h
      generalize join c _ = q
      intro h
      by_cases hq : env.there q = true
      · rw [if_pos hq] at h
        cases h
        exact ⟨q, rfl, hq⟩
      · rw [if_neg hq] at h
        cases h

/-- The parts of a command. -/
theorem unix_ok {env : Env} {obj src : String} {a b : List String} {w w' : World}
    (h : unixCompile env obj src ".cu" a b w = (.ok (), w')) :
    ∃ nvcc base i, env.there nvcc = true ∧ w'.cudaInfo = some i ∧ 8000 ≤ i.version ∧ w'.made = w.made ++ [obj] ∧
      w'.log = w.log ++ [nvcc :: (base ++ a ++ [src, "-o", obj] ++ (i.devices.map fun d => gencode env (d.1 * 10 + d.2)) ++
        ["-O2", "--compiler-options=\"-fPIC\""] ++ b)] := by
  unfold unixCompile at h
  rw [if_neg (by simp)] at h
  obtain ⟨w0, _, h0, h⟩ := bind_ok h
  cases h0
  change finally' _ _ w = _ at h
  obtain ⟨w9, h', rfl⟩ := finally_ok h
  clear h
  obtain ⟨nvcc, w1, h1, h⟩ := bind_ok h'
  obtain ⟨base, w2, h2, h⟩ := bind_ok h
  obtain ⟨_, w3, h3, h⟩ := bind_ok h
  cases h3
  obtain ⟨v, w4, h4, h⟩ := bind_ok h
  obtain ⟨gen, w5, h5, hfin⟩ := bind_ok h
  have s1 := Pres.run (pres_nvccPath indP_same env) h1
  have s2 := Pres.run (pres_baseOptions indC_same env) h2
  have s4 := Pres.run (same_version env) h4
  have s5 := Pres.run (same_gencode env) h5
  obtain ⟨i, w6, h6, h7⟩ := bind_ok h4
  have hi := info_ok h6
  have hv : 8000 ≤ i.version ∧ w6 = w4 := by
    by_cases hlt : i.version < 8000
    · rw [if_pos hlt] at h7
      cases h7
    · rw [if_neg hlt] at h7
      cases h7
      exact ⟨not_lt.1 hlt, rfl⟩
  obtain ⟨hv, rfl⟩ := hv
  unfold getGencodeOptions at h5
  obtain ⟨j, w8, h8, h5⟩ := bind_ok h5
  rw [info_known env hi] at h8
  cases h8
  cases h5
  obtain ⟨p, hp, hlog, hmade, hinf⟩ := super_ok hfin
  rw [s4.2.1] at hp
  dsimp only at hp
  subst hp
  obtain ⟨f, rfl, hf⟩ := nvccPath_ok h1
  refine ⟨f, base, i, hf, ?_, hv, ?_, ?_⟩
  · show w9.cudaInfo = _
    rw [hinf]
    exact hi
  · show w9.made = _
    rw [hmade, s4.2.2.2.1]
    show w2.made ++ [obj] = _
    rw [s2.2.2.2.1, s1.2.2.2.1]
  · show w9.log = _
    rw [hlog, s4.2.2.2.2]
    show w2.log ++ _ = _
    rw [s2.2.2.2.2, s1.2.2.2.2]
    simp only [List.append_assoc, List.cons_append, List.nil_append]

theorem redirected_ok {env : Env} {α : Type} {fileno : Nat} {body : M α} (hk : Pres Keep body) {w w' : World} {a : α}
    (h : stdchannelRedirected env fileno body w = (.ok a, w')) :
    ∃ w1 w2, w1.log = w.log ∧ w1.made = w.made ∧ body w1 = (.ok a, w2) ∧ w'.log = w2.log ∧ w'.made = w2.made ∧
      w'.cudaInfo = w2.cudaInfo := by
  rcases redirected_cases env fileno body w with ⟨e, _, h', _⟩ | ⟨p, m, f, _, h1, h2, hmp, h3, h'⟩
  · rw [h] at h'
    cases h'
  · rw [h] at h'
    obtain ⟨w1, h4, rfl⟩ := finally_ok h'.symm
    have hf : w1.fds p = some f := by
      have := (hk (inside w p m f fileno)).1.1
      rw [run_eq h4] at this
      have hfp : p ≠ fileno := by rintro rfl; rw [h1] at h3; cases h3
      rw [this]
      dsimp only [inside]
      rw [upd_ne _ _ hfp, upd_ne _ _ hmp.symm, upd_self]
    refine ⟨inside w p m f fileno, w1, rfl, rfl, h4, ?_⟩
    rw [bind_run, osDup2_open fileno hf]
    exact ⟨rfl, rfl, rfl⟩

theorem tempdir_ok {env : Env} {α : Type} {body : Nat → M α} {w w' : World} {a : α} (h : tempdir env body w = (.ok a, w')) :
    ∃ t w1 w2, w1.log = w.log ∧ w1.made = w.made ∧ body t w1 = (.ok a, w2) ∧ w'.log = w2.log ∧ w'.made = w2.made ∧
      w'.cudaInfo = w2.cudaInfo := by
  unfold tempdir at h
  obtain ⟨_, w1, h1, h⟩ := bind_ok h
  obtain ⟨_, _, h2, h⟩ := bind_ok h
  cases h2
  obtain ⟨_, _, h3, h⟩ := bind_ok h
  cases h3
  obtain ⟨w4, h4, rfl⟩ := finally_ok h
  have s1 := Pres.run (Pres.sys ind_same env .mkdtemp) h1
  exact ⟨w1.clock, { w1 with tmp := w1.clock :: w1.tmp }, w4, s1.2.2.2.2, s1.2.2.2.1, h4, rfl, rfl, rfl⟩

/-- **C127.** If a module is returned, one command was run: an existing nvcc, with an option for every device that was found, of a
version of at least 8000, and at the end all options of the caller, in order, and `-cubin`. The module is loaded from the object file
that the command writes. But that file, and a directory for it, are not in the temporary directory and stay (*this violates C127*). -/
theorem C127_command {env : Env} {stem : String} {opts : Opts} {arch : Option Int} {w w' : World} {obj : String}
    (h : compileUsingNvcc env stem ".cu" opts arch w = (.ok obj, w')) :
    ∃ nvcc args i t, env.there nvcc = true ∧ w'.cudaInfo = some i ∧ 8000 ≤ i.version ∧
      obj = objectName (join (env.tmpName t) stem) ∧
      w'.log = w.log ++ [nvcc :: (args ++ ["-I" ++ env.cupyPath, "-c", join (env.tmpName t) stem ++ ".cu", "-o", obj] ++
        (i.devices.map fun d => gencode env (d.1 * 10 + d.2)) ++ ["-O2", "--compiler-options=\"-fPIC\""] ++
        (if opts = .caller then w.caller else []) ++ ["-cubin"])] ∧
      w'.made = w.made ++ [objectName (env.tmpName t), obj] := by
  rw [compile_eq] at h
  obtain ⟨_, w1, h1, h⟩ := bind_ok h
  obtain ⟨s, w2, h2, h⟩ := bind_ok h
  obtain ⟨o, w3, h3, h⟩ := bind_ok h
  have s1 := Pres.run (same_chooseArch env arch) h1
  have s2 := Pres.run (pres_setting indP_same env) h2
  have hc : w2.caller = w.caller := by rw [s2.2.2.1, s1.2.2.1]
  have hl : w2.log = w.log := by rw [s2.2.2.2.2, s1.2.2.2.2]
  have hm : w2.made = w.made := by rw [s2.2.2.2.1, s1.2.2.2.1]
  have h3' : o = (if opts = .caller then w.caller else []) ++ ["-cubin"] ∧ w3.log = w.log ∧ w3.made = w.made := by
    unfold cubin at h3
    obtain ⟨_, _, h0, h3⟩ := bind_ok h3
    cases h0
    by_cases hb : opts = .caller ∧ w2.caller ≠ []
    · rw [if_pos hb] at h3
      obtain ⟨_, _, h4, h3⟩ := bind_ok h3
      cases h4
      cases h3
      rw [if_pos hb.1, hc]
      exact ⟨rfl, hl, hm⟩
    · rw [if_neg hb] at h3
      cases h3
      refine ⟨?_, hl, hm⟩
      by_cases ho : opts = .caller
      · rw [if_pos ho]
        have : w.caller = [] := by
          by_contra hne
          exact hb ⟨ho, by rwa [hc]⟩
        rw [this]
        rfl
      · rw [if_neg ho]
        rfl
  obtain ⟨rfl, hl3, hm3⟩ := h3'
  unfold compileTail at h
  obtain ⟨_, w4, h4, h⟩ := bind_ok h
  have s4 := Pres.run (Pres.sys ind_same env .resource) h4
  obtain ⟨t, w5, w6, l5, m5, h, l6, m6, c6⟩ := tempdir_ok h
  obtain ⟨_, w7, h7, h⟩ := bind_ok h
  have s7 := Pres.run (Pres.withOpen ind_same env .write) h7
  obtain ⟨objects, w8, h8, h⟩ := bind_ok h
  have h8' : stdchannelRedirected env 2 (ccCompile env (env.tmpName t) stem ".cu" (s.1 ++ [env.cupyPath]) s.2
      ((if opts = .caller then w.caller else []) ++ ["-cubin"])) w7 = (.ok objects, w8) := by
    unfold except' at h8
    rcases hx : stdchannelRedirected env 2 (ccCompile env (env.tmpName t) stem ".cu" (s.1 ++ [env.cupyPath]) s.2
      ((if opts = .caller then w.caller else []) ++ ["-cubin"])) w7 with ⟨r, w9⟩
    rw [hx] at h8
    cases r with
    | ok a => exact h8
    | error e =>
      dsimp only at h8
      by_cases he : e = .compile
      · rw [if_pos he] at h8
        obtain ⟨_, _, _, h8⟩ := bind_ok h8
        cases h8
      · rw [if_neg he] at h8
        cases h8
  obtain ⟨w9, w10, l9, m9, h9, l10, m10, c10⟩ := redirected_ok (keep_cc env _ _ _ _ _ _) h8'
  unfold ccCompile at h9
  rw [if_neg (by simp [srcExtensions])] at h9
  change (sys env .mkpath >>= _) w9 = _ at h9
  obtain ⟨_, w11, h11, h9⟩ := bind_ok h9
  have s11 := Pres.run (Pres.sys ind_same env .mkpath) h11
  obtain ⟨_, _, h12, h9⟩ := bind_ok h9
  cases h12
  obtain ⟨_, w13, h13, h9⟩ := bind_ok h9
  cases h9
  obtain ⟨nvcc, base, i, hn, hi, hv, hmade, hlog⟩ := unix_ok h13
  rw [if_neg (by simp)] at h
  obtain ⟨_, w14, h14, h⟩ := bind_ok h
  have s14 := (Pres.ask ind_same (fun n => match env.load n ([objectName (join (env.tmpName t) stem)].getD 0 "") with
        | none => (.ok () : Except Exc Unit)
        | some e => .error e) w8).1
  have h14' : w14 = { w8 with clock := w8.clock + 1 } := (congrArg Prod.snd h14).symm
  cases h
  refine ⟨nvcc, base ++ s.2.map ("-D" ++ ·) ++ s.1.map ("-I" ++ ·), i, t, hn, ?_, hv, rfl, ?_, ?_⟩
  · rw [c6, h14']
    show w8.cudaInfo = _
    rw [c10, hi]
  · rw [l6, h14']
    show w8.log = _
    rw [l10, hlog]
    show w11.log ++ _ = _
    rw [s11.2.2.2.2, l9, s7.2.2.2.2, l5, s4.2.2.2.2, hl3]
    simp only [List.map_append, List.map_cons, List.map_nil, List.append_assoc, List.cons_append, List.nil_append,
      List.getD_cons_zero]
  · rw [m6, h14']
    show w8.made = _
    rw [m10, hmade]
    show (w11.made ++ _) ++ _ = _
    rw [s11.2.2.2.1, m9, s7.2.2.2.1, m5, s4.2.2.2.1, hm3, List.append_assoc]
    rfl

/-- **C127** (violation) For a temporary directory `/tmp/tmpabc` the object file is `tmp/tmpabc/kernel.o`, relative to the current
directory. By `C127_command` it is written there and not removed. -/
theorem C127_object_violated : objectName (join "/tmp/tmpabc" "kernel") = "tmp/tmpabc/kernel.o" := by decide +kernel

end Verif.Nvcc
