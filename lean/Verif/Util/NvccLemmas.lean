/- Lemmas for C127 and C128: relations between the worlds before and after a computation. -/
import Verif.Util.Nvcc

set_option autoImplicit false

namespace Verif.Nvcc

/-! ### running -/

theorem bind_run {α β : Type} (x : M α) (f : α → M β) (w : World) :
    (x >>= f) w = match x w with
      | (.ok a, w') => f a w'
      | (.error e, w') => (.error e, w') := rfl

theorem bind_ok {α β : Type} {x : M α} {f : α → M β} {w w'' : World} {b : β} (h : (x >>= f) w = (.ok b, w'')) :
    ∃ a w', x w = (.ok a, w') ∧ f a w' = (.ok b, w'') := by
  rw [bind_run] at h
  rcases hx : x w with ⟨r, w'⟩
  rw [hx] at h
  cases r with
  | error e => simp at h
  | ok a => exact ⟨a, w', rfl, h⟩

theorem bind_snd {α β : Type} (x : M α) (f : α → M β) (w : World) :
    (∃ a, (x w).1 = .ok a ∧ ((x >>= f) w) = f a (x w).2) ∨ (∃ e, (x w).1 = .error e ∧ (x >>= f) w = (.error e, (x w).2)) := by
  rw [bind_run]
  rcases x w with ⟨r, w'⟩
  cases r with
  | error e => exact .inr ⟨e, rfl, rfl⟩
  | ok a => exact .inl ⟨a, rfl, rfl⟩

/-! ### relations that ignore clock, numbers of files and temporary directories -/

structure Ind (R : World → World → Prop) : Prop where
  trans : ∀ {a b c}, R a b → R b c → R a c
  ext : ∀ w c k l, R w { w with clock := c, nextFile := k, tmp := l }

theorem Ind.refl {R : World → World → Prop} (h : Ind R) (w : World) : R w w := h.ext w w.clock w.nextFile w.tmp

/-- The computation relates the worlds before and after, and leaves the temporary directories alone. -/
def Pres (R : World → World → Prop) {α : Type} (x : M α) : Prop := ∀ w, R w (x w).2 ∧ (x w).2.tmp = w.tmp

section
variable {R : World → World → Prop} (h : Ind R) {α β : Type}
include h

theorem Pres.pure (a : α) : Pres R (Pure.pure a : M α) := fun w => ⟨h.refl w, rfl⟩

theorem Pres.throw (e : Exc) : Pres R (throw e : M α) := fun w => ⟨h.refl w, rfl⟩

theorem Pres.get : Pres R getW := fun w => ⟨h.refl w, rfl⟩

theorem Pres.bind {x : M α} {f : α → M β} (hx : Pres R x) (hf : ∀ a, Pres R (f a)) : Pres R (x >>= f) := by
  intro w
  rcases bind_snd x f w with ⟨a, _, e⟩ | ⟨_, _, e⟩
  · rw [e]
    exact ⟨h.trans (hx w).1 (hf a _).1, (hf a _).2.trans (hx w).2⟩
  · rw [e]
    exact hx w

theorem Pres.sys (env : Env) (c : Sys) : Pres R (sys env c) := by
  intro w
  unfold Nvcc.sys
  dsimp only
  cases env.fails w.clock c with
  | none => exact ⟨h.ext w _ _ _, rfl⟩
  | some e => exact ⟨h.ext w _ _ _, rfl⟩

theorem Pres.ask (f : Nat → Except Exc α) : Pres R (ask f) := fun w => ⟨h.ext w _ _ _, rfl⟩

theorem Pres.except {x : M α} {f : Exc → Option (M α)} (hx : Pres R x) (hf : ∀ e y, f e = some y → Pres R y) :
    Pres R (except' x f) := by
  intro w
  have := hx w
  unfold except'
  rcases hxw : x w with ⟨r, w'⟩
  rw [hxw] at this
  cases r with
  | ok a => exact this
  | error e =>
    dsimp only
    cases hfe : f e with
    | none => exact this
    | some y => exact ⟨h.trans this.1 (hf e y hfe w').1, (hf e y hfe w').2.trans this.2⟩

end

theorem finally_snd {α : Type} (x : M α) (f : M Unit) (w : World) : (finally' x f w).2 = (f (x w).2).2 := by
  unfold finally'
  rcases hf : f (x w).2 with ⟨r, w'⟩
  cases r <;> rfl

theorem upd_self (f : Nat → Option Nat) (n : Nat) (v : Option Nat) : upd f n v n = v := if_pos rfl

theorem upd_ne (f : Nat → Option Nat) {n k : Nat} (v : Option Nat) (h : k ≠ n) : upd f n v k = f k := if_neg h

theorem upd_back (f : Nat → Option Nat) {n : Nat} (v : Option Nat) (h : f n = none) : upd (upd f n v) n none = f := by
  funext k
  by_cases hk : k = n
  · rw [hk, upd_self, h]
  · rw [upd_ne _ _ hk, upd_ne _ _ hk]

/-- A descriptor that is given was free. -/
theorem alloc_cases (env : Env) (file : Nat) (w : World) :
    (∃ n, n < env.limit ∧ w.fds n = none ∧ alloc env file w = (.ok n, { w with fds := upd w.fds n (some file) })) ∨
      ((∀ n < env.limit, (w.fds n).isSome) ∧ alloc env file w = (.error .os, w)) := by
  unfold alloc
  cases hf : (List.range env.limit).find? fun n => (w.fds n).isNone with
  | some n =>
    left
    have h1 := List.find?_some hf
    have h2 := List.mem_of_find?_eq_some hf
    exact ⟨n, List.mem_range.1 h2, Option.isNone_iff_eq_none.1 h1, rfl⟩
  | none =>
    right
    refine ⟨fun n hn => ?_, rfl⟩
    have := List.find?_eq_none.1 hf n (List.mem_range.2 hn)
    cases hw : w.fds n with
    | none => rw [hw] at this; exact absurd rfl this
    | some v => rfl

theorem sys_cases (env : Env) (c : Sys) (w : World) :
    (env.fails w.clock c = none ∧ sys env c w = (.ok (), { w with clock := w.clock + 1 })) ∨
      (∃ e, env.fails w.clock c = some e ∧ sys env c w = (.error e, { w with clock := w.clock + 1 })) := by
  unfold sys
  dsimp only
  cases env.fails w.clock c with
  | none => exact .inl ⟨rfl, rfl⟩
  | some e => exact .inr ⟨e, rfl, rfl⟩

theorem osOpen_cases (env : Env) (w : World) :
    (∃ n, n < env.limit ∧ w.fds n = none ∧ osOpen env w =
        (.ok n, { w with clock := w.clock + 1, nextFile := w.nextFile + 1, fds := upd w.fds n (some w.nextFile) })) ∨
      (∃ e k, (e = .os ∨ env.fails w.clock .open = some e) ∧ osOpen env w =
        (.error e, { w with clock := w.clock + 1, nextFile := k })) := by
  unfold osOpen
  rw [bind_run]
  rcases sys_cases env .open w with ⟨_, e⟩ | ⟨x, he, e⟩ <;> rw [e]
  · dsimp only
    rw [bind_run]
    dsimp only [getW]
    rw [bind_run]
    dsimp only [modW]
    rcases alloc_cases env w.nextFile { w with clock := w.clock + 1, nextFile := w.nextFile + 1 } with ⟨n, h1, h2, h3⟩ | ⟨_, h3⟩
    · exact .inl ⟨n, h1, h2, h3⟩
    · exact .inr ⟨.os, w.nextFile + 1, .inl rfl, h3⟩
  · exact .inr ⟨x, w.nextFile, .inr he, rfl⟩

theorem osDup_cases (env : Env) (fd : Nat) (w : World) :
    (∃ n f, n < env.limit ∧ w.fds n = none ∧ w.fds fd = some f ∧ osDup env fd w =
        (.ok n, { w with clock := w.clock + 1, fds := upd w.fds n (some f) })) ∨
      (∃ e, osDup env fd w = (.error e, { w with clock := w.clock + 1 })) := by
  unfold osDup
  rw [bind_run]
  rcases sys_cases env .dup w with ⟨_, e⟩ | ⟨x, _, e⟩ <;> rw [e]
  · dsimp only
    rw [bind_run]
    dsimp only [getW]
    cases hf : w.fds fd with
    | none => exact .inr ⟨.os, rfl⟩
    | some f =>
      rcases alloc_cases env f { w with clock := w.clock + 1 } with ⟨n, h1, h2, h3⟩ | ⟨_, h3⟩
      · exact .inl ⟨n, f, h1, h2, rfl, h3⟩
      · exact .inr ⟨.os, h3⟩
  · exact .inr ⟨x, rfl⟩

theorem osDup2_open {a : Nat} (b : Nat) {w : World} {f : Nat} (h : w.fds a = some f) :
    osDup2 a b w = (.ok (), { w with fds := upd w.fds b (some f) }) := by
  unfold osDup2
  rw [bind_run]
  dsimp only [getW]
  rw [h]
  rfl

theorem Pres.withOpen {R : World → World → Prop} (h : Ind R) (env : Env) (c : Sys) : Pres R (withOpen env c) := by
  intro w
  unfold Nvcc.withOpen
  rw [bind_run]
  rcases osOpen_cases env w with ⟨n, _, hn, e⟩ | ⟨x, k, _, e⟩ <;> rw [e]
  · dsimp only
    rw [finally_snd]
    rcases sys_cases env c { w with clock := w.clock + 1, nextFile := w.nextFile + 1, fds := upd w.fds n (some w.nextFile) }
      with ⟨_, e'⟩ | ⟨_, _, e'⟩ <;> rw [e'] <;> dsimp only [osClose, modW] <;> rw [upd_back _ _ hn] <;>
        exact ⟨h.ext w _ _ _, rfl⟩
  · exact ⟨h.ext w _ _ _, rfl⟩

theorem Pres.tempdir {R : World → World → Prop} (h : Ind R) (env : Env) {α : Type} {body : Nat → M α}
    (hb : ∀ t, Pres R (body t)) : Pres R (tempdir env body) := by
  intro w
  unfold Nvcc.tempdir
  rw [bind_run]
  rcases sys_cases env .mkdtemp w with ⟨_, e⟩ | ⟨x, _, e⟩ <;> rw [e]
  · dsimp only
    rw [bind_run]
    dsimp only [getW]
    rw [bind_run]
    dsimp only [modW]
    rw [finally_snd]
    obtain ⟨h1, h2⟩ := hb (w.clock + 1) { w with clock := w.clock + 1, tmp := (w.clock + 1) :: w.tmp }
    constructor
    · exact h.trans (h.trans (h.ext w _ w.nextFile _) h1) (h.ext _ _ _ _)
    · refine (congrArg (fun l : List Nat => l.erase (w.clock + 1)) h2).trans ?_
      exact List.erase_cons_head (a := w.clock + 1) (l := w.tmp)
  · exact ⟨h.ext w _ _ _, rfl⟩

/-! ### the relations -/

/-- Nothing that is observed changes but cached values. -/
def Same (w w' : World) : Prop :=
  w'.fds = w.fds ∧ w'.compilerSo = w.compilerSo ∧ w'.caller = w.caller ∧ w'.made = w.made ∧ w'.log = w.log

/-- Descriptors, the compiler object and the list of the caller stay the same. -/
def Keep (w w' : World) : Prop := w'.fds = w.fds ∧ w'.compilerSo = w.compilerSo ∧ w'.caller = w.caller

/-- Descriptors and the list of the caller stay the same. -/
def Keep0 (w w' : World) : Prop := w'.fds = w.fds ∧ w'.caller = w.caller

/-- Descriptors that were open refer to the same files; the compiler object and the list of the caller stay the same. -/
def Open (w w' : World) : Prop :=
  (∀ n, (w.fds n).isSome → w'.fds n = w.fds n) ∧ w'.compilerSo = w.compilerSo ∧ w'.caller = w.caller

theorem ind_same : Ind Same where
  trans := by
    rintro a b c ⟨h1, h2, h3, h4, h5⟩ ⟨g1, g2, g3, g4, g5⟩
    exact ⟨g1.trans h1, g2.trans h2, g3.trans h3, g4.trans h4, g5.trans h5⟩
  ext := fun _ _ _ _ => ⟨rfl, rfl, rfl, rfl, rfl⟩

theorem ind_keep : Ind Keep where
  trans := by
    rintro a b c ⟨h1, h2, h3⟩ ⟨g1, g2, g3⟩
    exact ⟨g1.trans h1, g2.trans h2, g3.trans h3⟩
  ext := fun _ _ _ _ => ⟨rfl, rfl, rfl⟩

theorem ind_keep0 : Ind Keep0 where
  trans := by
    rintro a b c ⟨h1, h2⟩ ⟨g1, g2⟩
    exact ⟨g1.trans h1, g2.trans h2⟩
  ext := fun _ _ _ _ => ⟨rfl, rfl⟩

theorem ind_open : Ind Open where
  trans := by
    rintro a b c ⟨h1, h2, h3⟩ ⟨g1, g2, g3⟩
    refine ⟨fun n hn => ?_, g2.trans h2, g3.trans h3⟩
    rw [g1 n (by rw [h1 n hn]; exact hn), h1 n hn]
  ext := fun _ _ _ _ => ⟨fun _ _ => rfl, rfl, rfl⟩

theorem Pres.mono {R R' : World → World → Prop} (hR : ∀ w w', R w w' → R' w w') {α : Type} {x : M α} (hx : Pres R x) : Pres R' x :=
  fun w => ⟨hR _ _ (hx w).1, (hx w).2⟩

theorem Same.keep {w w' : World} (h : Same w w') : Keep w w' := ⟨h.1, h.2.1, h.2.2.1⟩
theorem Same.keep0 {w w' : World} (h : Same w w') : Keep0 w w' := ⟨h.1, h.2.2.1⟩
theorem Keep.op {w w' : World} (h : Keep w w') : Open w w' := ⟨fun n _ => by rw [h.1], h.2.1, h.2.2⟩

/-! ### the parts of the program -/

/-- Relations that do not look at the cached path either. -/
structure IndP (R : World → World → Prop) : Prop extends Ind R where
  path : ∀ w p, R w { w with cudaPath := p }

/-- Relations that do not look at the cached path and options either. -/
structure IndC (R : World → World → Prop) : Prop extends IndP R where
  base : ∀ w p, R w { w with baseOpts := p }

section
variable {R : World → World → Prop} (h : IndP R) (env : Env)
include h

theorem pres_cudaPath : Pres R (getCudaPath env) := by
  unfold getCudaPath
  refine Pres.bind h.toInd (Pres.get h.toInd) fun w => ?_
  cases w.cudaPath with
  | some p => exact Pres.pure h.toInd _
  | none => exact Pres.bind h.toInd (fun w => ⟨h.path w _, rfl⟩) fun _ => Pres.pure h.toInd _

theorem pres_nvccPath : Pres R (getNvccPath env) := by
  unfold getNvccPath
  split
  · exact Pres.throw h.toInd _
  · refine Pres.bind h.toInd (pres_cudaPath h env) fun c => ?_
    cases c with
    | none => exact Pres.pure h.toInd _
    | some c =>
      dsimp only
      generalize join c _ = p
      split
      · exact Pres.pure h.toInd _
      · exact Pres.pure h.toInd _

theorem pres_setting : Pres R (getCompilerSetting env) := by
  unfold getCompilerSetting
  refine Pres.bind h.toInd (pres_cudaPath h env) fun c => ?_
  dsimp only
  split
  · split
    · exact Pres.pure h.toInd _
    · exact Pres.pure h.toInd _
  · exact Pres.pure h.toInd _

theorem pres_addPath (p : Option (List String)) (l : List String) : Pres R (addPath p l) := by
  cases p with
  | none => exact Pres.throw h.toInd _
  | some p => exact Pres.pure h.toInd _

theorem pres_baseOptions' : Pres R (getCompilerBaseOptions' env) := by
  unfold getCompilerBaseOptions'
  refine Pres.bind h.toInd (pres_nvccPath h env) fun p => Pres.tempdir h.toInd env fun t => ?_
  refine Pres.bind h.toInd (Pres.withOpen h.toInd env _) fun _ => Pres.bind h.toInd (pres_addPath h _ _) fun cmd =>
    Pres.bind h.toInd (Pres.ask h.toInd _) fun r => ?_
  split
  · split
    · exact Pres.pure h.toInd _
    · exact Pres.throw h.toInd _
  · exact Pres.pure h.toInd _

theorem pres_cudaInfo' : Pres R (getCudaInfo' env) := by
  unfold getCudaInfo'
  refine Pres.bind h.toInd (pres_nvccPath h env) fun p => Pres.tempdir h.toInd env fun t => ?_
  refine Pres.bind h.toInd (Pres.withOpen h.toInd env _) fun _ => ?_
  dsimp only
  refine Pres.bind h.toInd (pres_addPath h _ _) fun cmd => Pres.bind h.toInd (Pres.ask h.toInd _) fun r => ?_
  split
  · exact Pres.throw h.toInd _
  · refine Pres.bind h.toInd (Pres.except h.toInd (Pres.ask h.toInd _) ?_) fun s => ?_
    · intro e y hy
      cases hy
      exact Pres.throw h.toInd _
    · split
      · exact Pres.pure h.toInd _
      · exact Pres.throw h.toInd _

theorem pres_cudaInfo (hi : ∀ w i, R w { w with cudaInfo := some i }) : Pres R (getCudaInfo env) := by
  unfold getCudaInfo
  refine Pres.bind h.toInd (Pres.get h.toInd) fun w => ?_
  cases w.cudaInfo with
  | some p => exact Pres.pure h.toInd _
  | none =>
    exact Pres.bind h.toInd (pres_cudaInfo' h env) fun o => Pres.bind h.toInd (fun w => ⟨hi w _, rfl⟩) fun _ =>
      Pres.pure h.toInd _

end

theorem pres_baseOptions {R : World → World → Prop} (h : IndC R) (env : Env) : Pres R (getCompilerBaseOptions env) := by
  unfold getCompilerBaseOptions
  refine Pres.bind h.toInd (Pres.get h.toInd) fun w => ?_
  cases w.baseOpts with
  | some p => exact Pres.pure h.toInd _
  | none =>
    exact Pres.bind h.toInd (pres_baseOptions' h.toIndP env) fun o => Pres.bind h.toInd (fun w => ⟨h.base w _, rfl⟩) fun _ =>
      Pres.pure h.toInd _

theorem indP_same : IndP Same := ⟨ind_same, fun _ _ => ⟨rfl, rfl, rfl, rfl, rfl⟩⟩

theorem indC_same : IndC Same := ⟨indP_same, fun _ _ => ⟨rfl, rfl, rfl, rfl, rfl⟩⟩

theorem same_cudaInfo (env : Env) : Pres Same (getCudaInfo env) := pres_cudaInfo indP_same env fun _ _ => ⟨rfl, rfl, rfl, rfl, rfl⟩

theorem same_version (env : Env) : Pres Same (getCudaVersion env) := by
  unfold getCudaVersion
  refine Pres.bind ind_same (same_cudaInfo env) fun i => ?_
  split
  · exact Pres.throw ind_same _
  · exact Pres.pure ind_same _

theorem same_gencode (env : Env) : Pres Same (getGencodeOptions env) :=
  Pres.bind ind_same (same_cudaInfo env) fun _ => Pres.pure ind_same _

theorem same_chooseArch (env : Env) (arch : Option Int) : Pres Same (chooseArch env arch) := by
  cases arch with
  | some a => exact Pres.pure ind_same _
  | none =>
    refine Pres.bind ind_same (same_cudaInfo env) fun i => ?_
    cases pyMin (i.devices.map fun d => d.1 * 10 + d.2) with
    | ok a => exact Pres.pure ind_same _
    | error e => exact Pres.throw ind_same _

theorem keep_super (env : Env) (obj src : String) (a b : List String) : Pres Keep (superCompile env obj src a b) := by
  unfold superCompile
  refine Pres.bind ind_keep (Pres.get ind_keep) fun w => ?_
  refine Pres.bind ind_keep ((pres_addPath indP_same _ _).mono fun _ _ => Same.keep) fun cmd => ?_
  refine Pres.bind ind_keep (fun w => ⟨⟨rfl, rfl, rfl⟩, rfl⟩) fun _ => Pres.bind ind_keep
    (Pres.except ind_keep (Pres.ask ind_keep _) ?_) fun _ => fun w => ⟨⟨rfl, rfl, rfl⟩, rfl⟩
  intro e y hy
  split at hy
  · cases hy
    exact Pres.throw ind_keep _
  · cases hy

theorem keep_unix (env : Env) (obj src ext : String) (a b : List String) : Pres Keep (unixCompile env obj src ext a b) := by
  unfold unixCompile
  split
  · exact keep_super env obj src a b
  · intro w
    rw [bind_run]
    dsimp only [getW]
    rw [finally_snd]
    dsimp only [modW]
    have : Pres Keep0 (do
        let nvcc ← getNvccPath env
        let base ← getCompilerBaseOptions env
        modW fun w => { w with compilerSo := nvcc }
        let _ ← getCudaVersion env
        let gen ← getGencodeOptions env
        superCompile env obj src (base ++ a) (gen ++ ["-O2", "--compiler-options=\"-fPIC\""] ++ b)) := by
      refine Pres.bind ind_keep0 ((pres_nvccPath indP_same env).mono fun _ _ => Same.keep0) fun nvcc => ?_
      refine Pres.bind ind_keep0 ((pres_baseOptions indC_same env).mono fun _ _ => Same.keep0) fun base => ?_
      refine Pres.bind ind_keep0 (fun w => ⟨⟨rfl, rfl⟩, rfl⟩) fun _ => ?_
      refine Pres.bind ind_keep0 ((same_version env).mono fun _ _ => Same.keep0) fun _ => ?_
      refine Pres.bind ind_keep0 ((same_gencode env).mono fun _ _ => Same.keep0) fun gen => ?_
      exact (keep_super env obj src _ _).mono fun _ _ h => ⟨h.1, h.2.2⟩
    obtain ⟨⟨h1, h2⟩, h3⟩ := this w
    exact ⟨⟨h1, rfl, h2⟩, h3⟩

theorem keep_cc (env : Env) (dir stem ext : String) (a b c : List String) : Pres Keep (ccCompile env dir stem ext a b c) := by
  unfold ccCompile
  split
  · exact Pres.throw ind_keep _
  · dsimp only
    refine Pres.bind ind_keep (Pres.sys ind_keep env _) fun _ => Pres.bind ind_keep (fun w => ⟨⟨rfl, rfl, rfl⟩, rfl⟩) fun _ =>
      Pres.bind ind_keep (keep_unix env _ _ _ _ _) fun _ => Pres.pure ind_keep _

end Verif.Nvcc
