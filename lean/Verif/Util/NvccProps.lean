/- C127: compiling with nvcc; what is left behind. -/
import Verif.Util.NvccLemmas
import Mathlib.Algebra.Order.BigOperators.Group.Finset
import Mathlib.Algebra.BigOperators.Group.Finset.Basic
import Mathlib.Data.Finset.Card
import Mathlib.Data.Finset.Range

set_option autoImplicit false

namespace Verif.Nvcc

/-! ### the redirected channel -/

/-- The world in which the body runs: `n` is the copy of the channel `fileno`, which referred to `f`, and `m` the new file. -/
def inside (w : World) (n m f fileno : Nat) : World :=
  { w with
    clock := w.clock + 2
    nextFile := w.nextFile + 1
    fds := upd (upd (upd w.fds n (some f)) m (some w.nextFile)) fileno (some w.nextFile) }

/-- The outcomes of the redirection: either it does not get as far as the body, or the body runs with the channel going to a new
file. -/
theorem redirected_cases (env : Env) {α : Type} (fileno : Nat) (body : M α) (w : World) :
    (∃ e, (e = .unboundLocal) ∧ (stdchannelRedirected env fileno body w).1 = .error e ∧
      ((stdchannelRedirected env fileno body w).2 = { w with clock := w.clock + 1 } ∨
        ∃ k n f, w.fds n = none ∧ w.fds fileno = some f ∧ (stdchannelRedirected env fileno body w).2 =
          { w with clock := w.clock + 2, nextFile := k, fds := upd w.fds n (some f) })) ∨
    (∃ n m f, n < env.limit ∧ w.fds n = none ∧ w.fds m = none ∧ m ≠ n ∧ w.fds fileno = some f ∧
      stdchannelRedirected env fileno body w =
        finally' body (do osDup2 n fileno; osClose m) (inside w n m f fileno)) := by
  unfold stdchannelRedirected
  rcases osDup_cases env fileno w with ⟨n, f, hn, h1, h2, e⟩ | ⟨x, e⟩ <;> rw [e] <;> dsimp only
  · have hne : fileno ≠ n := by
      rintro rfl
      rw [h1] at h2
      cases h2
    rcases osOpen_cases env { w with clock := w.clock + 1, fds := upd w.fds n (some f) } with ⟨m, _, h3, e'⟩ | ⟨y, k, _, e'⟩ <;>
      rw [e'] <;> try dsimp only
    · right
      have hmn : m ≠ n := by
        rintro rfl
        dsimp only at h3
        rw [upd_self] at h3
        cases h3
      refine ⟨n, m, f, hn, h1, by rwa [← upd_ne w.fds (some f) hmn], hmn, h2, ?_⟩
      have key : (do osDup2 m fileno; body : M α)
          { w with
            clock := w.clock + 1 + 1
            nextFile := w.nextFile + 1
            fds := upd (upd w.fds n (some f)) m (some w.nextFile) } = body (inside w n m f fileno) := by
        rw [bind_run, osDup2_open fileno (f := w.nextFile) (upd_self _ _ _)]
        rfl
      unfold finally'
      rw [key]
    · left
      refine ⟨.unboundLocal, rfl, ?_⟩
      rw [bind_run, osDup2_open fileno (f := f) (by dsimp only; rw [upd_self])]
      refine ⟨rfl, .inr ⟨k, n, f, h1, h2, ?_⟩⟩
      have : upd (upd w.fds n (some f)) fileno (some f) = upd w.fds n (some f) := by
        funext i
        by_cases hi : i = fileno
        · rw [hi, upd_self, upd_ne _ _ hne, h2]
        · rw [upd_ne _ _ hi]
      show World.mk _ _ _ _ _ _ _ _ _ _ _ = _
      rw [this]
  · exact .inl ⟨.unboundLocal, rfl, rfl, .inl rfl⟩

/-- **C127.** While the body runs, the channel goes to a new file; afterwards, whatever the body does with its own descriptors and
however it ends, and also if nothing could be redirected, the channel and all other descriptors that were open refer to the same
files as before. -/
theorem C127_restored (env : Env) {α : Type} (fileno : Nat) (body : M α)
    (hb : ∀ w n, (w.fds n).isSome → (body w).2.fds n = w.fds n) (w : World) (n : Nat) (hn : (w.fds n).isSome) :
    (stdchannelRedirected env fileno body w).2.fds n = w.fds n := by
  rcases redirected_cases env fileno body w with ⟨e, _, _, h | ⟨k, m, f, h1, h2, h⟩⟩ | ⟨p, m, f, _, h1, h2, hmp, h3, h⟩
  · rw [h]
  · rw [h]
    refine upd_ne _ _ ?_
    rintro rfl
    rw [h1] at hn
    cases hn
  · have hnp : n ≠ p := by rintro rfl; rw [h1] at hn; cases hn
    have hnm : n ≠ m := by rintro rfl; rw [h2] at hn; cases hn
    have hfp : p ≠ fileno := by rintro rfl; rw [h1] at h3; cases h3
    rw [h, finally_snd]
    generalize hw1 : inside w p m f fileno = w1
    have e1 : w1.fds p = some f := by
      rw [← hw1]
      dsimp only [inside]
      rw [upd_ne _ _ hfp, upd_ne _ _ hmp.symm, upd_self]
    have e2 : (body w1).2.fds p = some f := by rw [hb w1 p (by rw [e1]; rfl), e1]
    rw [bind_run, osDup2_open fileno e2]
    show upd (upd (body w1).2.fds fileno (some f)) m none n = w.fds n
    rw [upd_ne _ _ hnm]
    by_cases hf : n = fileno
    · rw [hf, upd_self, h3]
    · rw [upd_ne _ _ hf]
      have e3 : w1.fds n = w.fds n := by
        rw [← hw1]
        dsimp only [inside]
        rw [upd_ne _ _ hf, upd_ne _ _ hnm, upd_ne _ _ hnp]
      rw [hb w1 n (by rw [e3]; exact hn), e3]

/-- **C127.** The body runs with the channel going to a file that was not open before. -/
theorem C127_redirected (env : Env) (fileno : Nat) (w : World) (f : Option Nat)
    (h : (stdchannelRedirected env fileno (fun w => (.ok (w.fds fileno), w)) w).1 = .ok f) : f = some w.nextFile := by
  rcases redirected_cases env fileno (fun w => (.ok (w.fds fileno), w)) w with ⟨e, _, h', _⟩ | ⟨p, m, g, _, h1, h2, hmp, h3, h'⟩
  · rw [h'] at h
    cases h
  · rw [h'] at h
    unfold finally' at h
    have hfp : p ≠ fileno := by rintro rfl; rw [h1] at h3; cases h3
    dsimp only at h
    rw [bind_run, osDup2_open fileno (f := g) (by dsimp only [inside]; rw [upd_ne _ _ hfp, upd_ne _ _ hmp.symm, upd_self])] at h
    dsimp only [osClose, modW, inside] at h
    rw [upd_self] at h
    exact (Except.ok.inj h).symm

/-- **C127 fails**: the copy of the channel is never closed. After every use that gets as far as the body, one more descriptor is
open, for all bodies that close what they open. -/
theorem C127_leak_violated (env : Env) {α : Type} (fileno : Nat) (body : M α) (hb : ∀ w, (body w).2.fds = w.fds) (w : World) :
    ((stdchannelRedirected env fileno body w).1 = .error .unboundLocal) ∨
      ∃ n f, n < env.limit ∧ w.fds n = none ∧ w.fds fileno = some f ∧
        (stdchannelRedirected env fileno body w).2.fds = upd w.fds n (some f) := by
  rcases redirected_cases env fileno body w with ⟨e, he, h, _⟩ | ⟨p, m, f, hp, h1, h2, hmp, h3, h⟩
  · exact .inl (he ▸ h)
  · right
    refine ⟨p, f, hp, h1, h3, ?_⟩
    have hfp : p ≠ fileno := by rintro rfl; rw [h1] at h3; cases h3
    have hfm : m ≠ fileno := by rintro rfl; rw [h2] at h3; cases h3
    rw [h, finally_snd]
    generalize hw1 : inside w p m f fileno = w1
    have e1 : w1.fds = upd (upd (upd w.fds p (some f)) m (some w.nextFile)) fileno (some w.nextFile) := by rw [← hw1]; rfl
    rw [bind_run, osDup2_open fileno (f := f) (by rw [hb, e1, upd_ne _ _ hfp, upd_ne _ _ hmp.symm, upd_self])]
    show upd (upd (body w1).2.fds fileno (some f)) m none = _
    rw [hb, e1]
    funext i
    by_cases him : i = m
    · rw [him, upd_self, upd_ne _ _ hmp, h2]
    · rw [upd_ne _ _ him]
      by_cases hif : i = fileno
      · rw [hif, upd_self, upd_ne _ _ hfp.symm, h3]
      · rw [upd_ne _ _ hif, upd_ne _ _ hif, upd_ne _ _ him]

/-- The number of free descriptors. -/
def free (env : Env) (w : World) : Nat := ((Finset.range env.limit).filter fun n => (w.fds n).isNone).card

/-- The world after some uses. -/
def uses (env : Env) {α : Type} (fileno : Nat) (body : M α) (w : World) : Nat → World
  | 0 => w
  | k + 1 => (stdchannelRedirected env fileno body (uses env fileno body w k)).2

/-- **C127 fails**: however many descriptors there are, some use of the redirection fails, and with an exception that does not tell
why. -/
theorem C127_exhausted_violated (env : Env) {α : Type} (fileno : Nat) (body : M α) (hb : ∀ w, (body w).2.fds = w.fds) (w : World) :
    ∃ k ≤ free env w, (stdchannelRedirected env fileno body (uses env fileno body w k)).1 = .error .unboundLocal := by
  by_contra hcon
  push Not at hcon
  have key : ∀ k ≤ free env w + 1, free env (uses env fileno body w k) + k = free env w := by
    intro k
    induction k with
    | zero => intro _; rfl
    | succ k ih =>
      intro hk
      rcases C127_leak_violated env fileno body hb (uses env fileno body w k) with h | ⟨n, f, hn, h1, h2, h3⟩
      · exact absurd h (hcon k (by omega))
      · rw [← ih (by omega)]
        have hmem : n ∈ (Finset.range env.limit).filter fun i => ((uses env fileno body w k).fds i).isNone := by
          rw [Finset.mem_filter, Finset.mem_range, h1]
          exact ⟨hn, rfl⟩
        have : ((Finset.range env.limit).filter fun i => ((uses env fileno body w (k + 1)).fds i).isNone) =
            ((Finset.range env.limit).filter fun i => ((uses env fileno body w k).fds i).isNone).erase n := by
          ext i
          rw [Finset.mem_erase, Finset.mem_filter, Finset.mem_filter]
          show _ ∧ ((stdchannelRedirected env fileno body (uses env fileno body w k)).2.fds i).isNone = true ↔ _
          rw [h3]
          by_cases hi : i = n
          · rw [hi, upd_self]
            simp
          · rw [upd_ne _ _ hi]
            simp [hi]
        unfold free
        rw [this, Finset.card_erase_of_mem hmem]
        have := Finset.card_pos.2 ⟨n, hmem⟩
        omega
  have := key (free env w + 1) le_rfl
  omega

/-! ### compiling -/

theorem open_redirected (env : Env) {α : Type} (fileno : Nat) (body : M α) (hb : Pres Keep body) :
    Pres Open (stdchannelRedirected env fileno body) := by
  intro w
  refine ⟨⟨fun n hn => C127_restored env fileno body (fun w n _ => by rw [(hb w).1.1]) w n hn, ?_⟩, ?_⟩
  · rcases redirected_cases env fileno body w with ⟨e, _, _, h | ⟨k, m, f, h1, h2, h⟩⟩ | ⟨p, m, f, _, h1, h2, hmp, h3, h⟩
    · rw [h]; exact ⟨rfl, rfl⟩
    · rw [h]; exact ⟨rfl, rfl⟩
    · rw [h, finally_snd, bind_run]
      have hfp : p ≠ fileno := by rintro rfl; rw [h1] at h3; cases h3
      rw [osDup2_open fileno (f := f) (by
        rw [(hb _).1.1]; dsimp only [inside]; rw [upd_ne _ _ hfp, upd_ne _ _ hmp.symm, upd_self])]
      exact ⟨(hb _).1.2.1, (hb _).1.2.2⟩
  · rcases redirected_cases env fileno body w with ⟨e, _, _, h | ⟨k, m, f, h1, h2, h⟩⟩ | ⟨p, m, f, _, h1, h2, hmp, h3, h⟩
    · rw [h]
    · rw [h]
    · rw [h, finally_snd, bind_run]
      have hfp : p ≠ fileno := by rintro rfl; rw [h1] at h3; cases h3
      rw [osDup2_open fileno (f := f) (by
        rw [(hb _).1.1]; dsimp only [inside]; rw [upd_ne _ _ hfp, upd_ne _ _ hmp.symm, upd_self])]
      exact (hb _).2

/-- What follows the preparation of the options. -/
def compileTail (env : Env) (stem ext : String) (inc macros options : List String) : M String := do
  sys env .resource
  tempdir env fun t => do
    withOpen env .write
    let objects ← except' (stdchannelRedirected env 2
        (ccCompile env (env.tmpName t) stem ext (inc ++ [env.cupyPath]) macros options)) fun e =>
      if e = .compile then some (do withOpen env .read; throw .type) else none
    if objects.length ≠ 1 then throw .assertion
    else
      ask fun n => match env.load n (objects.getD 0 "") with
        | none => .ok ()
        | some e => .error e
      pure (objects.getD 0 "")

theorem compile_eq (env : Env) (stem ext : String) (opts : Opts) (arch : Option Int) :
    compileUsingNvcc env stem ext opts arch = (do
      let _ ← chooseArch env arch
      let s ← getCompilerSetting env
      let options ← cubin opts
      compileTail env stem ext s.1 s.2 options) := rfl

theorem open_tail (env : Env) (stem ext : String) (inc macros options : List String) :
    Pres Open (compileTail env stem ext inc macros options) := by
  unfold compileTail
  refine Pres.bind ind_open (Pres.sys ind_open env _) fun _ => Pres.tempdir ind_open env fun t => ?_
  refine Pres.bind ind_open (Pres.withOpen ind_open env _) fun _ => ?_
  refine Pres.bind ind_open (Pres.except ind_open (open_redirected env 2 _ (keep_cc env _ _ _ _ _ _)) ?_) fun objects => ?_
  · intro e y hy
    split at hy
    · cases hy
      exact Pres.bind ind_open (Pres.withOpen ind_open env _) fun _ => Pres.throw ind_open _
    · cases hy
  · split
    · exact Pres.throw ind_open _
    · exact Pres.bind ind_open (Pres.ask ind_open _) fun _ => Pres.pure ind_open _

/-- What stays the same when a module is compiled. -/
def Stays (w w' : World) : Prop := (∀ n, (w.fds n).isSome → w'.fds n = w.fds n) ∧ w'.compilerSo = w.compilerSo

theorem ind_stays : Ind Stays where
  trans := by
    rintro a b c ⟨h1, h2⟩ ⟨g1, g2⟩
    refine ⟨fun n hn => ?_, g2.trans h2⟩
    rw [g1 n (by rw [h1 n hn]; exact hn), h1 n hn]
  ext := fun _ _ _ _ => ⟨fun _ _ => rfl, rfl⟩

theorem Same.stays {w w' : World} (h : Same w w') : Stays w w' := ⟨fun n _ => by rw [h.1], h.2.1⟩

theorem stays_cubin (opts : Opts) : Pres Stays (cubin opts) := by
  unfold cubin
  refine Pres.bind ind_stays (Pres.get ind_stays) fun w => ?_
  split
  · exact Pres.bind ind_stays (fun w => ⟨⟨fun _ _ => rfl, rfl⟩, rfl⟩) fun _ => Pres.pure ind_stays _
  · exact Pres.pure ind_stays _

/-- **C127.** However compiling ends, with a module or with any exception: standard error and all other descriptors that were open
refer to the same files as before, the program that compiles other sources is the same as before, and no temporary directory is
left. -/
theorem C127_cleanup (env : Env) (stem ext : String) (opts : Opts) (arch : Option Int) (w : World) :
    (∀ n, (w.fds n).isSome → (compileUsingNvcc env stem ext opts arch w).2.fds n = w.fds n) ∧
      (compileUsingNvcc env stem ext opts arch w).2.compilerSo = w.compilerSo ∧
      (compileUsingNvcc env stem ext opts arch w).2.tmp = w.tmp := by
  have : Pres Stays (compileUsingNvcc env stem ext opts arch) := by
    rw [compile_eq]
    refine Pres.bind ind_stays ((same_chooseArch env arch).mono fun _ _ => Same.stays) fun _ => ?_
    refine Pres.bind ind_stays ((pres_setting indP_same env).mono fun _ _ => Same.stays) fun s => ?_
    refine Pres.bind ind_stays (stays_cubin opts) fun o => ?_
    exact (open_tail env stem ext _ _ _).mono fun _ _ h => ⟨h.1, h.2.1⟩
  obtain ⟨⟨h1, h2⟩, h3⟩ := this w
  exact ⟨h1, h2, h3⟩

/-- **C127 fails**: the list of options of the caller is changed, whatever the outcome, if it is not empty and the architecture is
given; an empty list, or none, is left alone. -/
theorem C127_options_violated (env : Env) (stem ext : String) (a : Int) (w : World) :
    (compileUsingNvcc env stem ext .caller (some a) w).2.caller = (if w.caller = [] then [] else w.caller ++ ["-cubin"]) ∧
      (compileUsingNvcc env stem ext .none (some a) w).2.caller = w.caller := by
  have hset : ∀ w, ∃ s, ((getCompilerSetting env) w).1 = .ok s := by
    intro w
    have hp : ∃ p, (getCudaPath env w).1 = .ok p := by
      unfold getCudaPath
      rw [bind_run]
      dsimp only [getW]
      cases w.cudaPath <;> exact ⟨_, rfl⟩
    obtain ⟨p, hp⟩ := hp
    unfold getCompilerSetting
    rcases bind_snd (getCudaPath env) (β := List String × List String) _ w with ⟨q, _, e⟩ | ⟨x, hx, _⟩
    · rw [e]
      dsimp only
      by_cases h1 : env.platform = .win32
      · rw [if_pos h1]
        by_cases h2 : env.there ((env.var "NVTOOLSEXT_PATH").getD "") = true
        · rw [if_pos h2]
          exact ⟨_, rfl⟩
        · rw [if_neg h2]
          exact ⟨_, rfl⟩
      · rw [if_neg h1]
        exact ⟨_, rfl⟩
    · rw [hx] at hp
      cases hp
  have key : ∀ o : Opts, (compileUsingNvcc env stem ext o (some a) w).2.caller =
      (if o = .caller ∧ w.caller ≠ [] then w.caller ++ ["-cubin"] else w.caller) := by
    intro o
    rw [compile_eq]
    show ((do
      let s ← getCompilerSetting env
      let options ← cubin o
      compileTail env stem ext s.1 s.2 options) w).2.caller = _
    obtain ⟨s, hs⟩ := hset w
    have h1 := (pres_setting indP_same env w).1
    rw [bind_run]
    rcases hw : getCompilerSetting env w with ⟨r, w1⟩
    rw [hw] at hs h1
    dsimp only at hs h1
    rw [hs]
    dsimp only
    have hc : w1.caller = w.caller := h1.2.2.1
    rw [bind_run]
    unfold cubin
    rw [bind_run]
    dsimp only [getW]
    by_cases hcase : o = .caller ∧ w.caller ≠ []
    · rw [if_pos (by rwa [hc]), if_pos hcase]
      show (compileTail env stem ext s.1 s.2 _ _).2.caller = _
      rw [(open_tail env stem ext s.1 s.2 _ _).1.2.2]
      show w1.caller ++ ["-cubin"] = _
      rw [hc]
    · rw [if_neg (by rwa [hc]), if_neg hcase]
      show (compileTail env stem ext s.1 s.2 _ _).2.caller = _
      rw [(open_tail env stem ext s.1 s.2 _ _).1.2.2, hc]
  constructor
  · rw [key]
    by_cases h : w.caller = []
    · simp [h]
    · simp [h]
  · rw [key]
    simp

/-- **C127 fails**: the architecture that is given makes no difference. -/
theorem C127_arch_violated (env : Env) (stem ext : String) (opts : Opts) (a b : Int) :
    compileUsingNvcc env stem ext opts (some a) = compileUsingNvcc env stem ext opts (some b) := rfl

end Verif.Nvcc
