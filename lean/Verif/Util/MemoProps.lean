/-
C57: memoize_on_key under every interleaving.
-/
import Verif.Util.Memo
import Mathlib.Tactic.Push

set_option autoImplicit false
set_option linter.unusedSectionVars false

namespace Verif.Util.Memo

variable {Args Key Val : Type} [DecidableEq Key]

/-- The values returned by evaluations for a key, in order. -/
def evals (k : Key) : List (Event Args Key Val) → List Val
  | [] => []
  | .evalOk _ k' _ v :: l => if k' = k then v :: evals k l else evals k l
  | _ :: l => evals k l

theorem evals_append (k : Key) (l l' : List (Event Args Key Val)) : evals k (l ++ l') = evals k l ++ evals k l' := by
  induction l with
  | nil => rfl
  | cons e l ih =>
    cases e <;> simp only [List.cons_append, evals, ih]
    split <;> simp

/-- Failed evaluations by thread `t` for key `k`, in order. -/
def failures (t : Nat) : List (Event Args Key Val) → List PyErr
  | [] => []
  | .evalErr t' _ _ e :: l => if t' = t then e :: failures t l else failures t l
  | _ :: l => failures t l

/-- Exceptions that came out of calls of thread `t`, in order. -/
def raised (t : Nat) : List (Event Args Key Val) → List PyErr
  | [] => []
  | .done t' _ (.error e) :: l => if t' = t then e :: raised t l else raised t l
  | _ :: l => raised t l

theorem failures_append (t : Nat) (l l' : List (Event Args Key Val)) : failures t (l ++ l') = failures t l ++ failures t l' := by
  induction l with
  | nil => rfl
  | cons e l ih =>
    cases e <;> simp only [List.cons_append, failures, ih]
    split <;> simp

theorem raised_append (t : Nat) (l l' : List (Event Args Key Val)) : raised t (l ++ l') = raised t l ++ raised t l' := by
  induction l with
  | nil => rfl
  | cons e l ih =>
    cases e with
    | done t' k r =>
      cases r with
      | ok v => simp only [List.cons_append, raised, ih]
      | error e =>
        simp only [List.cons_append, raised, ih]
        split <;> simp
    | _ => simp only [List.cons_append, raised, ih]

/-- Points at which the lock is held. -/
def crit : Pc Args Key Val → Prop
  | .idle => False
  | .waiting _ _ => False
  | _ => True

/-- The exception a thread is about to raise. -/
def pending : Pc Args Key Val → List PyErr
  | .leaving _ (.error e) => [e]
  | _ => []

/-- What holds for the current point of a thread. -/
def pcInv (s : State Args Key Val) : Pc Args Key Val → Prop
  | .evaluating k _ => s.cache k = none ∧ evals k s.hist = []
  | .storing k v => s.cache k = none ∧ evals k s.hist = [v]
  | .leaving k (.ok v) => s.cache k = some v
  | _ => True

structure Inv (s : State Args Key Val) : Prop where
  lock : ∀ t, crit (s.pc t) ↔ s.lock = some t
  pcs : ∀ t, pcInv s (s.pc t)
  cached : ∀ k v, s.cache k = some v → evals k s.hist = [v]
  uncached : ∀ k, s.cache k = none → (∀ t v, s.pc t ≠ .storing k v) → evals k s.hist = []
  ret : ∀ t k v, .done t k (.ok v) ∈ s.hist → s.cache k = some v
  errs : ∀ t, failures t s.hist = raised t s.hist ++ pending (s.pc t)

theorem inv_init : Inv (init : State Args Key Val) where
  lock t := by simp [init, crit]
  pcs t := trivial
  cached k v h := by simp [init] at h
  uncached k _ _ := rfl
  ret t k v h := by simp [init] at h
  errs t := rfl

theorem Inv.others {s : State Args Key Val} (h : Inv s) {t : Nat} (ht : crit (s.pc t)) {t' : Nat} (hne : t' ≠ t) :
    ¬ crit (s.pc t') := by
  intro hc
  have h1 := (h.lock t).1 ht
  have h2 := (h.lock t').1 hc
  rw [h1] at h2
  exact hne (Option.some.inj h2).symm

theorem pcInv_of_not_crit {s : State Args Key Val} {p : Pc Args Key Val} (h : ¬ crit p) : pcInv s p := by
  cases p <;> simp_all [crit, pcInv]

/-- A step of a thread that holds the lock before and after. -/
theorem Inv.inside {s s' : State Args Key Val} (h : Inv s) {t : Nat} {p : Pc Args Key Val} (ht : crit (s.pc t)) (hp : crit p)
    (hl : s'.lock = s.lock) (hpc : s'.pc = Function.update s.pc t p) (hinv : pcInv s' p)
    (hcached : ∀ k v, s'.cache k = some v → evals k s'.hist = [v])
    (hun : ∀ k, s'.cache k = none → (∀ v, p ≠ .storing k v) → evals k s'.hist = [])
    (hret : ∀ t k v, .done t k (.ok v) ∈ s'.hist → s'.cache k = some v)
    (herrs : failures t s'.hist = raised t s'.hist ++ pending p)
    (herrs' : ∀ t', t' ≠ t → failures t' s'.hist = failures t' s.hist ∧ raised t' s'.hist = raised t' s.hist) : Inv s' where
  lock t' := by
    rw [hpc, hl]
    by_cases e : t' = t
    · subst e
      rw [Function.update_self]
      exact ⟨fun _ => (h.lock t').1 ht, fun _ => hp⟩
    · rw [Function.update_of_ne e]
      exact h.lock t'
  pcs t' := by
    rw [hpc]
    by_cases e : t' = t
    · subst e
      rw [Function.update_self]
      exact hinv
    · rw [Function.update_of_ne e]
      exact pcInv_of_not_crit (h.others ht e)
  cached := hcached
  uncached k h1 h2 := by
    refine hun k h1 fun v => ?_
    have := h2 t v
    rwa [hpc, Function.update_self] at this
  ret := hret
  errs t' := by
    rw [hpc]
    by_cases e : t' = t
    · subst e
      rw [Function.update_self]
      exact herrs
    · rw [Function.update_of_ne e, (herrs' t' e).1, (herrs' t' e).2]
      exact h.errs t'

theorem inv_step {keyFn : Args → Except PyErr Key} {s s' : State Args Key Val} (h : Inv s) (hs : Step keyFn s s') : Inv s' := by
  cases hs with
  | call t a k ht hk =>
    refine ⟨?_, ?_, h.cached, ?_, h.ret, ?_⟩
    · intro t'
      simp only
      by_cases e : t' = t
      · subst e
        rw [Function.update_self]
        have := h.lock t'
        rw [ht] at this
        exact ⟨fun hh => hh.elim, fun hh => (this.2 hh).elim⟩
      · rw [Function.update_of_ne e]; exact h.lock t'
    · intro t'
      simp only
      by_cases e : t' = t
      · subst e; rw [Function.update_self]; trivial
      · rw [Function.update_of_ne e]
        exact h.pcs t'
    · intro k' h1 h2
      refine h.uncached k' h1 fun t' v => ?_
      by_cases e : t' = t
      · subst e; rw [ht]; simp
      · have := h2 t' v
        simp only at this
        rwa [Function.update_of_ne e] at this
    · intro t'
      simp only
      by_cases e : t' = t
      · subst e
        rw [Function.update_self]
        have := h.errs t'
        rw [ht] at this
        exact this
      · rw [Function.update_of_ne e]
        exact h.errs t'
  | keyError t a e ht hk =>
    refine ⟨h.lock, ?_, ?_, ?_, ?_, ?_⟩
    · intro t'
      have := h.pcs t'
      simp only
      cases hp : s.pc t' with
      | evaluating k a => rw [hp] at this; simpa [pcInv, evals_append, evals] using this
      | storing k v => rw [hp] at this; simpa [pcInv, evals_append, evals] using this
      | leaving k r => rw [hp] at this; cases r <;> exact this
      | _ => trivial
    · intro k v h1
      simpa [evals_append, evals] using h.cached k v h1
    · intro k h1 h2
      simpa [evals_append, evals] using h.uncached k h1 h2
    · intro t' k v h1
      simp only [List.mem_append, List.mem_singleton, reduceCtorEq, or_false] at h1
      exact h.ret t' k v h1
    · intro t'
      simpa [failures_append, raised_append, failures, raised] using h.errs t'
  | acquire t k a ht hl =>
    have hno : ∀ t', ¬ crit (s.pc t') := by
      intro t' hc
      have := (h.lock t').1 hc
      rw [hl] at this
      cases this
    refine ⟨?_, ?_, h.cached, ?_, h.ret, ?_⟩
    · intro t'
      simp only
      by_cases e : t' = t
      · subst e; rw [Function.update_self]; exact ⟨fun _ => rfl, fun _ => trivial⟩
      · rw [Function.update_of_ne e]
        refine ⟨fun hh => absurd hh (hno t'), fun hh => absurd (Option.some.inj hh).symm e⟩
    · intro t'
      simp only
      by_cases e : t' = t
      · subst e; rw [Function.update_self]; trivial
      · rw [Function.update_of_ne e]
        exact pcInv_of_not_crit (hno t')
    · intro k' h1 _
      refine h.uncached k' h1 fun t' v hh => hno t' ?_
      rw [hh]; trivial
    · intro t'
      simp only
      by_cases e : t' = t
      · subst e
        rw [Function.update_self]
        have := h.errs t'
        rw [ht] at this
        exact this
      · rw [Function.update_of_ne e]
        exact h.errs t'
  | hit t k a v ht hc =>
    have hcr : crit (s.pc t) := by rw [ht]; trivial
    have hst : ∀ t' k' v', s.pc t' ≠ .storing k' v' := by
      intro t' k' v' hh
      by_cases e : t' = t
      · subst e; rw [ht] at hh; cases hh
      · exact h.others hcr e (by rw [hh]; trivial)
    refine h.inside (t := t) (p := .leaving k (.ok v)) hcr trivial rfl rfl hc h.cached ?_ h.ret ?_ ?_
    · intro k' h1 _
      exact h.uncached k' h1 fun t' v' => hst t' k' v'
    · have := h.errs t
      rw [ht] at this
      exact this
    · intro t' _
      exact ⟨rfl, rfl⟩
  | miss t k a ht hc =>
    have hcr : crit (s.pc t) := by rw [ht]; trivial
    have hst : ∀ t' k' v', s.pc t' ≠ .storing k' v' := by
      intro t' k' v' hh
      by_cases e : t' = t
      · subst e; rw [ht] at hh; cases hh
      · exact h.others hcr e (by rw [hh]; trivial)
    refine h.inside (t := t) (p := .evaluating k a) hcr trivial rfl rfl ⟨hc, h.uncached k hc fun t' v' => hst t' k v'⟩ h.cached ?_ h.ret ?_ ?_
    · intro k' h1 _
      exact h.uncached k' h1 fun t' v' => hst t' k' v'
    · have := h.errs t
      rw [ht] at this
      exact this
    · intro t' _
      exact ⟨rfl, rfl⟩
  | evalOk t k a v ht =>
    have hcr : crit (s.pc t) := by rw [ht]; trivial
    have hst : ∀ t' k' v', s.pc t' ≠ .storing k' v' := by
      intro t' k' v' hh
      by_cases e : t' = t
      · subst e; rw [ht] at hh; cases hh
      · exact h.others hcr e (by rw [hh]; trivial)
    have hp := h.pcs t
    rw [ht] at hp
    obtain ⟨p1, p2⟩ := hp
    refine h.inside (t := t) (p := .storing k v) hcr trivial rfl rfl ?_ ?_ ?_ ?_ ?_ ?_
    · refine ⟨p1, ?_⟩
      rw [evals_append, p2]; simp [evals]
    · intro k' v' h1
      have hne : k ≠ k' := by
        rintro rfl
        simp only at h1
        rw [p1] at h1; cases h1
      rw [evals_append, h.cached k' v' h1]
      simp [evals, hne]
    · intro k' h1 h2
      have hne : k ≠ k' := by
        rintro rfl
        exact h2 v rfl
      rw [evals_append, h.uncached k' h1 fun t' v' => hst t' k' v']
      simp [evals, hne]
    · intro t' k' v' h1
      simp only [List.mem_append, List.mem_singleton, reduceCtorEq, or_false] at h1
      exact h.ret t' k' v' h1
    · have := h.errs t
      rw [ht] at this
      simpa [failures_append, raised_append, failures, raised, pending] using this
    · intro t' _
      simp [failures_append, raised_append, failures, raised]
  | evalErr t k a e ht =>
    have hcr : crit (s.pc t) := by rw [ht]; trivial
    have hst : ∀ t' k' v', s.pc t' ≠ .storing k' v' := by
      intro t' k' v' hh
      by_cases e : t' = t
      · subst e; rw [ht] at hh; cases hh
      · exact h.others hcr e (by rw [hh]; trivial)
    refine h.inside (t := t) (p := .leaving k (.error e)) hcr trivial rfl rfl trivial ?_ ?_ ?_ ?_ ?_
    · intro k' v' h1
      rw [evals_append, h.cached k' v' h1]
      simp [evals]
    · intro k' h1 h2
      rw [evals_append, h.uncached k' h1 fun t' v' => hst t' k' v']
      simp [evals]
    · intro t' k' v' h1
      simp only [List.mem_append, List.mem_singleton, reduceCtorEq, or_false] at h1
      exact h.ret t' k' v' h1
    · have := h.errs t
      rw [ht] at this
      simpa [failures_append, raised_append, failures, raised, pending] using this
    · intro t' hne
      simp [failures_append, raised_append, failures, raised, hne.symm]
  | store t k v ht =>
    have hcr : crit (s.pc t) := by rw [ht]; trivial
    have hp := h.pcs t
    rw [ht] at hp
    obtain ⟨p1, p2⟩ := hp
    refine h.inside (t := t) (p := .leaving k (.ok v)) hcr trivial rfl rfl ?_ ?_ ?_ ?_ ?_ ?_
    · show Function.update s.cache k (some v) k = some v
      rw [Function.update_self]
    · intro k' v' h1
      simp only at h1 ⊢
      by_cases hk : k' = k
      · subst hk
        rw [Function.update_self, Option.some.injEq] at h1
        rw [p2, h1]
      · rw [Function.update_of_ne hk] at h1
        exact h.cached k' v' h1
    · intro k' h1 _
      simp only at h1 ⊢
      by_cases hk : k' = k
      · subst hk
        rw [Function.update_self] at h1
        cases h1
      · rw [Function.update_of_ne hk] at h1
        refine h.uncached k' h1 fun t' v' hh => ?_
        by_cases e : t' = t
        · subst e
          rw [ht] at hh
          simp only [Pc.storing.injEq] at hh
          exact hk hh.1.symm
        · exact h.others hcr e (by rw [hh]; trivial)
    · intro t' k' v' h1
      have h2 := h.ret t' k' v' h1
      simp only
      by_cases hk : k' = k
      · subst hk
        rw [p1] at h2; cases h2
      · rw [Function.update_of_ne hk]; exact h2
    · have := h.errs t
      rw [ht] at this
      exact this
    · intro t' _
      exact ⟨rfl, rfl⟩
  | leave t k r ht =>
    have hcr : crit (s.pc t) := by rw [ht]; trivial
    have hev : ∀ k', evals k' (s.hist ++ [Event.done t k r]) = evals k' s.hist := by
      intro k'; simp [evals_append, evals]
    refine ⟨?_, ?_, ?_, ?_, ?_, ?_⟩
    · intro t'
      simp only
      by_cases e : t' = t
      · subst e; rw [Function.update_self]; simp [crit]
      · rw [Function.update_of_ne e]
        exact ⟨fun hh => absurd hh (h.others hcr e), fun hh => by cases hh⟩
    · intro t'
      simp only
      by_cases e : t' = t
      · subst e; rw [Function.update_self]; trivial
      · rw [Function.update_of_ne e]
        exact pcInv_of_not_crit (h.others hcr e)
    · intro k' v' h1
      rw [hev]; exact h.cached k' v' h1
    · intro k' h1 _
      rw [hev]
      refine h.uncached k' h1 fun t' v' hh => ?_
      by_cases e : t' = t
      · subst e; rw [ht] at hh; cases hh
      · exact h.others hcr e (by rw [hh]; trivial)
    · intro t' k' v' h1
      simp only [List.mem_append, List.mem_singleton] at h1
      rcases h1 with h1 | h1
      · exact h.ret t' k' v' h1
      · simp only [Event.done.injEq] at h1
        obtain ⟨rfl, rfl, rfl⟩ := h1
        have := h.pcs t'
        rw [ht] at this
        exact this
    · intro t'
      have h0 := h.errs t'
      rw [failures_append, raised_append]
      by_cases e : t' = t
      · subst e
        rw [ht] at h0
        simp only [Function.update_self]
        cases r <;> simpa [failures, raised, pending] using h0
      · simp only [Function.update_of_ne e]
        cases r <;> simpa [failures, raised, Ne.symm e] using h0

theorem inv_reachable {keyFn : Args → Except PyErr Key} {s : State Args Key Val} (h : Reachable keyFn s) : Inv s := by
  induction h with
  | init => exact inv_init
  | step s s' _ hs ih => exact inv_step ih hs

/-! ### C57 -/

/-- **C57** Whatever the interleaving, the decorated function is evaluated successfully at most once per key. -/
theorem C57_once (keyFn : Args → Except PyErr Key) (s : State Args Key Val) (h : Reachable keyFn s) (k : Key) :
    (evals k s.hist).length ≤ 1 := by
  have hi := inv_reachable h
  cases hc : s.cache k with
  | some v => rw [hi.cached k v hc]; simp
  | none =>
    by_cases hst : ∃ t v, s.pc t = .storing k v
    · obtain ⟨t, v, ht⟩ := hst
      have := hi.pcs t
      rw [ht] at this
      rw [this.2]; simp
    · push Not at hst
      rw [hi.uncached k hc hst]; simp

/-- **C57** Every call that returns gives the value of the one successful evaluation for its key; hence calls with the same key
return the same value. -/
theorem C57_value (keyFn : Args → Except PyErr Key) (s : State Args Key Val) (h : Reachable keyFn s) (t : Nat) (k : Key) (v : Val)
    (hd : .done t k (.ok v) ∈ s.hist) :
    evals k s.hist = [v] ∧ ∀ t' v', .done t' k (.ok v') ∈ s.hist → v' = v := by
  have hi := inv_reachable h
  have hc := hi.ret t k v hd
  refine ⟨hi.cached k v hc, ?_⟩
  intro t' v' hd'
  have := hi.ret t' k v' hd'
  rw [hc] at this
  exact (Option.some.inj this).symm

/-- **C57** A failing evaluation is not cached: its exception comes out of the call that made it, and only there; and as long
as no evaluation for a key succeeded, a call that looks the key up evaluates the function. -/
theorem C57_failure (keyFn : Args → Except PyErr Key) (s : State Args Key Val) (h : Reachable keyFn s) :
    (∀ t, failures t s.hist = raised t s.hist ++ pending (s.pc t)) ∧
    ∀ t k a s', s.pc t = .lookup k a → evals k s.hist = [] → Step keyFn s s' → s'.pc t ≠ s.pc t → s'.pc t = .evaluating k a := by
  have hi := inv_reachable h
  refine ⟨hi.errs, ?_⟩
  intro t k a s' ht he hs hne
  have key : ∀ {t' : Nat} {p : Pc Args Key Val}, Function.update s.pc t' p t ≠ s.pc t → t' = t := by
    intro t' p hh
    by_contra e
    exact hh (Function.update_of_ne (Ne.symm e) _ _)
  cases hs with
  | call t' _ _ h1 _ => have e := key hne; subst e; rw [ht] at h1; cases h1
  | keyError => exact absurd rfl hne
  | acquire t' _ _ h1 _ => have e := key hne; subst e; rw [ht] at h1; cases h1
  | hit t' k' a' v h1 h2 =>
    have e := key hne
    subst e
    rw [ht] at h1
    simp only [Pc.lookup.injEq] at h1
    obtain ⟨rfl, rfl⟩ := h1
    rw [hi.cached k v h2] at he
    cases he
  | miss t' k' a' h1 h2 =>
    have e := key hne
    subst e
    rw [ht] at h1
    simp only [Pc.lookup.injEq] at h1
    obtain ⟨rfl, rfl⟩ := h1
    exact Function.update_self _ _ _
  | evalOk t' _ _ _ h1 => have e := key hne; subst e; rw [ht] at h1; cases h1
  | evalErr t' _ _ _ h1 => have e := key hne; subst e; rw [ht] at h1; cases h1
  | store t' _ _ h1 => have e := key hne; subst e; rw [ht] at h1; cases h1
  | leave t' _ _ h1 => have e := key hne; subst e; rw [ht] at h1; cases h1

/-- How far a thread is from the end of its call. -/
def rank : Pc Args Key Val → Nat
  | .idle => 0
  | .waiting _ _ => 5
  | .lookup _ _ => 4
  | .evaluating _ _ => 3
  | .storing _ _ => 2
  | .leaving _ _ => 1

/-- **C57** Calls come back: whenever a call is in progress some thread inside the wrapper can take a step that brings it
nearer to the end of its call and leaves the other threads where they are. So no interleaving ends in a deadlock, and without
new calls everything ends after at most five steps per call. -/
theorem C57_progress (keyFn : Args → Except PyErr Key) (s : State Args Key Val) (h : Reachable keyFn s) (v : Val) (t : Nat)
    (ht : s.pc t ≠ .idle) :
    ∃ t' s', Step keyFn s s' ∧ rank (s'.pc t') < rank (s.pc t') ∧ ∀ u, u ≠ t' → s'.pc u = s.pc u := by
  have hi := inv_reachable h
  have key : ∀ t', crit (s.pc t') →
      ∃ s', Step keyFn s s' ∧ rank (s'.pc t') < rank (s.pc t') ∧ ∀ u, u ≠ t' → s'.pc u = s.pc u := by
    intro t' hc
    cases hp : s.pc t' with
    | idle => rw [hp] at hc; exact hc.elim
    | waiting k a => rw [hp] at hc; exact hc.elim
    | lookup k a =>
      cases hk : s.cache k with
      | none =>
        exact ⟨_, .miss s t' k a hp hk, by simp [rank], fun u hu => Function.update_of_ne hu _ _⟩
      | some w => exact ⟨_, .hit s t' k a w hp hk, by simp [rank], fun u hu => Function.update_of_ne hu _ _⟩
    | evaluating k a => exact ⟨_, .evalOk s t' k a v hp, by simp [rank], fun u hu => Function.update_of_ne hu _ _⟩
    | storing k w => exact ⟨_, .store s t' k w hp, by simp [rank], fun u hu => Function.update_of_ne hu _ _⟩
    | leaving k r => exact ⟨_, .leave s t' k r hp, by simp [rank], fun u hu => Function.update_of_ne hu _ _⟩
  cases hl : s.lock with
  | some t' =>
    obtain ⟨s', h1⟩ := key t' ((hi.lock t').2 hl)
    exact ⟨t', s', h1⟩
  | none =>
    have hn : ¬ crit (s.pc t) := by
      intro hc
      have := (hi.lock t).1 hc
      rw [hl] at this; cases this
    cases hp : s.pc t with
    | idle => exact absurd hp ht
    | waiting k a =>
      exact ⟨t, _, .acquire s t k a hp hl, by rw [hp]; simp [rank], fun u hu => Function.update_of_ne hu _ _⟩
    | _ => rw [hp] at hn; exact absurd trivial hn

/-- **C57** Every step is a new call, a failing key function, or brings one thread nearer to the end of its call. -/
theorem C57_steps (keyFn : Args → Except PyErr Key) (s s' : State Args Key Val) (hs : Step keyFn s s') :
    ∃ t, (∀ u, u ≠ t → s'.pc u = s.pc u) ∧ (s.pc t = .idle ∨ rank (s'.pc t) < rank (s.pc t)) := by
  cases hs with
  | call t _ _ h1 _ => exact ⟨t, fun u hu => Function.update_of_ne hu _ _, .inl h1⟩
  | keyError t _ _ h1 _ => exact ⟨t, fun _ _ => rfl, .inl h1⟩
  | acquire t _ _ h1 _ => exact ⟨t, fun u hu => Function.update_of_ne hu _ _, .inr (by rw [h1]; simp [rank])⟩
  | hit t _ _ _ h1 _ => exact ⟨t, fun u hu => Function.update_of_ne hu _ _, .inr (by rw [h1]; simp [rank])⟩
  | miss t _ _ h1 _ => exact ⟨t, fun u hu => Function.update_of_ne hu _ _, .inr (by rw [h1]; simp [rank])⟩
  | evalOk t _ _ _ h1 => exact ⟨t, fun u hu => Function.update_of_ne hu _ _, .inr (by rw [h1]; simp [rank])⟩
  | evalErr t _ _ _ h1 => exact ⟨t, fun u hu => Function.update_of_ne hu _ _, .inr (by rw [h1]; simp [rank])⟩
  | store t _ _ h1 => exact ⟨t, fun u hu => Function.update_of_ne hu _ _, .inr (by rw [h1]; simp [rank])⟩
  | leave t _ _ h1 => exact ⟨t, fun u hu => Function.update_of_ne hu _ _, .inr (by rw [h1]; simp [rank])⟩

/-- Non-vacuity: two threads call with the same key; the first evaluation fails, the second call then evaluates
successfully, and a third call gets the cached value. -/
example : ∃ s : State Nat Nat Nat, Reachable (fun a => .ok (a / 2)) s ∧
    s.hist = [.evalErr 0 3 6 .valueError, .done 0 3 (.error .valueError), .evalOk 1 3 7 42, .done 1 3 (.ok 42), .done 0 3 (.ok 42)] := by
  have r0 : Reachable (fun a : Nat => .ok (a / 2)) (init : State Nat Nat Nat) := .init
  have r1 := Reachable.step _ _ r0 (.call _ 0 6 3 rfl rfl)
  have r2 := Reachable.step _ _ r1 (.call _ 1 7 3 rfl rfl)
  have r3 := Reachable.step _ _ r2 (.acquire _ 0 3 6 rfl rfl)
  have r4 := Reachable.step _ _ r3 (.miss _ 0 3 6 rfl rfl)
  have r5 := Reachable.step _ _ r4 (.evalErr _ 0 3 6 .valueError rfl)
  have r6 := Reachable.step _ _ r5 (.leave _ 0 3 (.error .valueError) rfl)
  have r7 := Reachable.step _ _ r6 (.acquire _ 1 3 7 rfl rfl)
  have r8 := Reachable.step _ _ r7 (.miss _ 1 3 7 rfl rfl)
  have r9 := Reachable.step _ _ r8 (.call _ 0 6 3 rfl rfl)
  have r10 := Reachable.step _ _ r9 (.evalOk _ 1 3 7 42 rfl)
  have r11 := Reachable.step _ _ r10 (.store _ 1 3 42 rfl)
  have r12 := Reachable.step _ _ r11 (.leave _ 1 3 (.ok 42) rfl)
  have r13 := Reachable.step _ _ r12 (.acquire _ 0 3 6 rfl rfl)
  have r14 := Reachable.step _ _ r13 (.hit _ 0 3 6 42 rfl rfl)
  have r15 := Reachable.step _ _ r14 (.leave _ 0 3 (.ok 42) rfl)
  exact ⟨_, r15, rfl⟩

end Verif.Util.Memo
