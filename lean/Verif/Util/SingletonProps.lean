/-
C58 and C59: SingletonMixin under every interleaving.
-/
import Verif.Util.Singleton
import Mathlib.Tactic.Push

set_option autoImplicit false

namespace Verif.Util.Singleton

/-- The objects created by a class, in order. -/
def creations (c : Nat) : List Event → List Nat
  | [] => []
  | .created _ c' o :: l => if c' = c then o :: creations c l else creations c l
  | _ :: l => creations c l

theorem creations_append (c : Nat) (l l' : List Event) : creations c (l ++ l') = creations c l ++ creations c l' := by
  induction l with
  | nil => rfl
  | cons e l ih =>
    cases e <;> simp only [List.cons_append, creations, ih]
    split <;> simp

theorem mem_creations {c o : Nat} {l : List Event} : o ∈ creations c l ↔ ∃ t, Event.created t c o ∈ l := by
  induction l with
  | nil => simp [creations]
  | cons e l ih =>
    cases e with
    | created t' c' o' =>
      simp only [creations, List.mem_cons, Event.created.injEq]
      by_cases h : c' = c
      · subst h
        rw [if_pos rfl, List.mem_cons, ih]
        constructor
        · rintro (rfl | ⟨t, h⟩)
          · exact ⟨t', .inl ⟨rfl, rfl, rfl⟩⟩
          · exact ⟨t, .inr h⟩
        · rintro ⟨t, ⟨_, _, rfl⟩ | h⟩
          · exact .inl rfl
          · exact .inr ⟨t, h⟩
      · rw [if_neg h, ih]
        constructor
        · rintro ⟨t, h⟩; exact ⟨t, .inr h⟩
        · rintro ⟨t, ⟨_, rfl, _⟩ | h'⟩
          · exact absurd rfl h
          · exact ⟨t, h'⟩
    | _ => simp [creations, ih]

/-- `instance` was called on a class. -/
def Called (c : Nat) (l : List Event) : Prop := ∃ t, Event.called t c ∈ l

/-- Points at which the lock is held. -/
def crit : Pc → Prop
  | .second _ => True
  | .creating _ => True
  | .setting _ _ => True
  | .leaving _ _ => True
  | _ => False

/-- What holds at the current point of a thread. -/
def pcInv (mro : Nat → List Nat) (s : State) : Pc → Prop
  | .idle => True
  | .first c => Called c s.hist
  | .waiting c => Called c s.hist
  | .second c => Called c s.hist
  | .creating c => Called c s.hist ∧ (∀ d ∈ mro c, s.own d = none) ∧ creations c s.hist = []
  | .setting c o => Called c s.hist ∧ (∀ d ∈ mro c, s.own d = none) ∧ creations c s.hist = [o]
  | .leaving c none => Called c s.hist ∧ ∃ d ∈ mro c, s.own d ≠ none
  | .leaving c (some _) => Called c s.hist
  | .last c => Called c s.hist ∧ ∃ d ∈ mro c, s.own d ≠ none

structure Inv (mro : Nat → List Nat) (s : State) : Prop where
  lock : ∀ t, crit (s.pc t) ↔ s.lock = some t
  pcs : ∀ t, pcInv mro s (s.pc t)
  set : ∀ c o, s.own c = some o → creations c s.hist = [o]
  unset : ∀ c, s.own c = none → (∀ t o, s.pc t ≠ .setting c o) → creations c s.hist = []
  ret : ∀ t c o, .returned t c o ∈ s.hist → ∃ d ∈ mro c, ∃ x, o = some x ∧ x ∈ creations d s.hist
  called : ∀ t c o, .created t c o ∈ s.hist → Called c s.hist

theorem inv_init (mro : Nat → List Nat) : Inv mro init where
  lock t := by simp [init, crit]
  pcs t := trivial
  set c o h := by simp [init] at h
  unset c _ _ := rfl
  ret t c o h := by simp [init] at h
  called t c o h := by simp [init] at h

variable {mro : Nat → List Nat}

theorem Inv.others {s : State} (h : Inv mro s) {t : Nat} (ht : crit (s.pc t)) {t' : Nat} (hne : t' ≠ t) : ¬ crit (s.pc t') := by
  intro hc
  have h1 := (h.lock t).1 ht
  have h2 := (h.lock t').1 hc
  rw [h1] at h2
  exact hne (Option.some.inj h2).symm

theorem Called.mono {c : Nat} {l : List Event} (l' : List Event) (h : Called c l) : Called c (l ++ l') := by
  obtain ⟨t, h⟩ := h
  exact ⟨t, List.mem_append_left _ h⟩

/-- Facts about points outside the critical section survive any step. -/
theorem pcInv_stable {s s' : State} {p : Pc} {l : List Event} (hn : ¬ crit p) (h : pcInv mro s p) (hh : s'.hist = s.hist ++ l)
    (ho : ∀ c, s.own c ≠ none → s'.own c ≠ none) : pcInv mro s' p := by
  cases p with
  | idle => trivial
  | first c => show Called c s'.hist; rw [hh]; exact Called.mono l h
  | waiting c => show Called c s'.hist; rw [hh]; exact Called.mono l h
  | last c =>
    obtain ⟨h1, d, hd, h2⟩ := h
    refine ⟨?_, d, hd, ho d h2⟩
    rw [hh]; exact h1.mono l
  | _ => exact absurd trivial hn

/-- Facts about any point survive a step that only adds events other than creations. -/
theorem pcInv_hist {s s' : State} {p : Pc} {l : List Event} (h : pcInv mro s p) (hh : s'.hist = s.hist ++ l)
    (hl : ∀ c, creations c l = []) (ho : s'.own = s.own) : pcInv mro s' p := by
  have hc : ∀ c, creations c s'.hist = creations c s.hist := by
    intro c; rw [hh, creations_append, hl]; simp
  have hcl : ∀ c, Called c s.hist → Called c s'.hist := by
    intro c h; rw [hh]; exact h.mono l
  cases p with
  | idle => trivial
  | first c => exact hcl c h
  | waiting c => exact hcl c h
  | second c => exact hcl c h
  | creating c => exact ⟨hcl c h.1, by rw [ho]; exact h.2.1, by rw [hc]; exact h.2.2⟩
  | setting c o => exact ⟨hcl c h.1, by rw [ho]; exact h.2.1, by rw [hc]; exact h.2.2⟩
  | leaving c e =>
    cases e with
    | none => exact ⟨hcl c h.1, by rw [ho]; exact h.2⟩
    | some e => exact hcl c h
  | last c => exact ⟨hcl c h.1, by rw [ho]; exact h.2⟩

/-- A step that changes the point of one thread, adds events other than creations and does not touch the attributes. -/
theorem Inv.quiet {s s' : State} (h : Inv mro s) (t : Nat) (p : Pc) (l : List Event) (hpc : s'.pc = Function.update s.pc t p)
    (hh : s'.hist = s.hist ++ l) (hl : ∀ c, creations c l = []) (ho : s'.own = s.own)
    (hlock : ∀ t', crit (s'.pc t') ↔ s'.lock = some t') (hp : pcInv mro s' p)
    (hset : ∀ c o, s.pc t ≠ .setting c o)
    (hret : ∀ t c o, .returned t c o ∈ l → ∃ d ∈ mro c, ∃ x, o = some x ∧ x ∈ creations d s.hist)
    (hcr : ∀ t c o, .created t c o ∉ l) : Inv mro s' where
  lock := hlock
  pcs t' := by
    rw [hpc]
    by_cases e : t' = t
    · subst e; rw [Function.update_self]; exact hp
    · rw [Function.update_of_ne e]
      exact pcInv_hist (h.pcs t') hh hl ho
  set c o hc := by
    rw [hh, creations_append, hl, List.append_nil]
    rw [ho] at hc
    exact h.set c o hc
  unset c hc hs := by
    rw [hh, creations_append, hl, List.append_nil]
    rw [ho] at hc
    refine h.unset c hc fun t' o => ?_
    by_cases e : t' = t
    · subst e; exact hset c o
    · have := hs t' o
      rwa [hpc, Function.update_of_ne e] at this
  ret t' c o hm := by
    rw [hh] at hm
    have : ∃ d ∈ mro c, ∃ x, o = some x ∧ x ∈ creations d s.hist := by
      rcases List.mem_append.1 hm with hm | hm
      · exact h.ret t' c o hm
      · exact hret t' c o hm
    obtain ⟨d, hd, x, hx, hxc⟩ := this
    exact ⟨d, hd, x, hx, by rw [hh, creations_append]; exact List.mem_append_left _ hxc⟩
  called t' c o hm := by
    rw [hh] at hm ⊢
    rcases List.mem_append.1 hm with hm | hm
    · exact (h.called t' c o hm).mono l
    · exact absurd hm (hcr t' c o)

theorem findSome_own {s : State} {c o : Nat} (h : attr mro s c = some o) : ∃ d ∈ mro c, s.own d = some o := by
  unfold attr at h
  rw [List.findSome?_eq_some_iff] at h
  obtain ⟨l1, d, l2, e, h1, _⟩ := h
  exact ⟨d, by rw [e]; simp, h1⟩

theorem attr_none {s : State} {c : Nat} (h : attr mro s c = none) : ∀ d ∈ mro c, s.own d = none := by
  unfold attr at h
  rw [List.findSome?_eq_none_iff] at h
  exact h

theorem inv_step {truthy : Nat → Bool} (hm : ∀ c, c ∈ mro c) (htr : ∀ o, truthy o = true) {s s' : State} (h : Inv mro s)
    (hs : Step mro truthy s s') : Inv mro s' := by
  have lockOut : ∀ {t : Nat} {p : Pc}, ¬ crit (s.pc t) → ¬ crit p → ∀ t', crit (Function.update s.pc t p t') ↔ s.lock = some t' := by
    intro t p h1 h2 t'
    by_cases e : t' = t
    · subst e
      rw [Function.update_self]
      exact ⟨fun hh => absurd hh h2, fun hh => absurd ((h.lock t').2 hh) h1⟩
    · rw [Function.update_of_ne e]; exact h.lock t'
  have lockIn : ∀ {t : Nat} {p : Pc}, crit (s.pc t) → crit p → ∀ t', crit (Function.update s.pc t p t') ↔ s.lock = some t' := by
    intro t p h1 h2 t'
    by_cases e : t' = t
    · subst e
      rw [Function.update_self]
      exact ⟨fun _ => (h.lock t').1 h1, fun _ => h2⟩
    · rw [Function.update_of_ne e]; exact h.lock t'
  have lockLeave : ∀ {t : Nat} {p : Pc}, crit (s.pc t) → ¬ crit p → ∀ t', crit (Function.update s.pc t p t') ↔ (none : Option Nat) = some t' := by
    intro t p h1 h2 t'
    by_cases e : t' = t
    · subst e
      rw [Function.update_self]
      exact ⟨fun hh => absurd hh h2, fun hh => by cases hh⟩
    · rw [Function.update_of_ne e]
      exact ⟨fun hh => absurd hh (h.others h1 e), fun hh => by cases hh⟩
  cases hs with
  | call t c ht =>
    refine h.quiet t (.first c) [.called t c] rfl rfl (fun _ => rfl) rfl (lockOut (by rw [ht]; exact id) id) ?_ ?_ ?_ ?_
    · exact ⟨t, by simp⟩
    · intro c o hh; rw [ht] at hh; cases hh
    · intro t' c' o hh; simp at hh
    · intro t' c' o hh; simp at hh
  | firstHit t c o ht ha ho =>
    have hp := h.pcs t
    rw [ht] at hp
    obtain ⟨d, hd, hown⟩ := findSome_own ha
    refine h.quiet t (.last c) [] rfl (List.append_nil _).symm (fun _ => rfl) rfl (lockOut (by rw [ht]; exact id) id) ?_ ?_ ?_ ?_
    · exact ⟨hp, d, hd, by simp [hown]⟩
    · intro c o hh; rw [ht] at hh; cases hh
    · intro t' c' o hh; simp at hh
    · intro t' c' o hh; simp at hh
  | firstMiss t c ht ha =>
    have hp := h.pcs t
    rw [ht] at hp
    refine h.quiet t (.waiting c) [] rfl (List.append_nil _).symm (fun _ => rfl) rfl (lockOut (by rw [ht]; exact id) id) hp ?_ ?_ ?_
    · intro c o hh; rw [ht] at hh; cases hh
    · intro t' c' o hh; simp at hh
    · intro t' c' o hh; simp at hh
  | acquire t c ht hl =>
    have hp := h.pcs t
    rw [ht] at hp
    refine h.quiet t (.second c) [] rfl (List.append_nil _).symm (fun _ => rfl) rfl ?_ hp ?_ ?_ ?_
    · intro t'
      simp only
      by_cases e : t' = t
      · subst e; rw [Function.update_self]; exact ⟨fun _ => rfl, fun _ => trivial⟩
      · rw [Function.update_of_ne e, h.lock t', hl]
        exact ⟨fun hh => (by cases hh), fun hh => absurd (Option.some.inj hh).symm e⟩
    · intro c o hh; rw [ht] at hh; cases hh
    · intro t' c' o hh; simp at hh
    · intro t' c' o hh; simp at hh
  | secondHit t c o ht ha ho =>
    have hp := h.pcs t
    rw [ht] at hp
    obtain ⟨d, hd, hown⟩ := findSome_own ha
    refine h.quiet t (.leaving c none) [] rfl (List.append_nil _).symm (fun _ => rfl) rfl (lockIn (by rw [ht]; trivial) trivial) ?_ ?_ ?_ ?_
    · exact ⟨hp, d, hd, by simp [hown]⟩
    · intro c o hh; rw [ht] at hh; cases hh
    · intro t' c' o hh; simp at hh
    · intro t' c' o hh; simp at hh
  | secondMiss t c ht ha =>
    have hp := h.pcs t
    rw [ht] at hp
    have hcr : crit (s.pc t) := by rw [ht]; trivial
    have hnone : attr mro s c = none := by
      cases hx : attr mro s c with
      | none => rfl
      | some o => have := ha o hx; rw [htr] at this; cases this
    have hown := attr_none hnone
    refine h.quiet t (.creating c) [] rfl (List.append_nil _).symm (fun _ => rfl) rfl (lockIn (by rw [ht]; trivial) trivial) ?_ ?_ ?_ ?_
    · refine ⟨hp, hown, ?_⟩
      refine h.unset c (hown c (hm c)) fun t' o hh => ?_
      by_cases e : t' = t
      · subst e; rw [ht] at hh; cases hh
      · exact h.others hcr e (by rw [hh]; trivial)
    · intro c o hh; rw [ht] at hh; cases hh
    · intro t' c' o hh; simp at hh
    · intro t' c' o hh; simp at hh
  | create t c o ht hf =>
    have hp := h.pcs t
    rw [ht] at hp
    obtain ⟨p1, p2, p3⟩ := hp
    have hcr : crit (s.pc t) := by rw [ht]; trivial
    refine ⟨lockIn hcr trivial, ?_, ?_, ?_, ?_, ?_⟩
    · intro t'
      simp only
      by_cases e : t' = t
      · subst e
        rw [Function.update_self]
        exact ⟨p1.mono _, p2, by rw [creations_append, p3]; simp [creations]⟩
      · rw [Function.update_of_ne e]
        exact pcInv_stable (l := [.created t c o]) (h.others hcr e) (h.pcs t') rfl (fun _ hh => hh)
    · intro c' o' hc
      have hne : c ≠ c' := by
        rintro rfl
        simp only at hc
        rw [p2 c (hm c)] at hc; cases hc
      simp only at hc ⊢
      rw [creations_append, h.set c' o' hc]
      simp [creations, hne]
    · intro c' hc hst
      have hne : c ≠ c' := by
        rintro rfl
        have := hst t o
        simp only [Function.update_self] at this
        exact this rfl
      simp only at hc ⊢
      rw [creations_append, h.unset c' hc]
      · simp [creations, hne]
      · intro t' o' hh
        by_cases e : t' = t
        · subst e; rw [ht] at hh; cases hh
        · exact h.others hcr e (by rw [hh]; trivial)
    · intro t' c' o' hh
      simp only [List.mem_append, List.mem_singleton, reduceCtorEq, or_false] at hh
      obtain ⟨d, hd, x, hx, hxc⟩ := h.ret t' c' o' hh
      exact ⟨d, hd, x, hx, by simp only [creations_append]; exact List.mem_append_left _ hxc⟩
    · intro t' c' o' hh
      simp only [List.mem_append, List.mem_singleton, Event.created.injEq] at hh
      rcases hh with hh | ⟨rfl, rfl, rfl⟩
      · exact (h.called t' c' o' hh).mono _
      · exact p1.mono _
  | fail t c e ht =>
    have hp := h.pcs t
    rw [ht] at hp
    refine h.quiet t (.leaving c (some e)) [] rfl (List.append_nil _).symm (fun _ => rfl) rfl (lockIn (by rw [ht]; trivial) trivial) hp.1 ?_ ?_ ?_
    · intro c o hh; rw [ht] at hh; cases hh
    · intro t' c' o hh; simp at hh
    · intro t' c' o hh; simp at hh
  | set t c o ht =>
    have hp := h.pcs t
    rw [ht] at hp
    obtain ⟨p1, p2, p3⟩ := hp
    have hcr : crit (s.pc t) := by rw [ht]; trivial
    have hgrow : ∀ c', s.own c' ≠ none → Function.update s.own c (some o) c' ≠ none := by
      intro c' hc'
      by_cases e : c' = c
      · subst e; rw [Function.update_self]; simp
      · rw [Function.update_of_ne e]; exact hc'
    refine ⟨lockIn hcr trivial, ?_, ?_, ?_, h.ret, h.called⟩
    · intro t'
      simp only
      by_cases e : t' = t
      · subst e
        rw [Function.update_self]
        exact ⟨p1, c, hm c, by simp⟩
      · rw [Function.update_of_ne e]
        exact pcInv_stable (l := []) (h.others hcr e) (h.pcs t') (List.append_nil _).symm hgrow
    · intro c' o' hc
      simp only at hc ⊢
      by_cases e : c' = c
      · subst e
        rw [Function.update_self, Option.some.injEq] at hc
        rw [p3, hc]
      · rw [Function.update_of_ne e] at hc
        exact h.set c' o' hc
    · intro c' hc _
      simp only at hc ⊢
      by_cases e : c' = c
      · subst e
        rw [Function.update_self] at hc
        cases hc
      · rw [Function.update_of_ne e] at hc
        refine h.unset c' hc fun t' o' hh => ?_
        by_cases e' : t' = t
        · subst e'
          rw [ht] at hh
          simp only [Pc.setting.injEq] at hh
          exact e hh.1.symm
        · exact h.others hcr e' (by rw [hh]; trivial)
  | leave t c ht =>
    have hp := h.pcs t
    rw [ht] at hp
    refine h.quiet t (.last c) [] rfl (List.append_nil _).symm (fun _ => rfl) rfl (lockLeave (by rw [ht]; trivial) id) hp ?_ ?_ ?_
    · intro c o hh; rw [ht] at hh; cases hh
    · intro t' c' o hh; simp at hh
    · intro t' c' o hh; simp at hh
  | leaveErr t c e ht =>
    refine h.quiet t .idle [.raised t c e] rfl rfl (fun _ => rfl) rfl (lockLeave (by rw [ht]; trivial) id) trivial ?_ ?_ ?_
    · intro c o hh; rw [ht] at hh; cases hh
    · intro t' c' o hh; simp at hh
    · intro t' c' o hh; simp at hh
  | ret t c ht =>
    have hp := h.pcs t
    rw [ht] at hp
    obtain ⟨p1, d, hd, p2⟩ := hp
    refine h.quiet t .idle [.returned t c (attr mro s c)] rfl rfl (fun _ => rfl) rfl (lockOut (by rw [ht]; exact id) id) trivial ?_ ?_ ?_
    · intro c o hh; rw [ht] at hh; cases hh
    · intro t' c' o hh
      simp only [List.mem_singleton, Event.returned.injEq] at hh
      obtain ⟨rfl, rfl, rfl⟩ := hh
      cases hx : attr mro s c' with
      | none => exact absurd (attr_none hx d hd) p2
      | some x =>
        obtain ⟨d', hd', hown⟩ := findSome_own hx
        refine ⟨d', hd', x, rfl, ?_⟩
        rw [h.set d' x hown]; simp
    · intro t' c' o hh; simp at hh

theorem inv_reachable {truthy : Nat → Bool} (hm : ∀ c, c ∈ mro c) (htr : ∀ o, truthy o = true) {s : State}
    (h : Reachable mro truthy s) : Inv mro s := by
  induction h with
  | init => exact inv_init mro
  | step s s' _ hs ih => exact inv_step hm htr ih hs

/-! ### C58 -/

/-- **C58** Whatever the interleaving, a class creates at most one instance (instances are true in a boolean context). -/
theorem C58_once (truthy : Nat → Bool) (hm : ∀ c, c ∈ mro c) (htr : ∀ o, truthy o = true) (s : State)
    (h : Reachable mro truthy s) (c : Nat) : (creations c s.hist).length ≤ 1 := by
  have hi := inv_reachable hm htr h
  cases hc : s.own c with
  | some o => rw [hi.set c o hc]; simp
  | none =>
    by_cases hst : ∃ t o, s.pc t = .setting c o
    · obtain ⟨t, o, ht⟩ := hst
      have := hi.pcs t
      rw [ht] at this
      rw [this.2.2]; simp
    · push Not at hst
      rw [hi.unset c hc hst]; simp

/-- **C58** If `instance` was not called on the other classes a class inherits from, all calls on the class that return give
the one instance the class created, whatever the interleaving. -/
theorem C58_same (truthy : Nat → Bool) (hm : ∀ c, c ∈ mro c) (htr : ∀ o, truthy o = true) (s : State)
    (h : Reachable mro truthy s) (c : Nat) (hother : ∀ d ∈ mro c, d ≠ c → ∀ t, .called t d ∉ s.hist) (t : Nat) (o : Option Nat)
    (hr : .returned t c o ∈ s.hist) :
    ∃ x, o = some x ∧ (∃ t', .created t' c x ∈ s.hist) ∧ ∀ t' o', .returned t' c o' ∈ s.hist → o' = some x := by
  have hi := inv_reachable hm htr h
  have key : ∀ t o, .returned t c o ∈ s.hist → ∃ x, o = some x ∧ x ∈ creations c s.hist := by
    intro t o hr
    obtain ⟨d, hd, x, hx, hxc⟩ := hi.ret t c o hr
    obtain ⟨t', ht'⟩ := mem_creations.1 hxc
    obtain ⟨t'', hcall⟩ := hi.called t' d x ht'
    have : d = c := by
      by_contra hne
      exact hother d hd hne t'' hcall
    subst this
    exact ⟨x, hx, hxc⟩
  obtain ⟨x, hx, hxc⟩ := key t o hr
  refine ⟨x, hx, mem_creations.1 hxc, ?_⟩
  intro t' o' hr'
  obtain ⟨x', hx', hxc'⟩ := key t' o' hr'
  have hlen := C58_once truthy hm htr s h c
  rcases hl : creations c s.hist with _ | ⟨a, l⟩
  · rw [hl] at hxc; cases hxc
  · rw [hl] at hxc hxc' hlen
    have : l = [] := by
      simp only [List.length_cons] at hlen
      exact List.length_eq_zero_iff.1 (by omega)
    subst this
    simp only [List.mem_singleton] at hxc hxc'
    rw [hx', hxc', hxc]

/-- How far a thread is from the end of its call. -/
def rank : Pc → Nat
  | .idle => 0
  | .first _ => 7
  | .waiting _ => 6
  | .second _ => 5
  | .creating _ => 4
  | .setting _ _ => 3
  | .leaving _ _ => 2
  | .last _ => 1

/-- **C58** Calls come back: whenever a call is in progress some thread can take a step towards the end of its call (a
constructor may return or raise), so no interleaving ends in a deadlock. -/
theorem C58_progress (truthy : Nat → Bool) (hm : ∀ c, c ∈ mro c) (htr : ∀ o, truthy o = true) (s : State)
    (h : Reachable mro truthy s) (t : Nat) (ht : s.pc t ≠ .idle) :
    ∃ t' s', Step mro truthy s s' ∧ rank (s'.pc t') < rank (s.pc t') ∧ ∀ u, u ≠ t' → s'.pc u = s.pc u := by
  have hi := inv_reachable hm htr h
  have attrCases : ∀ c, (∃ o, attr mro s c = some o ∧ truthy o = true) ∨ ∀ o, attr mro s c = some o → truthy o = false := by
    intro c
    cases hx : attr mro s c with
    | none => right; intro o ho; cases ho
    | some o => left; exact ⟨o, rfl, htr o⟩
  have key : ∀ t', crit (s.pc t') →
      ∃ s', Step mro truthy s s' ∧ rank (s'.pc t') < rank (s.pc t') ∧ ∀ u, u ≠ t' → s'.pc u = s.pc u := by
    intro t' hc
    cases hp : s.pc t' with
    | second c =>
      rcases attrCases c with ⟨o, h1, h2⟩ | h1
      · exact ⟨_, .secondHit s t' c o hp h1 h2, by simp [rank], fun u hu => Function.update_of_ne hu _ _⟩
      · exact ⟨_, .secondMiss s t' c hp h1, by simp [rank], fun u hu => Function.update_of_ne hu _ _⟩
    | creating c => exact ⟨_, .fail s t' c .valueError hp, by simp [rank], fun u hu => Function.update_of_ne hu _ _⟩
    | setting c o => exact ⟨_, .set s t' c o hp, by simp [rank], fun u hu => Function.update_of_ne hu _ _⟩
    | leaving c e =>
      cases e with
      | none => exact ⟨_, .leave s t' c hp, by simp [rank], fun u hu => Function.update_of_ne hu _ _⟩
      | some e => exact ⟨_, .leaveErr s t' c e hp, by simp [rank], fun u hu => Function.update_of_ne hu _ _⟩
    | _ => rw [hp] at hc; exact hc.elim
  cases hl : s.lock with
  | some t' =>
    obtain ⟨s', h1⟩ := key t' ((hi.lock t').2 hl)
    exact ⟨t', s', h1⟩
  | none =>
    have hn : ¬ crit (s.pc t) := by
      intro hc
      have := (hi.lock t).1 hc
      rw [hl] at this; cases this
    cases hp : s.pc t with
    | idle => exact absurd hp ht
    | first c =>
      rcases attrCases c with ⟨o, h1, h2⟩ | h1
      · exact ⟨t, _, .firstHit s t c o hp h1 h2, by rw [hp]; simp [rank], fun u hu => Function.update_of_ne hu _ _⟩
      · exact ⟨t, _, .firstMiss s t c hp h1, by rw [hp]; simp [rank], fun u hu => Function.update_of_ne hu _ _⟩
    | waiting c => exact ⟨t, _, .acquire s t c hp hl, by rw [hp]; simp [rank], fun u hu => Function.update_of_ne hu _ _⟩
    | last c => exact ⟨t, _, .ret s t c hp, by rw [hp]; simp [rank], fun u hu => Function.update_of_ne hu _ _⟩
    | _ => rw [hp] at hn; exact absurd trivial hn

/-- A call of an otherwise idle system that creates an instance. -/
theorem run_create {truthy : Nat → Bool} {s : State} (h : Reachable mro truthy s) (t c o : Nat) (hidle : ∀ u, s.pc u = .idle)
    (hl : s.lock = none) (hfresh : Fresh s o) (hmiss : ∀ x, attr mro s c = some x → truthy x = false) :
    Reachable mro truthy ⟨none, Function.update s.own c (some o), fun _ => .idle,
      s.hist ++ [.called t c, .created t c o, .returned t c ((mro c).findSome? (Function.update s.own c (some o)))]⟩ := by
  obtain ⟨lock, own, pc, hist⟩ := s
  simp only at hidle hl
  subst hl
  have hpc : pc = fun _ => .idle := funext hidle
  subst hpc
  have r1 := Reachable.step _ _ h (.call _ t c rfl)
  have r2 := Reachable.step _ _ r1 (.firstMiss _ t c (by simp) hmiss)
  have r3 := Reachable.step _ _ r2 (.acquire _ t c (by simp) rfl)
  have r4 := Reachable.step _ _ r3 (.secondMiss _ t c (by simp) hmiss)
  have r5 := Reachable.step _ _ r4 (.create _ t c o (by simp) (by
    intro t' c' hh
    simp only [List.mem_append, List.mem_singleton, reduceCtorEq, or_false] at hh
    exact hfresh t' c' hh))
  have r6 := Reachable.step _ _ r5 (.set _ t c o (by simp))
  have r7 := Reachable.step _ _ r6 (.leave _ t c (by simp))
  have r8 := Reachable.step _ _ r7 (.ret _ t c (by simp))
  simp only [Function.update_idem, List.append_assoc, List.cons_append, List.nil_append] at r8
  have e : Function.update (fun _ : Nat => Pc.idle) t .idle = fun _ => .idle := by
    funext u
    by_cases hu : u = t
    · subst hu; exact Function.update_self _ _ _
    · exact Function.update_of_ne hu _ _
  rw [e] at r8
  exact r8

/-- A call of an otherwise idle system that finds an instance. -/
theorem run_hit {truthy : Nat → Bool} {s : State} (h : Reachable mro truthy s) (t c o : Nat) (hidle : ∀ u, s.pc u = .idle)
    (ha : attr mro s c = some o) (ho : truthy o = true) :
    Reachable mro truthy ⟨s.lock, s.own, fun _ => .idle, s.hist ++ [.called t c, .returned t c (some o)]⟩ := by
  obtain ⟨lock, own, pc, hist⟩ := s
  simp only at hidle
  have hpc : pc = fun _ => .idle := funext hidle
  subst hpc
  have r1 := Reachable.step _ _ h (.call _ t c rfl)
  have r2 := Reachable.step _ _ r1 (.firstHit _ t c o (by simp) ha ho)
  have r3 := Reachable.step _ _ r2 (.ret _ t c (by simp))
  simp only [Function.update_idem, List.append_assoc, List.singleton_append] at r3
  have e : Function.update (fun _ : Nat => Pc.idle) t .idle = fun _ => .idle := by
    funext u
    by_cases hu : u = t
    · subst hu; exact Function.update_self _ _ _
    · exact Function.update_of_ne hu _ _
  rw [e] at r3
  have ea : ∀ l p, attr mro ⟨lock, own, p, l⟩ c = attr mro ⟨lock, own, fun _ => .idle, hist⟩ c := fun _ _ => rfl
  rw [ea, ha] at r3
  exact r3

/-- Instances that are false in a boolean context: the second call creates a second instance, so the assumption on instances
in C58 is needed. -/
theorem C58_falsy : ∃ s, Reachable (fun c => [c]) (fun _ => false) s ∧
    s.hist = [.called 0 0, .created 0 0 5, .returned 0 0 (some 5), .called 0 0, .created 0 0 6, .returned 0 0 (some 6)] := by
  have r1 := run_create (mro := fun c => [c]) (truthy := fun _ => false) .init 0 0 5 (fun _ => rfl) rfl
    (by intro t c h; cases h) (fun _ _ => rfl)
  have r2 := run_create r1 0 0 6 (fun _ => rfl) rfl (by intro t c h; simp [init] at h) (fun _ _ => rfl)
  exact ⟨_, r2, rfl⟩

/-! ### C59 -/

/-- **C59** The claim fails: if `instance` was called on the parent before, the subclass returns the parent's instance and never
creates its own. Class 1 is derived from class 0. -/
theorem C59_violated : ∃ s, Reachable (fun c => if c = 1 then [1, 0] else [c]) (fun _ => true) s ∧
    s.hist = [.called 0 0, .created 0 0 5, .returned 0 0 (some 5), .called 0 1, .returned 0 1 (some 5)] := by
  have r1 := run_create (mro := fun c => if c = 1 then [1, 0] else [c]) (truthy := fun _ => true) .init 0 0 5 (fun _ => rfl) rfl
    (by intro t c h; cases h) (by intro x hx; cases hx)
  have r2 := run_hit r1 0 1 5 (fun _ => rfl) rfl rfl
  exact ⟨_, r2, rfl⟩

/-- **C59** With two parents one class can even return two different objects: class 2 is derived from classes 0 and 1. -/
theorem C59_violated_two_objects : ∃ s, Reachable (fun c => if c = 2 then [2, 0, 1] else [c]) (fun _ => true) s ∧
    s.hist = [.called 0 1, .created 0 1 5, .returned 0 1 (some 5), .called 0 2, .returned 0 2 (some 5),
      .called 0 0, .created 0 0 6, .returned 0 0 (some 6), .called 0 2, .returned 0 2 (some 6)] := by
  have r1 := run_create (mro := fun c => if c = 2 then [2, 0, 1] else [c]) (truthy := fun _ => true) .init 0 1 5 (fun _ => rfl) rfl
    (by intro t c h; cases h) (by intro x hx; cases hx)
  have r2 := run_hit r1 0 2 5 (fun _ => rfl) rfl rfl
  have r3 := run_create r2 0 0 6 (fun _ => rfl) rfl (by intro t c h; simp [init] at h) (by intro x hx; cases hx)
  have r4 := run_hit r3 0 2 6 (fun _ => rfl) rfl rfl
  exact ⟨_, r4, rfl⟩

/-- **C59** What holds: a returned object is an instance created by the class or one of the classes it inherits from. It is an
instance of the class itself if `instance` was not called on the others (C58_same). What is missing is independence from the
parents. -/
theorem C59_partial (truthy : Nat → Bool) (hm : ∀ c, c ∈ mro c) (htr : ∀ o, truthy o = true) (s : State)
    (h : Reachable mro truthy s) (t c : Nat) (o : Option Nat) (hr : .returned t c o ∈ s.hist) :
    ∃ d ∈ mro c, ∃ x t', o = some x ∧ .created t' d x ∈ s.hist := by
  obtain ⟨d, hd, x, hx, hxc⟩ := (inv_reachable hm htr h).ret t c o hr
  obtain ⟨t', ht'⟩ := mem_creations.1 hxc
  exact ⟨d, hd, x, t', hx, ht'⟩

/-- Non-vacuity: two threads both see no instance before either takes the lock; only the first creates one. -/
example : ∃ s, Reachable (fun c => [c]) (fun _ => true) s ∧
    s.hist = [.called 0 0, .called 1 0, .created 0 0 5, .returned 1 0 (some 5), .returned 0 0 (some 5)] := by
  have r0 : Reachable (fun c => [c]) (fun _ => true) init := .init
  have r1 := Reachable.step _ _ r0 (.call _ 0 0 rfl)
  have r2 := Reachable.step _ _ r1 (.call _ 1 0 rfl)
  have r3 := Reachable.step _ _ r2 (.firstMiss _ 0 0 rfl (by intro o h; cases h))
  have r4 := Reachable.step _ _ r3 (.firstMiss _ 1 0 rfl (by intro o h; cases h))
  have r5 := Reachable.step _ _ r4 (.acquire _ 0 0 rfl rfl)
  have r6 := Reachable.step _ _ r5 (.secondMiss _ 0 0 rfl (by intro o h; cases h))
  have r7 := Reachable.step _ _ r6 (.create _ 0 0 5 rfl (by intro t c h; simp [init] at h))
  have r8 := Reachable.step _ _ r7 (.set _ 0 0 5 rfl)
  have r9 := Reachable.step _ _ r8 (.leave _ 0 0 rfl)
  have r10 := Reachable.step _ _ r9 (.acquire _ 1 0 rfl rfl)
  have r11 := Reachable.step _ _ r10 (.secondHit _ 1 0 5 rfl rfl rfl)
  have r12 := Reachable.step _ _ r11 (.leave _ 1 0 rfl)
  have r13 := Reachable.step _ _ r12 (.ret _ 1 0 rfl)
  have r14 := Reachable.step _ _ r13 (.ret _ 0 0 rfl)
  exact ⟨_, r14, rfl⟩

end Verif.Util.Singleton
