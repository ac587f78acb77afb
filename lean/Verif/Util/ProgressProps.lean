/-
C64, C108 and C109: the progress bar.
-/
import Verif.Util.Progress
import Mathlib.Tactic.Ring
import Mathlib.Tactic.Linarith
import Mathlib.Tactic.Positivity
import Mathlib.Tactic.FieldSimp
import Mathlib.Tactic.NormNum
import Mathlib.Tactic.Push
import Mathlib.Data.List.Perm.Subperm
import Mathlib.Data.List.Nodup
import Mathlib.Logic.Relation

set_option autoImplicit false
set_option linter.unusedSectionVars false

namespace Verif.Util.Progress

/-! ## C64: times -/

/-- Seconds of a unit. -/
def unit (c : Char) : ℚ :=
  if c = 'w' then 7 * 24 * 60 * 60 else if c = 'd' then 24 * 60 * 60 else if c = 'h' then 60 * 60 else if c = 'm' then 60 else 1

/-- The time that is shown, in seconds. -/
def Shown.value : Shown → ℚ
  | .two a ua b ub => a * unit ua + b * unit ub
  | .secs s => s

theorem roundEven_spec (x : ℚ) : |x - roundEven x| ≤ 1 / 2 ∧ ⌊x⌋ ≤ roundEven x ∧ roundEven x ≤ ⌊x⌋ + 1 := by
  have h1 := Int.floor_le x
  have h2 := Int.lt_floor_add_one x
  unfold roundEven
  split_ifs with a b c
  · refine ⟨?_, le_rfl, by omega⟩
    rw [abs_le]
    constructor <;> linarith
  · refine ⟨?_, by omega, le_rfl⟩
    push_cast
    rw [abs_le]
    constructor <;> linarith
  · refine ⟨?_, le_rfl, by omega⟩
    rw [abs_le]
    constructor <;> linarith
  · refine ⟨?_, by omega, le_rfl⟩
    push_cast
    rw [abs_le]
    constructor <;> linarith

/-- C64: for every time `t`, what is shown is `t` in the two largest units it has: weeks and days, days and hours, hours and minutes
(rounded down to the smaller unit), minutes and seconds or seconds (rounded to the nearest second). -/
theorem C64_shown (t : ℚ) :
    (∃ w d : ℤ, shown t = .two w 'w' d 'd' ∧ w ≠ 0 ∧ 0 ≤ d ∧ d < 7 ∧ 0 ≤ t - (shown t).value ∧ t - (shown t).value < unit 'd') ∨
    (∃ d h : ℤ, shown t = .two d 'd' h 'h' ∧ 0 < d ∧ d < 7 ∧ 0 ≤ h ∧ h < 24 ∧ 0 ≤ t - (shown t).value ∧ t - (shown t).value < unit 'h') ∨
    (∃ h m : ℤ, shown t = .two h 'h' m 'm' ∧ 0 < h ∧ h < 24 ∧ 0 ≤ m ∧ m < 60 ∧ 0 ≤ t - (shown t).value ∧ t - (shown t).value < unit 'm') ∨
    (∃ m s : ℤ, shown t = .two m 'm' s 's' ∧ 0 < m ∧ m < 60 ∧ 0 ≤ s ∧ s ≤ 60 ∧ |t - (shown t).value| ≤ 1 / 2 ∧ unit 'm' * m ≤ t ∧
      t < unit 'm' * (m + 1)) ∨
    (∃ s : ℤ, shown t = .secs s ∧ 0 ≤ s ∧ s ≤ 60 ∧ |t - (shown t).value| ≤ 1 / 2 ∧ 0 ≤ t ∧ t < unit 'm') := by
  have f1 := Int.floor_le (t / 60)
  have f2 := Int.lt_floor_add_one (t / 60)
  rw [le_div_iff₀ (by norm_num)] at f1
  rw [div_lt_iff₀ (by norm_num)] at f2
  have u1 : unit 'w' = 604800 := by decide +kernel
  have u2 : unit 'd' = 86400 := by decide +kernel
  have u3 : unit 'h' = 3600 := by decide +kernel
  have u4 : unit 'm' = 60 := by decide +kernel
  have u5 : unit 's' = 1 := by decide +kernel
  unfold shown divmod
  simp only [Int.cast_ofNat]
  generalize ⌊t / 60⌋ = M at *
  obtain ⟨r1, r2, r3⟩ := roundEven_spec (t - 60 * M)
  have g1 : 0 ≤ ⌊t - 60 * M⌋ := Int.floor_nonneg.2 (by linarith)
  have g2 : ⌊t - 60 * M⌋ < 60 := Int.floor_lt.2 (by push_cast; linarith)
  generalize roundEven (t - 60 * M) = s at *
  generalize e1 : M / 60 = H
  generalize e2 : M % 60 = m
  generalize e3 : H / 24 = D
  generalize e4 : H % 24 = h
  generalize e5 : D / 7 = w
  generalize e6 : D % 7 = d
  have k1 : M = 60 * H + m := by omega
  have k2 : H = 24 * D + h := by omega
  have k3 : D = 7 * w + d := by omega
  have q1 : (M : ℚ) = 60 * (24 * (7 * w + d) + h) + m := by rw [k1, k2, k3]; push_cast; ring
  have b1 : 0 ≤ m ∧ m ≤ 59 := by omega
  have b2 : 0 ≤ h ∧ h ≤ 23 := by omega
  have b3 : 0 ≤ d ∧ d ≤ 6 := by omega
  have c1 : (0 : ℚ) ≤ m ∧ (m : ℚ) ≤ 59 := by exact_mod_cast b1
  have c2 : (0 : ℚ) ≤ h ∧ (h : ℚ) ≤ 23 := by exact_mod_cast b2
  split_ifs with a1 a2 a3 a4
  · refine Or.inl ⟨w, d, rfl, a1, by omega, by omega, ?_⟩
    simp only [Shown.value, u1, u2]
    constructor <;> linarith
  · refine Or.inr (Or.inl ⟨d, h, rfl, by omega, by omega, by omega, by omega, ?_⟩)
    push Not at a1
    rw [a1] at q1
    simp only [Shown.value, u2, u3]
    push_cast at q1
    constructor <;> linarith
  · refine Or.inr (Or.inr (Or.inl ⟨h, m, rfl, by omega, by omega, by omega, by omega, ?_⟩))
    push Not at a1 a2
    rw [a1, a2] at q1
    simp only [Shown.value, u3, u4]
    push_cast at q1
    constructor <;> linarith
  · push Not at a1 a2 a3
    rw [a1, a2, a3] at q1
    push_cast at q1
    have q2 : (M : ℚ) = m := by linarith
    refine Or.inr (Or.inr (Or.inr (Or.inl ⟨m, s, rfl, by omega, by omega, by omega, by omega, ?_, ?_, ?_⟩)))
    · simp only [Shown.value, u4, u5]
      rw [q2] at r1
      rw [show t - (m * 60 + s * 1) = t - 60 * m - (s : ℚ) by ring]
      exact r1
    · rw [u4]; linarith
    · rw [u4]; linarith
  · push Not at a1 a2 a3 a4
    rw [a1, a2, a3, a4] at q1
    push_cast at q1
    have q2 : (M : ℚ) = 0 := by linarith
    refine Or.inr (Or.inr (Or.inr (Or.inr ⟨s, rfl, by omega, by omega, ?_, ?_, ?_⟩)))
    · simp only [Shown.value]
      rw [q2] at r1
      simpa using r1
    · linarith
    · rw [u4]; linarith

/-- C64: a time half-way between two seconds is shown with the even one, if the seconds are shown. -/
theorem C64_halves (t : ℚ) (s : ℤ) (h : shown t = .secs s ∨ ∃ m, shown t = .two m 'm' s 's') (hh : |t - (shown t).value| = 1 / 2) :
    s % 2 = 0 := by
  have hev : ∀ x : ℚ, |x - roundEven x| = 1 / 2 → roundEven x % 2 = 0 := by
    intro x
    have h1 := Int.floor_le x
    have h2 := Int.lt_floor_add_one x
    unfold roundEven
    split_ifs with a b c
    · intro h
      rw [abs_of_nonneg (by linarith)] at h
      linarith
    · intro h
      push_cast at h
      rw [abs_of_nonpos (by linarith)] at h
      linarith
    · exact fun _ => c
    · exact fun _ => by omega
  have u4 : unit 'm' = 60 := by decide +kernel
  have u5 : unit 's' = 1 := by decide +kernel
  unfold shown divmod at h hh
  simp only [Int.cast_ofNat] at h hh
  generalize eM : ⌊t / 60⌋ = M at *
  have key : ∀ m : ℤ, M = m → |t - (m * 60 + roundEven (t - 60 * M) * 1)| = 1 / 2 → roundEven (t - 60 * M) % 2 = 0 := by
    intro m e h
    apply hev
    rw [← h, e]
    congr 1
    ring
  split_ifs at h hh with a1 a2 a3 a4
  · simp at h
  · simp at h
  · simp at h
  · simp only [Shown.two.injEq, and_true, true_and, false_or, exists_eq_left'] at h
    simp only [Shown.value, u4, u5] at hh
    rcases h with ⟨_, rfl⟩
    exact key _ (by omega) hh
  · simp only [Shown.secs.injEq, exists_false, or_false] at h
    simp only [Shown.value] at hh
    subst h
    refine key 0 (by omega) ?_
    simpa using hh

/-- Thirty and a half seconds, and thirty-one and a half. -/
example : shown (61 / 2) = .secs 30 ∧ shown (63 / 2) = .secs 32 := by decide +kernel

theorem pad_two (x : ℤ) (h0 : 0 ≤ x) (h1 : x < 100) : (pad 2 x).length = 2 := by
  have : ∀ x : Fin 100, (pad 2 ((x : Nat) : ℤ)).length = 2 := by decide +kernel
  have h := this ⟨x.toNat, by omega⟩
  rwa [show ((x.toNat : Nat) : ℤ) = x by omega] at h

theorem pad_five (x : ℤ) (h0 : 0 ≤ x) (h1 : x < 100) : (pad 5 x).length = 5 := by
  have : ∀ x : Fin 100, (pad 5 ((x : Nat) : ℤ)).length = 5 := by decide +kernel
  have h := this ⟨x.toNat, by omega⟩
  rwa [show ((x.toNat : Nat) : ℤ) = x by omega] at h

/-- C64: every time below 100 weeks is shown in six characters. -/
theorem C64_width (t : ℚ) (h0 : 0 ≤ t) (h1 : t < 100 * unit 'w') : (formatTime t).length = 6 := by
  unfold formatTime
  have u1 : unit 'w' = 604800 := by decide +kernel
  have u2 : unit 'd' = 86400 := by decide +kernel
  rcases C64_shown t with ⟨a, b, e, h⟩ | ⟨a, b, e, h⟩ | ⟨a, b, e, h⟩ | ⟨a, b, e, h⟩ | ⟨a, e, h⟩
  · rw [e] at h ⊢
    obtain ⟨-, hb0, hb1, hv, hv'⟩ := h
    simp only [Shown.value, u1, u2] at hv hv'
    have hb0' : (0 : ℚ) ≤ b := by exact_mod_cast hb0
    have hb1' : (b : ℚ) ≤ 6 := by exact_mod_cast (by omega : b ≤ 6)
    have hq1 : -1 < (a : ℚ) := by linarith
    have hq2 : (a : ℚ) < 100 := by rw [u1] at h1; linarith
    have ha1 : -1 < a := by exact_mod_cast hq1
    have ha2 : a < 100 := by exact_mod_cast hq2
    simp [Shown.text, pad_two a (by omega) ha2, pad_two b (by omega) (by omega)]
  all_goals rw [e]
  · simp [Shown.text, pad_two a (by omega) (by omega), pad_two b (by omega) (by omega)]
  · simp [Shown.text, pad_two a (by omega) (by omega), pad_two b (by omega) (by omega)]
  · simp [Shown.text, pad_two a (by omega) (by omega), pad_two b (by omega) (by omega)]
  · simp [Shown.text, pad_five a (by omega) (by omega)]

/-- The seconds may be shown as 60: 119.6 seconds are one minute and 60 seconds. -/
example : formatTime (1196 / 10) = " 1m60s".toList := by decide +kernel

example : formatTime 788645 = " 1w 2d".toList := by decide +kernel

/-! ## C64: counts -/

variable {K B : Type} [DecidableEq K] [DecidableEq B]

/-- The tasks that were finished. -/
def posted : List (Event K) → List K
  | [] => []
  | .pre _ _ :: es => posted es
  | .post k _ :: es => k :: posted es

/-- The time of an event. -/
def Event.now : Event K → ℚ
  | .pre _ t => t
  | .post _ t => t

theorem begin_spec (bin : K → B) (keys : List K) (b : B) :
    ((begin bin keys).data b).total = (keys.filter fun k => bin k = b).length ∧ ((begin bin keys).data b).completed = 0 ∧
      ((begin bin keys).data b).timeSum = 0 := by
  have : ∀ (d : B → TaskData),
      ((keys.foldl (fun d k => Function.update d (bin k) { d (bin k) with total := (d (bin k)).total + 1 }) d) b).total =
        (d b).total + (keys.filter fun k => bin k = b).length ∧
      ((keys.foldl (fun d k => Function.update d (bin k) { d (bin k) with total := (d (bin k)).total + 1 }) d) b).completed = (d b).completed ∧
      ((keys.foldl (fun d k => Function.update d (bin k) { d (bin k) with total := (d (bin k)).total + 1 }) d) b).timeSum = (d b).timeSum := by
    induction keys with
    | nil => intro d; simp
    | cons k ks ih =>
      intro d
      rw [List.foldl_cons]
      obtain ⟨h1, h2, h3⟩ := ih (Function.update d (bin k) { d (bin k) with total := (d (bin k)).total + 1 })
      rw [h1, h2, h3]
      by_cases hb : bin k = b
      · subst hb
        simp
        omega
      · rw [Function.update_of_ne (Ne.symm hb)]
        simp [hb]
  have h := this fun _ => {}
  simpa [begin] using h

theorem run_data (bin : K → B) (es : List (Event K)) (s s' : Bar K B) (h : run bin s es = .ok s') (b : B) :
    (s'.data b).total = (s.data b).total ∧
    (s'.data b).completed = (s.data b).completed + ((posted es).filter fun k => bin k = b).length := by
  induction es generalizing s with
  | nil =>
    cases h
    simp [posted]
  | cons e es ih =>
    rw [run] at h
    cases e with
    | pre k now =>
      obtain ⟨h1, h2⟩ := ih _ h
      rw [h1, h2]
      exact ⟨rfl, rfl⟩
    | post k now =>
      rw [step] at h
      cases hs : s.start k with
      | none => rw [hs] at h; cases h
      | some t =>
        rw [hs] at h
        obtain ⟨h1, h2⟩ := ih _ h
        rw [h1, h2]
        by_cases hb : bin k = b
        · subst hb
          simp [posted]
          omega
        · simp [posted, hb, Function.update_of_ne (Ne.symm hb)]

/-- C64: the total of a bin is the number of its tasks, and in every history of callbacks in which no task is finished twice, the
number of completed tasks of a bin is the number of its tasks that were finished and never exceeds the total; it equals the total
exactly if all tasks of the bin are finished. -/
theorem C64_counts (bin : K → B) (keys : List K) (es : List (Event K)) (s : Bar K B) (hkeys : keys.Nodup)
    (honce : (posted es).Nodup) (hsub : ∀ k ∈ posted es, k ∈ keys) (h : run bin (begin bin keys) es = .ok s) (b : B) :
    (s.data b).total = (keys.filter fun k => bin k = b).length ∧
    (s.data b).completed = ((posted es).filter fun k => bin k = b).length ∧
    (s.data b).completed ≤ (s.data b).total ∧
    ((s.data b).completed = (s.data b).total ↔ ∀ k ∈ keys, bin k = b → k ∈ posted es) := by
  obtain ⟨h1, h2⟩ := run_data bin es _ s h b
  obtain ⟨i1, i2, -⟩ := begin_spec bin keys b
  rw [i1] at h1
  rw [i2, zero_add] at h2
  have sp : ((posted es).filter fun k => bin k = b).Subperm (keys.filter fun k => bin k = b) := by
    refine (honce.filter _).subperm ?_
    intro k hk
    rw [List.mem_filter] at hk ⊢
    exact ⟨hsub k hk.1, hk.2⟩
  refine ⟨h1, h2, ?_, ?_⟩
  · rw [h1, h2]
    exact sp.length_le
  · rw [h1, h2]
    constructor
    · intro e k hk hb
      have hp := sp.perm_of_length_le e.ge
      have : k ∈ keys.filter fun k => bin k = b := by simp [hk, hb]
      exact (List.mem_filter.1 (hp.mem_iff.2 this)).1
    · intro hall
      refine le_antisymm sp.length_le (List.Subperm.length_le ((hkeys.filter _).subperm ?_))
      intro k hk
      rw [List.mem_filter] at hk ⊢
      exact ⟨hall k hk.1 (by simpa using hk.2), hk.2⟩

/-- C64: no callback fails if every finished task was started before and none is finished twice. -/
theorem C64_no_error (bin : K → B) (s : Bar K B) (es : List (Event K)) (honce : (posted es).Nodup)
    (hpre : ∀ l₁ k now l₂, es = l₁ ++ Event.post k now :: l₂ → ∃ t, Event.pre k t ∈ l₁) : ∃ s', run bin s es = .ok s' := by
  have gen : ∀ (es : List (Event K)) (s : Bar K B), (posted es).Nodup →
      (∀ l₁ k now l₂, es = l₁ ++ Event.post k now :: l₂ → s.start k ≠ none ∨ ∃ t, Event.pre k t ∈ l₁) → ∃ s', run bin s es = .ok s' := by
    intro es
    induction es with
    | nil => intro s _ _; exact ⟨s, rfl⟩
    | cons e es ih =>
      intro s hn hp
      rw [run]
      cases e with
      | pre k now =>
        refine ih _ hn ?_
        intro l₁ k' now' l₂ he
        rcases hp (Event.pre k now :: l₁) k' now' l₂ (by rw [he]; rfl) with h | ⟨t, h⟩
        · left
          by_cases hk : k' = k
          · subst hk; simp
          · simpa [Function.update_of_ne hk] using h
        · rcases List.mem_cons.1 h with h | h
          · cases h
            left; simp
          · exact Or.inr ⟨t, h⟩
      | post k now =>
        rcases hp [] k now es rfl with h | ⟨t, h⟩
        · rw [step]
          cases hs : s.start k with
          | none => exact absurd hs h
          | some t =>
            refine ih _ (List.nodup_cons.1 hn).2 ?_
            intro l₁ k' now' l₂ he
            have hne : k' ≠ k := by
              intro hk
              subst hk
              apply (List.nodup_cons.1 hn).1
              rw [he]
              clear * -
              induction l₁ with
              | nil => simp [posted]
              | cons a l ih => cases a <;> simp [posted, ih]
            rcases hp (Event.post k now :: l₁) k' now' l₂ (by rw [he]; rfl) with h | ⟨t, h⟩
            · left
              simpa [Function.update_of_ne hne] using h
            · rcases List.mem_cons.1 h with h | h
              · cases h
              · exact Or.inr ⟨t, h⟩
        · simp at h
  exact gen es s honce fun l₁ k now l₂ he => Or.inr (hpre l₁ k now l₂ he)

/-- C64: if the clock does not go backwards, the time spent in a bin is never negative. -/
theorem C64_time (bin : K → B) (keys : List K) (es : List (Event K)) (s : Bar K B) (hclock : (es.map Event.now).Pairwise (· ≤ ·))
    (h : run bin (begin bin keys) es = .ok s) (b : B) : 0 ≤ (s.data b).timeSum := by
  have gen : ∀ (es : List (Event K)) (s s' : Bar K B), (es.map Event.now).Pairwise (· ≤ ·) → run bin s es = .ok s' →
      (∀ k t, s.start k = some t → ∀ e ∈ es, t ≤ e.now) → 0 ≤ (s.data b).timeSum → 0 ≤ (s'.data b).timeSum := by
    intro es
    induction es with
    | nil =>
      intro s s' _ h _ h0
      cases h
      exact h0
    | cons e es ih =>
      intro s s' hc h hst h0
      rw [run] at h
      rw [List.map_cons, List.pairwise_cons] at hc
      cases e with
      | pre k now =>
        refine ih _ s' hc.2 h ?_ h0
        intro k' t ht e' he'
        by_cases hk : k' = k
        · subst hk
          simp at ht
          subst ht
          exact hc.1 _ (List.mem_map_of_mem he')
        · simp [Function.update_of_ne hk] at ht
          exact hst k' t ht e' (List.mem_cons_of_mem _ he')
      | post k now =>
        rw [step] at h
        cases hs : s.start k with
        | none => rw [hs] at h; cases h
        | some t =>
          rw [hs] at h
          have htn := hst k t hs _ List.mem_cons_self
          refine ih _ s' hc.2 h ?_ ?_
          · intro k' t' ht e' he'
            by_cases hk : k' = k
            · subst hk
              simp at ht
            · simp [Function.update_of_ne hk] at ht
              exact hst k' t' ht e' (List.mem_cons_of_mem _ he')
          · by_cases hb : b = bin k
            · subst hb
              simp only [Function.update_self]
              have : t ≤ now := htn
              linarith
            · simpa [Function.update_of_ne hb] using h0
  refine gen es _ s hclock h ?_ ?_
  · intro k t ht
    simp [begin] at ht
  · rw [(begin_spec bin keys b).2.2]

/-- The tasks that were started. -/
def started : List (Event K) → List K
  | [] => []
  | .pre k _ :: es => k :: started es
  | .post _ _ :: es => started es

/-- What an event of a history contributes to the time of bin `b`: the end of a task counts, and so does, negatively, the start of a
task that is finished in the history. -/
def timeOf (bin : K → B) (b : B) (done : List K) : Event K → ℚ
  | .pre k t => if bin k = b ∧ k ∈ done then -t else 0
  | .post k t => if bin k = b then t else 0

private theorem run_time (bin : K → B) (b : B) (es : List (Event K)) : ∀ s s' : Bar K B, (started es).Nodup → (posted es).Nodup →
    (∀ k ∈ started es, s.start k = none) → run bin s es = .ok s' →
    (s'.data b).timeSum = (s.data b).timeSum + (es.map (timeOf bin b (posted es))).sum -
      ((posted es).map fun k => if bin k = b then (s.start k).getD 0 else 0).sum := by
  induction es with
  | nil =>
    intro s s' _ _ _ h
    cases h
    simp [posted]
  | cons e es ih =>
    intro s s' hst hpo hfree h
    rw [run] at h
    cases e with
    | pre k now =>
      rw [started, List.nodup_cons] at hst
      have h' := ih _ s' hst.2 hpo (by
        intro j hj
        have hne : j ≠ k := fun e => hst.1 (e ▸ hj)
        simpa [Function.update_of_ne hne] using hfree j (List.mem_cons_of_mem _ hj)) h
      rw [h']
      have hk : s.start k = none := hfree k List.mem_cons_self
      have hsum : ∀ l : List K, l.Nodup → (l.map fun j => if bin j = b then (Function.update s.start k (some now) j).getD 0 else 0).sum =
          (l.map fun j => if bin j = b then (s.start j).getD 0 else 0).sum + if bin k = b ∧ k ∈ l then now else 0 := by
        intro l hl
        induction l with
        | nil => simp
        | cons j l ihl =>
          rw [List.nodup_cons] at hl
          rw [List.map_cons, List.map_cons, List.sum_cons, List.sum_cons, ihl hl.2]
          by_cases hj : j = k
          · subst hj
            have : j ∉ l := hl.1
            by_cases hb : bin j = b
            · simp [hb, hk, this]
              ring
            · simp [hb]
          · rw [Function.update_of_ne hj]
            have : k ≠ j := fun e => hj e.symm
            simp [this]
            ring
      simp only [posted, List.map_cons, List.sum_cons, timeOf]
      rw [hsum (posted es) hpo]
      split_ifs <;> ring
    | post k now =>
      rw [step] at h
      rw [posted, List.nodup_cons] at hpo
      cases hs : s.start k with
      | none => rw [hs] at h; cases h
      | some t =>
        rw [hs] at h
        have hkn : k ∉ started es := fun hk => by simp [hfree k hk] at hs
        have h' := ih _ s' hst hpo.2 (by
          intro j hj
          have hne : j ≠ k := fun e => hkn (e ▸ hj)
          simpa [Function.update_of_ne hne] using hfree j hj) h
        rw [h']
        have e1 : (es.map (timeOf bin b (posted (.post k now :: es)))) = es.map (timeOf bin b (posted es)) := by
          apply List.map_congr_left
          intro e he
          cases e with
          | post j u => rfl
          | pre j u =>
            have hj : j ∈ started es := by
              clear * - he
              induction es with
              | nil => cases he
              | cons a l ihl =>
                rcases List.mem_cons.1 he with rfl | h
                · simp [started]
                · cases a <;> simp [started, ihl h]
            have hne : j ≠ k := fun e => hkn (e ▸ hj)
            simp [timeOf, posted, hne]
        have e2 : ((posted es).map fun j => if bin j = b then (Function.update s.start k none j).getD 0 else 0) =
            (posted es).map fun j => if bin j = b then (s.start j).getD 0 else 0 := by
          apply List.map_congr_left
          intro j hj
          have hne : j ≠ k := fun e => hpo.1 (e ▸ hj)
          rw [Function.update_of_ne hne]
        rw [List.map_cons, List.sum_cons, e1]
        simp only [posted, List.map_cons, List.sum_cons, timeOf, hs, Option.getD_some]
        rw [e2]
        by_cases hb : bin k = b
        · subst hb
          simp
          ring
        · simp [hb, Function.update_of_ne (Ne.symm hb)]

/-- C64: the time spent in a bin is the sum of the times at which its tasks were finished, less the times at which these were
started. -/
theorem C64_time_sum (bin : K → B) (keys : List K) (es : List (Event K)) (s : Bar K B) (hstart : (started es).Nodup)
    (honce : (posted es).Nodup) (h : run bin (begin bin keys) es = .ok s) (b : B) :
    (s.data b).timeSum = (es.map (timeOf bin b (posted es))).sum := by
  have h' := run_time bin b es _ s hstart honce (fun _ _ => rfl) h
  rw [h', (begin_spec bin keys b).2.2]
  have : ((posted es).map fun k => if bin k = b then ((begin bin keys).start k).getD 0 else 0).sum = 0 := by
    have e : (fun k => if bin k = b then ((begin bin keys).start k).getD 0 else 0) = fun _ : K => (0 : ℚ) := by
      funext k
      simp [begin]
    rw [e]
    simp
  rw [this]
  ring

example : ∃ s, run (fun k : Nat => k % 2) (begin (fun k => k % 2) [0, 1, 2]) [.pre 0 1, .pre 2 2, .post 0 3, .post 2 5] = .ok s ∧
    (s.data 0).completed = 2 ∧ (s.data 0).total = 2 ∧ (s.data 1).completed = 0 ∧ (s.data 1).total = 1 ∧ (s.data 0).timeSum = 5 :=
  ⟨_, rfl, by decide +kernel, by decide +kernel, by decide +kernel, by decide +kernel, by decide +kernel⟩

/-! ## C108 -/

/-- What holds of the dictionary by C64. -/
def Sound (ds : List TaskData) : Prop := ∀ v ∈ ds, v.completed ≤ v.total ∧ 0 ≤ v.timeSum

theorem sums_spec (ds : List TaskData) (h : Sound ds) :
    (sums ds).2.2.2 ≤ (sums ds).2.2.1 ∧ 0 ≤ (sums ds).2.2.2 ∧ (sums ds).2.1 ≤ (sums ds).1 ∧ ((sums ds).2.1 = 0 → (sums ds).2.2.1 = 0) := by
  unfold sums
  have gen : ∀ (ds : List TaskData) (x : Nat × Nat × ℚ × ℚ), Sound ds →
      (x.2.2.2 ≤ x.2.2.1 ∧ 0 ≤ x.2.2.2 ∧ x.2.1 ≤ x.1 ∧ (x.2.1 = 0 → x.2.2.1 = 0)) →
      (fun y : Nat × Nat × ℚ × ℚ => y.2.2.2 ≤ y.2.2.1 ∧ 0 ≤ y.2.2.2 ∧ y.2.1 ≤ y.1 ∧ (y.2.1 = 0 → y.2.2.1 = 0))
        (ds.foldl (fun (total, completed, estimated, guess) v =>
          let total := total + v.total
          let completed := completed + v.completed
          if v.completed > 0 then (total, completed, estimated + v.timeSum / v.completed * v.total, guess + v.timeSum)
          else (total, completed, estimated, guess)) x) := by
    intro ds
    induction ds with
    | nil => intro x _ hx; exact hx
    | cons v ds ih =>
      intro ⟨a, b, c, d⟩ hs hx
      rw [List.foldl_cons]
      apply ih
      · exact fun w hw => hs w (List.mem_cons_of_mem _ hw)
      · obtain ⟨hv1, hv2⟩ := hs v List.mem_cons_self
        obtain ⟨x1, x2, x3, x4⟩ := hx
        dsimp only at x1 x2 x3 x4 ⊢
        by_cases hc : v.completed > 0
        · rw [if_pos hc]
          refine ⟨?_, by positivity, by dsimp only; omega, fun h => by dsimp only at h; omega⟩
          have hcq : (0 : ℚ) < v.completed := by exact_mod_cast hc
          have hle : (v.completed : ℚ) ≤ v.total := by exact_mod_cast hv1
          have : v.timeSum ≤ v.timeSum / v.completed * v.total := by
            calc v.timeSum = v.timeSum / v.completed * v.completed := by field_simp
              _ ≤ v.timeSum / v.completed * v.total := mul_le_mul_of_nonneg_left hle (by positivity)
          dsimp only
          linarith
        · rw [if_neg hc]
          exact ⟨x1, x2, by dsimp only; omega, fun h => x4 (by dsimp only at h; omega)⟩
  exact gen ds (0, 0, 0, 0) h (by simp)

theorem fit_length (width : Nat) (text : List Char) : (fit width text).length = width := by
  unfold fit
  simp

theorem toInt_mono_range {x n : ℚ} (h0 : 0 ≤ x) (h1 : x ≤ n) : 0 ≤ toInt x ∧ (toInt x : ℚ) ≤ n := by
  unfold toInt
  rw [if_pos h0]
  exact ⟨Int.floor_nonneg.2 h0, le_trans (Int.floor_le x) h1⟩

theorem updateBar_spec (width : Nat) (elapsed : ℚ) (ds : List TaskData) (h0 : 0 ≤ elapsed) (hs : Sound ds) (d : Display) (c : Nat) (e : ℚ)
    (h : updateBar width elapsed 0 0 ds = .ok (d, c, e)) :
    d.bar.length = width ∧ 0 ≤ d.percent ∧ d.percent ≤ 100 ∧ (e = 0 ∨ elapsed ≤ e) ∧ d.elapsed = formatTime elapsed ∧
      (10 ≤ elapsed → e = elapsed → d.percent = 100 ∧ d.bar = List.replicate width '#') := by
  obtain ⟨s1, s2, s3, s4⟩ := sums_spec ds hs
  unfold updateBar at h
  cases he : estimate elapsed 0 0 ds with
  | error x => rw [he] at h; cases h
  | ok p =>
    obtain ⟨c', e'⟩ := p
    rw [he] at h
    cases h
    have hest : e = 0 ∨ elapsed ≤ e := by
      unfold estimate at he
      generalize hq : sums ds = q at *
      obtain ⟨q1, q2, q3, q4⟩ := q
      dsimp only at he s1 s2 s3 s4
      split_ifs at he with a1 a2
      · cases he
        right
        have hq4 : 0 < q4 := lt_of_le_of_ne s2 (Ne.symm a2)
        rw [le_div_iff₀ hq4, mul_comm]
        exact mul_le_mul_of_nonneg_right s1 h0
      · cases he
        left; rfl
    have hf : (0 : ℚ) ≤ (if elapsed < 10 then 0 else if e > 0 then elapsed / e else 0) ∧
        (if elapsed < 10 then 0 else if e > 0 then elapsed / e else 0 : ℚ) ≤ 1 := by
      split_ifs with a1 a2
      · exact ⟨le_rfl, zero_le_one⟩
      · refine ⟨by positivity, ?_⟩
        rcases hest with h | h
        · rw [h] at a2
          exact absurd a2 (lt_irrefl _)
        · exact (div_le_one a2).2 h
      · exact ⟨le_rfl, zero_le_one⟩
    obtain ⟨p1, p2⟩ := toInt_mono_range (x := 100 * (if elapsed < 10 then 0 else if e > 0 then elapsed / e else 0)) (n := 100)
      (by linarith [hf.1]) (by linarith [hf.2])
    refine ⟨fit_length _ _, p1, by exact_mod_cast p2, hest, rfl, ?_⟩
    intro h10 hee
    have n10 : ¬ elapsed < 10 := not_lt.2 h10
    have ep : e > 0 := by rw [hee]; linarith
    have fr : (if elapsed < 10 then 0 else if e > 0 then elapsed / e else 0 : ℚ) = 1 := by
      rw [if_neg n10, if_pos ep, hee, div_self]
      linarith
    constructor
    · show toInt (100 * (if elapsed < 10 then 0 else if e > 0 then elapsed / e else 0)) = 100
      rw [fr]
      decide +kernel
    · show fit width (if elapsed < 10 then _ else List.replicate (toInt (width * (if elapsed < 10 then 0 else if e > 0 then elapsed / e else 0))).toNat '#') = _
      rw [fr, if_neg n10]
      have : (toInt ((width : ℚ) * 1)).toNat = width := by
        unfold toInt
        rw [mul_one, if_pos (by positivity), Int.floor_natCast]
        simp
      rw [this]
      simp [fit]

/-- C108: whatever the callbacks did before each update, every update that is shown has a bar of exactly the width asked for and a
percentage between 0 and 100. -/
theorem C108_display (width : Nat) (minimum : ℚ) (snaps : List (ℚ × List TaskData)) (ds : List Display)
    (hs : ∀ p ∈ snaps, 0 ≤ p.1 ∧ Sound p.2) (h : timer width minimum snaps = .ok ds) :
    ∀ d ∈ ds, d.bar.length = width ∧ 0 ≤ d.percent ∧ d.percent ≤ 100 := by
  induction snaps generalizing ds with
  | nil => cases h; simp
  | cons p snaps ih =>
    obtain ⟨elapsed, data⟩ := p
    rw [timer] at h
    have hs' : ∀ p ∈ snaps, 0 ≤ p.1 ∧ Sound p.2 := fun p hp => hs p (List.mem_cons_of_mem _ hp)
    obtain ⟨e0, e1⟩ := hs (elapsed, data) List.mem_cons_self
    split_ifs at h with hm
    · cases hu : updateBar width elapsed 0 0 data with
      | error x => rw [hu] at h; cases h
      | ok q =>
        obtain ⟨d, c, e⟩ := q
        rw [hu] at h
        cases hl : timer width minimum snaps with
        | error x => rw [hl] at h; cases h
        | ok l =>
          rw [hl] at h
          cases h
          intro d' hd'
          rcases List.mem_cons.1 hd' with rfl | hd'
          · obtain ⟨a, b, c, -⟩ := updateBar_spec width elapsed data e0 e1 d' c e hu
            exact ⟨a, b, c⟩
          · exact ih l hs' hl d' hd'
    · exact ih ds hs' h

/-- C108: the estimate is never less than the time elapsed; when they are equal, after ten seconds, the bar is full. -/
theorem C108_estimate (width : Nat) (elapsed : ℚ) (ds : List TaskData) (h0 : 0 ≤ elapsed) (hs : Sound ds) (d : Display) (c : Nat) (e : ℚ)
    (h : updateBar width elapsed 0 0 ds = .ok (d, c, e)) :
    (e = 0 ∨ elapsed ≤ e) ∧ (10 ≤ elapsed → e = elapsed → d.percent = 100 ∧ d.bar = List.replicate width '#') :=
  ⟨(updateBar_spec width elapsed ds h0 hs d c e h).2.2.2.1, (updateBar_spec width elapsed ds h0 hs d c e h).2.2.2.2.2⟩

/-- C108 is violated: after a task whose measured time is 0 the thread that shows the bar ends with a `ZeroDivisionError`. -/
theorem C108_violated : ∃ ds, Sound ds ∧ timer 42 0 [(1, ds)] = .error .zeroDivisionError :=
  ⟨[{ completed := 1, total := 1, timeSum := 0 }], by simp [Sound], by decide +kernel⟩

/-- C108 is violated: the estimate is meant to stay if no task was completed since the last update ("otherwise use previous estimate.
This prevents jumps"), but it grows. -/
theorem C108_violated_jump : ∃ (ds : List TaskData) (a b : Display), Sound ds ∧ timer 42 0 [(20, ds), (30, ds)] = .ok [a, b] ∧
    a.estimate = "   40s".toList ∧ b.estimate = " 1m 0s".toList := by
  refine ⟨[{ completed := 1, total := 2, timeSum := 10 }],
    ⟨List.replicate 21 '#' ++ List.replicate 21 ' ', 50, "   20s".toList, "   40s".toList⟩,
    ⟨List.replicate 21 '#' ++ List.replicate 21 ' ', 50, "   30s".toList, " 1m 0s".toList⟩, ?_, by decide +kernel, rfl, rfl⟩
  intro v hv
  rw [List.mem_singleton.1 hv]
  norm_num

/-! ## C109 -/

/-- The threads, if `_finish` waited for the lock. -/
inductive StepL : Threads → Threads → Prop
  | step {s t : Threads} (h : Step s t) : StepL s t
  | finish (n : Nat) (f : Bool) : StepL ⟨n, none, f⟩ ⟨0, none, f⟩

/-- C109, part proved: as long as the dictionary is not emptied inside the loop of the display thread, no schedule of the callbacks makes
it fail. Missing: `_finish` does not take the lock, see `C109_violated`. -/
theorem C109_safe_partial (n : Nat) (s : Threads) (h : Relation.ReflTransGen StepL ⟨n, none, false⟩ s) : s.failed = false := by
  have inv : s.failed = false ∧ ∀ seen left, s.loop = some (seen, left) → s.size = seen := by
    induction h with
    | refl => exact ⟨rfl, fun _ _ h => nomatch h⟩
    | tail _ hst ih =>
      obtain ⟨i1, i2⟩ := ih
      cases hst with
      | step hst =>
        cases hst with
        | acquire n => exact ⟨rfl, fun _ _ h => by cases h; rfl⟩
        | next n left => exact ⟨rfl, fun _ _ h => by cases h; rfl⟩
        | fail n seen left hne => exact absurd (i2 seen left rfl) hne
        | release n => exact ⟨rfl, fun _ _ h => nomatch h⟩
        | task n new f => exact ⟨i1, fun _ _ h => nomatch h⟩
      | finish n f => exact ⟨i1, fun _ _ h => nomatch h⟩
  exact inv.1

/-- C109 is violated: if the computation ends while the display thread is in its loop, the thread fails, whatever the number of bins. -/
theorem C109_violated (n : Nat) (hn : 0 < n) : ∃ s, Relation.ReflTransGen StepF ⟨n, none, false⟩ s ∧ s.failed = true :=
  ⟨⟨0, none, true⟩, ((Relation.ReflTransGen.single (.step (.acquire n))).tail (.finish _)).tail (.step (.fail 0 n n (by omega))), rfl⟩

/-- C109: the display thread gives the lock back without a failure only after it has seen all the values, no callback runs while it has
the lock, and callbacks may add any number of bins before it takes the lock, after which it can see all of them. -/
theorem C109_loop (n : Nat) :
    (∀ seen left t, Step ⟨n, some (seen, left), false⟩ t → t.failed = false →
      t.size = n ∧ seen = n ∧ ((∃ l, left = l + 1 ∧ t.loop = some (n, l)) ∨ (left = 0 ∧ t.loop = none))) ∧
    (∀ m, n ≤ m → Relation.ReflTransGen Step ⟨n, none, false⟩ ⟨m, none, false⟩) ∧
    (∀ left, left ≤ n → Relation.ReflTransGen Step ⟨n, none, false⟩ ⟨n, some (n, left), false⟩) := by
  refine ⟨?_, ?_, ?_⟩
  · intro seen left t h hf
    cases h with
    | next n left => exact ⟨rfl, rfl, Or.inl ⟨left, rfl, rfl⟩⟩
    | fail n seen left hne => cases hf
    | release n => exact ⟨rfl, rfl, Or.inr ⟨rfl, rfl⟩⟩
  · intro m hm
    induction m, hm using Nat.le_induction with
    | base => exact .refl
    | succ m _ ih => exact ih.tail (.task m true false)
  · intro left hl
    have key : ∀ d l, l + d = n → Relation.ReflTransGen Step ⟨n, none, false⟩ ⟨n, some (n, l), false⟩ := by
      intro d
      induction d with
      | zero => rintro l rfl; exact .single (.acquire _)
      | succ d ih => intro l h; exact (ih (l + 1) (by omega)).tail (.next n l)
    exact key (n - left) left (by omega)

/-- A loop over three bins that ends, between callbacks. -/
example : Relation.ReflTransGen StepL ⟨2, none, false⟩ ⟨0, none, false⟩ :=
  (((((((Relation.ReflTransGen.single (.step (.task 2 true false))).tail (.step (.acquire 3))).tail (.step (.next 3 2))).tail
    (.step (.next 3 1))).tail (.step (.next 3 0))).tail (.step (.release 3))).tail (.step (.task 3 false false))).tail (.finish 3 false)

end Verif.Util.Progress
