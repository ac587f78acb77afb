/-
C198: tasks are counted under the name of their key, and counts add up.
-/
import Verif.Util.Tasks
import Mathlib.Tactic.Ring

set_option autoImplicit false

namespace Verif.Util.Progress

/-! ### Specification -/

/-- The key of a call of a callback. -/
def Event.key {K : Type} : Event K → K
  | .pre k _ => k
  | .post k _ => k

/-- The forms of a key with a name: the name, its bytes, or a tuple that begins with one of them. -/
inductive Named (decode : List UInt8 → Option String) (name : String) : Key → Prop
  | str : Named decode name (.str name)
  | bytes (b : List UInt8) (h : decode b = some name) : Named decode name (.bytes b)
  | tuple (l : List Key) : Named decode name (.tuple (.str name :: l))
  | tupleBytes (b : List UInt8) (l : List Key) (h : decode b = some name) : Named decode name (.tuple (.bytes b :: l))

/-! ### Theorems -/

/-- **C198**: all keys with the same name are in the bin of that name. -/
theorem C198_names (decode : List UInt8 → Option String) (str : Key → Option String) (hstr : ∀ s, str (.str s) = some s)
    (name : String) (k : Key) (h : Named decode name k) : keyBin decode str k = .ok name := by
  cases h with
  | str => simp [keyBin, bind, Except.bind, hstr]
  | bytes b h => simp [keyBin, bind, Except.bind, hstr, h]
  | tuple l => simp [keyBin, bind, Except.bind, hstr]
  | tupleBytes b l h => simp [keyBin, bind, Except.bind, hstr, h]

/-- **C198**: a key has a bin unless it is the empty tuple or begins with bytes that are not text. The full claim is that every key
has one. -/
theorem C198_bins_partial (decode : List UInt8 → Option String) (str : Key → Option String) (k : Key) (h : k ≠ .tuple [])
    (hb : ∀ b, (k = .bytes b ∨ ∃ l, k = .tuple (.bytes b :: l)) → decode b ≠ none) : ∃ s, keyBin decode str k = .ok s := by
  have key : ∀ k : Key, (∀ b, k = .bytes b → decode b ≠ none) → ∃ s, (do
      let key ← match k with
        | .bytes b => match decode b with
          | none => Except.error .unicodeDecodeError
          | some s => .ok (.str s)
        | k => .ok k
      match str key with
      | some s => .ok s
      | none => .ok "other" : Except KeyErr String) = .ok s := by
    intro k hk
    have fin : ∀ k : Key, ∃ s, (match str k with
        | some s => (.ok s : Except KeyErr String)
        | none => .ok "other") = .ok s := by
      intro k
      cases str k with
      | none => exact ⟨_, rfl⟩
      | some s => exact ⟨_, rfl⟩
    cases k with
    | bytes b =>
      cases hd : decode b with
      | none => exact absurd hd (hk b rfl)
      | some s =>
        simp only [hd]
        exact fin _
    | str s => exact fin _
    | tuple l => exact fin _
    | object n => exact fin _
  cases k with
  | str s => exact key (.str s) fun b hb => nomatch hb
  | bytes b => exact key (.bytes b) fun c hc => hb c (.inl hc)
  | object n => exact key (.object n) fun b hb => nomatch hb
  | tuple l =>
    cases l with
    | nil => exact absurd rfl h
    | cons k l => exact key k fun c hc => hb c (.inr ⟨l, by rw [hc]⟩)

/-- **C198 fails** for the empty tuple and for bytes that are not text: `key_bin` raises, although it means to return `"other"`
for keys without a name. -/
theorem C198_violated (decode : List UInt8 → Option String) (str : Key → Option String) (b : List UInt8) (l : List Key)
    (h : decode b = none) :
    keyBin decode str (.tuple []) = .error .indexError ∧ keyBin decode str (.bytes b) = .error .unicodeDecodeError ∧
      keyBin decode str (.tuple (.bytes b :: l)) = .error .unicodeDecodeError := by
  refine ⟨rfl, ?_, ?_⟩ <;> simp [keyBin, bind, Except.bind, h]

/-- **C198**: sums of statistics do not depend on order or grouping, and adding none changes nothing. -/
theorem C198_sums (a b c : TaskData) :
    a.add b = b.add a ∧ (a.add b).add c = a.add (b.add c) ∧ a.add {} = a := by
  refine ⟨?_, ?_, ?_⟩ <;> simp only [TaskData.add] <;> congr 1 <;> first | omega | ring

/-- **C198**: `a += b` leaves `a` with the sum, also if both are the same object, and every other object as it was. -/
theorem C198_inplace {I : Type} [DecidableEq I] (a b : I) (heap : I → TaskData) :
    iadd a b heap a = (heap a).add (heap b) ∧ ∀ c, c ≠ a → iadd a b heap c = heap c := by
  refine ⟨?_, fun c hc => by simp [iadd, hc]⟩
  by_cases h : b = a
  · subst h
    simp [iadd, TaskData.add]
  · simp [iadd, TaskData.add, h]

section
variable {K B : Type} [DecidableEq K] [DecidableEq B]

omit [DecidableEq K] in
theorem begin_split (bin : K → B) (S : K → Bool) (keys : List K) (b : B) :
    (begin bin keys).data b = ((begin bin (keys.filter S)).data b).add ((begin bin (keys.filter fun k => !S k)).data b) := by
  have key : ∀ (l : List K) (d d1 d2 : B → TaskData), (∀ b, d b = (d1 b).add (d2 b)) → ∀ b,
      l.foldl (fun d k => Function.update d (bin k) { d (bin k) with total := (d (bin k)).total + 1 }) d b =
        TaskData.add
          ((l.filter S).foldl (fun d k => Function.update d (bin k) { d (bin k) with total := (d (bin k)).total + 1 }) d1 b)
          ((l.filter fun k => !S k).foldl (fun d k => Function.update d (bin k) { d (bin k) with total := (d (bin k)).total + 1 })
            d2 b) := by
    intro l
    induction l with
    | nil => exact fun d d1 d2 h b => h b
    | cons k l ih =>
      intro d d1 d2 h b
      rw [List.foldl_cons, List.filter_cons, List.filter_cons]
      by_cases hk : S k = true
      · rw [if_pos hk, if_neg (by simp [hk]), List.foldl_cons]
        refine ih _ _ _ (fun c => ?_) b
        by_cases hc : c = bin k
        · subst hc
          simp only [Function.update_self, h, TaskData.add]
          congr 1
          omega
        · simp only [Function.update_of_ne hc, h]
      · rw [if_neg hk, if_pos (by simp [hk]), List.foldl_cons]
        refine ih _ _ _ (fun c => ?_) b
        by_cases hc : c = bin k
        · subst hc
          simp only [Function.update_self, h, TaskData.add]
          congr 1
        · simp only [Function.update_of_ne hc, h]
  exact key keys (fun _ => {}) (fun _ => {}) (fun _ => {}) (fun _ => by simp [TaskData.add]) b

theorem run_split (bin : K → B) (S : K → Bool) (es : List (Event K)) (s s1 s2 s' : Bar K B)
    (hstart : ∀ k, s.start k = if S k then s1.start k else s2.start k) (hdata : ∀ b, s.data b = (s1.data b).add (s2.data b))
    (h : run bin s es = .ok s') :
    ∃ t1 t2, run bin s1 (es.filter fun e => S e.key) = .ok t1 ∧ run bin s2 (es.filter fun e => !S e.key) = .ok t2 ∧
      ∀ b, s'.data b = (t1.data b).add (t2.data b) := by
  induction es generalizing s s1 s2 with
  | nil =>
    cases h
    exact ⟨s1, s2, rfl, rfl, hdata⟩
  | cons e es ih =>
    rw [run] at h
    cases hs : step bin s e with
    | error x => rw [hs] at h; cases h
    | ok r =>
      rw [hs] at h
      change run bin r es = .ok s' at h
      rw [List.filter_cons, List.filter_cons]
      cases e with
      | pre k now =>
        cases hs
        by_cases hk : S k = true
        · rw [if_pos (show S (Event.pre k now).key = true from hk), if_neg (by simp [Event.key, hk])]
          refine ih { s with start := Function.update s.start k (some now) } { s1 with start := Function.update s1.start k (some now) } s2 (fun j => ?_) hdata h
          by_cases hj : j = k
          · subst hj
            simp [hk]
          · simp [hj, hstart]
        · rw [if_neg (show ¬S (Event.pre k now).key = true from hk), if_pos (by simp [Event.key, hk])]
          refine ih { s with start := Function.update s.start k (some now) } s1 { s2 with start := Function.update s2.start k (some now) } (fun j => ?_) hdata h
          by_cases hj : j = k
          · subst hj
            simp [hk]
          · simp [hj, hstart]
      | post k now =>
        rw [step] at hs
        cases ht : s.start k with
        | none => rw [ht] at hs; cases hs
        | some t =>
          rw [ht] at hs
          cases hs
          have hst := hstart k
          rw [ht] at hst
          by_cases hk : S k = true
          · rw [if_pos hk] at hst
            rw [if_pos (show S (Event.post k now).key = true from hk), if_neg (by simp [Event.key, hk])]
            have e1 : step bin s1 (.post k now) = .ok {
                start := Function.update s1.start k none
                data := Function.update s1.data (bin k) { s1.data (bin k) with
                  timeSum := (s1.data (bin k)).timeSum + (now - t), completed := (s1.data (bin k)).completed + 1 } } := by
              rw [step, ← hst]
            rw [run, e1]
            refine ih _ _ s2 (fun j => ?_) (fun b => ?_) h
            · by_cases hj : j = k
              · subst hj
                simp [hk]
              · simp [hj, hstart]
            · by_cases hb : b = bin k
              · subst hb
                simp only [Function.update_self, hdata, TaskData.add]
                congr 1
                · omega
                · ring
              · simp only [Function.update_of_ne hb, hdata]
          · rw [if_neg hk] at hst
            rw [if_neg (show ¬S (Event.post k now).key = true from hk), if_pos (by simp [Event.key, hk])]
            have e1 : step bin s2 (.post k now) = .ok {
                start := Function.update s2.start k none
                data := Function.update s2.data (bin k) { s2.data (bin k) with
                  timeSum := (s2.data (bin k)).timeSum + (now - t), completed := (s2.data (bin k)).completed + 1 } } := by
              rw [step, ← hst]
            rw [run, e1]
            refine ih _ s1 _ (fun j => ?_) (fun b => ?_) h
            · by_cases hj : j = k
              · subst hj
                simp [hk]
              · simp [hj, hstart]
            · by_cases hb : b = bin k
              · subst hb
                simp only [Function.update_self, hdata, TaskData.add]
                congr 1
                ring
              · simp only [Function.update_of_ne hb, hdata]

/-- **C198**: if the tasks of a computation are divided in two, the statistics of the whole, after any history of callbacks, are the
sums of those of the two parts, each with its own callbacks. -/
theorem C198_parts (bin : K → B) (S : K → Bool) (keys : List K) (es : List (Event K)) (s : Bar K B)
    (h : run bin (begin bin keys) es = .ok s) :
    ∃ t1 t2, run bin (begin bin (keys.filter S)) (es.filter fun e => S e.key) = .ok t1 ∧
      run bin (begin bin (keys.filter fun k => !S k)) (es.filter fun e => !S e.key) = .ok t2 ∧
      ∀ b, s.data b = (t1.data b).add (t2.data b) :=
  run_split bin S es _ _ _ s (fun k => by simp [begin]) (begin_split bin S keys) h

end

/-- Two kinds of tasks that overlap in time: the history is accepted. -/
example : (match run (fun k : Nat => k % 2) (begin (fun k => k % 2) [0, 1, 2])
      [.pre 0 0, .pre 1 1, .post 0 3, .pre 2 3, .post 1 4, .post 2 6] with
    | .ok s => some ((s.data 0).completed, (s.data 0).timeSum, (s.data 1).completed, (s.data 1).timeSum)
    | .error _ => none) = some (2, 6, 1, 3) := by decide +kernel

/-- Decoding of ASCII text: a key has its name in all four forms. -/
example : Named (fun b => if b = [97] then some "a" else none) "a" (.tuple [.bytes [97], .object 0]) :=
  .tupleBytes [97] [.object 0] (by simp)

end Verif.Util.Progress
