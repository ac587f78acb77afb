/-
Lemmas about the conversion of correlations.
-/
import Verif.ModelData.CoherencyLemmas
import Mathlib.Data.List.Nodup
import Mathlib.Data.List.Forall2

set_option autoImplicit false

namespace Verif.ModelData

theorem leaf_unique {l : List Schema} {p : List Nat} {e f : Schema} (h : LeafAt l p e) (h' : LeafAt l p f) : e = f := by
  obtain ⟨_, q, i, c, rfl, hq, hc⟩ := h
  obtain ⟨_, q', i', c', he, hq', hc'⟩ := h'
  obtain ⟨rfl, h2⟩ := List.append_inj' he rfl
  obtain rfl : i = i' := by simpa using h2
  have : c = c' := Option.some.inj (hq.symm.trans hq')
  subst this
  exact Option.some.inj (hc.symm.trans hc')

theorem mem_iff_of_inv {l : List Schema} {shape : List Nat} {res : List (String × List Nat)}
    (inv : BfsInv l [] shape res) {s : String} {p : List Nat} : (s, p) ∈ res ↔ Has l s p := by
  constructor
  · exact fun h => inv.sound _ h
  · rintro ⟨e, he, hn⟩
    rcases inv.compl p e he with ⟨s', h1, h2⟩ | ⟨it, hit, _⟩
    · rw [hn] at h1; cases h1; exact h2
    · cases hit

theorem nodup_snd {l : List Schema} {shape : List Nat} {res : List (String × List Nat)}
    (inv : BfsInv l [] shape res) : (res.map Prod.snd).Nodup := by
  refine List.Nodup.map_on ?_ (List.Nodup.of_map _ inv.nodup)
  intro x hx y hy hxy
  obtain ⟨e, he, hn⟩ := inv.sound x hx
  obtain ⟨f, hf, hn'⟩ := inv.sound y hy
  rw [hxy] at he
  obtain rfl := leaf_unique he hf
  rw [hn] at hn'
  exact Prod.ext (Except.ok.inj hn') hxy

theorem nodup_fst_inj {res : List (String × List Nat)} (h : (res.map Prod.fst).Nodup) {s : String} {p q : List Nat}
    (hp : (s, p) ∈ res) (hq : (s, q) ∈ res) : p = q := by
  have := List.inj_on_of_nodup_map h hp hq rfl
  exact congrArg Prod.snd this

theorem good_of_inv {l : List Schema} {shape : List Nat} {res : List (String × List Nat)}
    (inv : BfsInv l [] shape res) : GoodSchema l := by
  have hl : ∀ p c, listAt l p = some c → shape[p.length]? = some c.length := by
    intro p c hp
    rcases inv.lens p c hp with h' | ⟨it, hit, _⟩
    · exact h'
    · cases hit
  refine ⟨?_, ?_, ?_⟩
  · intro p q c d hpq hc hd
    have h1 := hl p c hc
    rw [hpq, hl q d hd] at h1
    exact (Option.some.inj h1).symm
  · intro p e he
    rcases inv.compl p e he with ⟨s', h1, h2⟩ | ⟨it, hit, _⟩
    · exact ⟨s', h1⟩
    · cases hit
  · intro p q e f s he hf hs hs'
    exact nodup_fst_inj inv.nodup ((mem_iff_of_inv inv).2 ⟨e, he, hs⟩) ((mem_iff_of_inv inv).2 ⟨f, hf, hs'⟩)

theorem indexOf_some {l : List (String × List Nat)} {c : String} {p : List Nat} (h : indexOf? l c = some p) :
    (c, p) ∈ l := by
  unfold indexOf? at h
  rw [Option.map_eq_some_iff] at h
  obtain ⟨x, hx, rfl⟩ := h
  have h1 := List.mem_of_find?_eq_some hx
  have h2 : x.1 = c := by simpa using List.find?_some hx
  rw [← h2]; exact h1

theorem indexOf_none {l : List (String × List Nat)} {c : String} (h : indexOf? l c = none) :
    ∀ p, (c, p) ∉ l := by
  intro p hp
  unfold indexOf? at h
  rw [Option.map_eq_none_iff, List.find?_eq_none] at h
  exact h _ hp (by simp)

theorem indexOf_of_mem {l : List (String × List Nat)} (hn : (l.map Prod.fst).Nodup) {c : String} {p : List Nat}
    (h : (c, p) ∈ l) : indexOf? l c = some p := by
  cases hi : indexOf? l c with
  | none => exact absurd h (indexOf_none hi p)
  | some q => rw [nodup_fst_inj hn h (indexOf_some hi)]

theorem findConv_none {inputs : List (String × List Nat)} {outIdx : List Nat}
    {deps : List ((String × String) × (ℂ → ℂ → ℂ))} (h : findConv inputs outIdx deps = none) :
    ∀ a ∈ deps, indexOf? inputs a.1.1 = none ∨ indexOf? inputs a.1.2 = none := by
  induction deps with
  | nil => simp
  | cons d deps ih =>
    obtain ⟨⟨c1, c2⟩, fn⟩ := d
    simp only [findConv] at h
    intro a ha
    cases h1 : indexOf? inputs c1 with
    | none =>
      rw [h1] at h
      rcases List.mem_cons.1 ha with rfl | ha
      · exact Or.inl h1
      · exact ih h a ha
    | some i1 =>
      rw [h1] at h
      simp only at h
      cases h2 : indexOf? inputs c2 with
      | none =>
        rw [h2] at h
        rcases List.mem_cons.1 ha with rfl | ha
        · exact Or.inr h2
        · exact ih h a ha
      | some i2 => rw [h2] at h; cases h

theorem findConv_some {inputs : List (String × List Nat)} {outIdx : List Nat}
    {deps : List ((String × String) × (ℂ → ℂ → ℂ))} {e : MapEntry} (h : findConv inputs outIdx deps = some e) :
    ∃ pre c1 c2 fn post i1 i2, deps = pre ++ ((c1, c2), fn) :: post ∧
      (∀ a ∈ pre, indexOf? inputs a.1.1 = none ∨ indexOf? inputs a.1.2 = none) ∧
      indexOf? inputs c1 = some i1 ∧ indexOf? inputs c2 = some i2 ∧ e = (i1, i2, outIdx, fn) := by
  induction deps with
  | nil => cases h
  | cons d deps ih =>
    obtain ⟨⟨c1, c2⟩, fn⟩ := d
    simp only [findConv] at h
    have skip : findConv inputs outIdx deps = some e →
        (indexOf? inputs c1 = none ∨ indexOf? inputs c2 = none) →
        ∃ pre c1' c2' fn' post i1 i2, ((c1, c2), fn) :: deps = pre ++ ((c1', c2'), fn') :: post ∧
      (∀ a ∈ pre, indexOf? inputs a.1.1 = none ∨ indexOf? inputs a.1.2 = none) ∧
      indexOf? inputs c1' = some i1 ∧ indexOf? inputs c2' = some i2 ∧ e = (i1, i2, outIdx, fn') := by
      intro h hn
      obtain ⟨pre, c1', c2', fn', post, i1, i2, g1, g2, g3, g4, g5⟩ := ih h
      refine ⟨((c1, c2), fn) :: pre, c1', c2', fn', post, i1, i2, by simp [g1], ?_, g3, g4, g5⟩
      intro a ha
      rcases List.mem_cons.1 ha with rfl | ha
      · exact hn
      · exact g2 a ha
    cases h1 : indexOf? inputs c1 with
    | none => rw [h1] at h; exact skip h (Or.inl h1)
    | some i1 =>
      rw [h1] at h
      simp only at h
      cases h2 : indexOf? inputs c2 with
      | none => rw [h2] at h; exact skip h (Or.inr h2)
      | some i2 =>
        rw [h2] at h
        exact ⟨[], c1, c2, fn, deps, i1, i2, rfl, by simp, h1, h2, (Option.some.inj h).symm⟩

theorem buildMapping_ok {inputs : List (String × List Nat)} {b : Bool} {rest : List (String × List Nat)}
    {m m' : List MapEntry} (h : buildMapping inputs b rest m = .ok m') :
    ∃ es, m' = m ++ es ∧ List.Forall₂ (fun (o : String × List Nat) e =>
      ∃ deps, stokesConv o.1 = some deps ∧ findConv inputs o.2 deps = some e) rest es := by
  induction rest generalizing b m with
  | nil => simp only [buildMapping, Except.ok.injEq] at h; exact ⟨[], by simp [h], List.Forall₂.nil⟩
  | cons o rest ih =>
    obtain ⟨okey, outIdx⟩ := o
    simp only [buildMapping] at h
    cases hd : stokesConv okey with
    | none => rw [hd] at h; cases h
    | some deps =>
      rw [hd] at h
      simp only at h
      cases hf : findConv inputs outIdx deps with
      | none => rw [hf] at h; cases h
      | some e =>
        rw [hf] at h
        obtain ⟨es, h1, h2⟩ := ih h
        exact ⟨e :: es, by simp [h1], List.Forall₂.cons ⟨deps, hd, hf⟩ h2⟩

theorem buildMapping_error {inputs : List (String × List Nat)} {b : Bool} {rest : List (String × List Nat)}
    {m : List MapEntry} {err : PyErr} (h : buildMapping inputs b rest m = .error err) :
    ∃ o ∈ rest, stokesConv o.1 = none ∨
      ∃ deps, stokesConv o.1 = some deps ∧ findConv inputs o.2 deps = none ∧ err = .missingConversionInputs := by
  induction rest generalizing b m with
  | nil => cases h
  | cons o rest ih =>
    obtain ⟨okey, outIdx⟩ := o
    simp only [buildMapping] at h
    cases hd : stokesConv okey with
    | none => exact ⟨_, List.mem_cons_self, Or.inl hd⟩
    | some deps =>
      rw [hd] at h
      simp only at h
      cases hf : findConv inputs outIdx deps with
      | none =>
        rw [hf] at h
        exact ⟨_, List.mem_cons_self, Or.inr ⟨deps, hd, hf, (Except.error.inj h).symm⟩⟩
      | some e =>
        rw [hf] at h
        obtain ⟨o, ho, h'⟩ := ih h
        exact ⟨o, List.mem_cons_of_mem _ ho, h'⟩

theorem forall2_left {α β : Type*} {R : α → β → Prop} {l : List α} {m : List β} (h : List.Forall₂ R l m) {a : α}
    (ha : a ∈ l) : ∃ b ∈ m, R a b := by
  induction h with
  | nil => cases ha
  | cons hab _ ih =>
    rcases List.mem_cons.1 ha with rfl | ha
    · exact ⟨_, List.mem_cons_self, hab⟩
    · obtain ⟨b, hb, hr⟩ := ih ha
      exact ⟨b, List.mem_cons_of_mem _ hb, hr⟩

theorem mapping_outs {inputs rest : List (String × List Nat)} {es : List MapEntry}
    (h : List.Forall₂ (fun (o : String × List Nat) (e : MapEntry) =>
      ∃ deps, stokesConv o.1 = some deps ∧ findConv inputs o.2 deps = some e) rest es) :
    es.map (fun e => e.2.2.1) = rest.map Prod.snd := by
  induction h with
  | nil => rfl
  | cons hab _ ih =>
    obtain ⟨deps, _, hf⟩ := hab
    obtain ⟨pre, c1, c2, fn, post, i1, i2, _, _, _, _, rfl⟩ := findConv_some hf
    simp [ih]

theorem known_ne_none {s : String} (h : s ∈ knownOutputs) : stokesConv s ≠ none := by
  simp only [knownOutputs, List.mem_cons, List.not_mem_nil, or_false] at h
  rcases h with rfl | rfl | rfl | rfl | rfl | rfl | rfl | rfl | rfl | rfl | rfl | rfl <;> simp [stokesConv]

theorem requires_eq {s : String} {deps : List ((String × String) × (ℂ → ℂ → ℂ))} (h : stokesConv s = some deps) :
    requires s = deps.map Prod.fst := by
  unfold stokesConv at h
  split at h <;> first | (cases h; rfl) | cases h

theorem foldl_update_ne (x : List Nat → ℂ) (m : List MapEntry) (out : List Nat → Option ℂ) (p : List Nat)
    (h : ∀ e ∈ m, e.2.2.1 ≠ p) :
    m.foldl (fun (out : List Nat → Option ℂ) e =>
      Function.update out e.2.2.1 (some (e.2.2.2 (x e.1) (x e.2.1)))) out p = out p := by
  induction m generalizing out with
  | nil => rfl
  | cons e m ih =>
    rw [List.foldl_cons, ih _ fun e he => h e (List.mem_cons_of_mem _ he),
      Function.update_of_ne (h e List.mem_cons_self).symm]

theorem runMapping_value (x : List Nat → ℂ) {m : List MapEntry} (hn : (m.map fun e => e.2.2.1).Nodup) {e : MapEntry}
    (he : e ∈ m) : runMapping x m e.2.2.1 = some (e.2.2.2 (x e.1) (x e.2.1)) := by
  obtain ⟨pre, post, rfl⟩ := List.append_of_mem he
  unfold runMapping
  rw [List.foldl_append, List.foldl_cons, foldl_update_ne]
  · simp
  · intro e' he' hEq
    rw [List.map_append, List.nodup_append] at hn
    have h2 := hn.2.1
    rw [List.map_cons, List.nodup_cons] at h2
    exact h2.1 (List.mem_map.2 ⟨e', he', hEq⟩)

theorem runMapping_congr {x y : List Nat → ℂ} {m : List MapEntry}
    (h : ∀ e ∈ m, x e.1 = y e.1 ∧ x e.2.1 = y e.2.1) : runMapping x m = runMapping y m := by
  unfold runMapping
  generalize (fun _ => none : List Nat → Option ℂ) = out
  induction m generalizing out with
  | nil => rfl
  | cons e m ih =>
    rw [List.foldl_cons, List.foldl_cons, (h e List.mem_cons_self).1, (h e List.mem_cons_self).2]
    exact ih (fun e he => h e (List.mem_cons_of_mem _ he)) _

theorem convert_eq {lead : List Nat} {x : List Nat → ℂ} {il ol : List Schema}
    {ires ores : List (String × List Nat)} {ishape oshape : List Nat}
    (hi : elementIndices (.list il) = .ok (ires, ishape)) (ho : elementIndices (.list ol) = .ok (ores, oshape)) :
    convert (lead ++ ishape) x (.list il) (.list ol) =
      match buildMapping ires false ores [] with
      | .error e => .error e
      | .ok m => if m.isEmpty then .error .valueError else .ok (runMapping x m) := by
  have hd : (lead ++ ishape).drop ((lead ++ ishape).length - ishape.length) = ishape := by simp
  simp only [convert, convertSetup, hi, ho, bind, Except.bind, hd, ne_eq, not_true_eq_false, if_false, pure, Except.pure]
  cases hb : buildMapping ires false ores [] with
  | error e => rfl
  | ok m =>
    by_cases hm : m.isEmpty = true
    · simp only [hm, if_true]; rfl
    · simp only [hm]; rfl

theorem convertSetup_reads {shape : List Nat} {il : List Schema} {os : Schema} {i : List (String × List Nat) × List Nat}
    {m : List MapEntry × List Nat} (hi : elementIndices (.list il) = .ok i)
    (h : convertSetup shape (.list il) os = .ok m) :
    ∀ e ∈ m.1, (∃ s, (s, e.1) ∈ i.1) ∧ (∃ s, (s, e.2.1) ∈ i.1) := by
  simp only [convertSetup, hi, bind, Except.bind] at h
  cases ho : elementIndices os with
  | error e => rw [ho] at h; cases h
  | ok o =>
    rw [ho] at h
    simp only at h
    by_cases hs : shape.drop (shape.length - i.2.length) ≠ i.2
    · rw [if_pos hs] at h; cases h
    · rw [if_neg hs] at h
      simp only [pure, Except.pure] at h
      cases hb : buildMapping i.1 false o.1 [] with
      | error e => rw [hb] at h; cases h
      | ok mm =>
        rw [hb] at h
        simp only at h
        by_cases hm : mm.isEmpty = true
        · rw [if_pos hm] at h; cases h
        · rw [if_neg hm] at h
          simp only [Except.ok.injEq] at h
          subst h
          obtain ⟨es, rfl, hf⟩ := buildMapping_ok hb
          intro e he
          obtain ⟨o', _, deps, _, hfc⟩ := forall2_left (List.Forall₂.flip hf) he
          obtain ⟨pre, c1, c2, fn, post, i1, i2, _, _, h1, h2, rfl⟩ := findConv_some hfc
          exact ⟨⟨c1, indexOf_some h1⟩, ⟨c2, indexOf_some h2⟩⟩

/-- The first available alternative is unique. -/
theorem first_value {il : List Schema} {ires : List (String × List Nat)} {x : List Nat → ℂ} {v : Option ℂ}
    {s : String} {pre post : List ((String × String) × (ℂ → ℂ → ℂ))} {c1 c2 : String} {fn : ℂ → ℂ → ℂ} {q1 q2 : List Nat}
    (io : ∀ s p, (s, p) ∈ ires ↔ Has il s p) (nd : (ires.map Prod.fst).Nodup)
    (h : ∃ pre c1 c2 fn post q1 q2, stokesConv s = some (pre ++ ((c1, c2), fn) :: post) ∧
        (∀ a ∈ pre, (∀ q, ¬ Has il a.1.1 q) ∨ (∀ q, ¬ Has il a.1.2 q)) ∧
        Has il c1 q1 ∧ Has il c2 q2 ∧ v = some (fn (x q1) (x q2)))
    (hs : stokesConv s = some (pre ++ ((c1, c2), fn) :: post))
    (hpre : ∀ a ∈ pre, (∀ q, ¬ Has il a.1.1 q) ∨ (∀ q, ¬ Has il a.1.2 q))
    (h1 : Has il c1 q1) (h2 : Has il c2 q2) : v = some (fn (x q1) (x q2)) := by
  obtain ⟨pre', c1', c2', fn', post', q1', q2', g1, g2, g3, g4, rfl⟩ := h
  rw [hs] at g1
  have g1 := Option.some.inj g1
  have : ((c1, c2), fn) = ((c1', c2'), fn') := by
    rcases List.append_eq_append_iff.1 g1 with ⟨t, ht1, ht2⟩ | ⟨t, ht1, ht2⟩
    · cases t with
      | nil => simp only [List.nil_append, List.cons.injEq] at ht2; exact ht2.1
      | cons a t =>
        simp only [List.cons_append, List.cons.injEq] at ht2
        have hm : ((c1, c2), fn) ∈ pre' := by rw [ht1, ht2.1]; simp
        rcases g2 _ hm with h' | h'
        · exact absurd h1 (h' q1)
        · exact absurd h2 (h' q2)
    · cases t with
      | nil => simp only [List.nil_append, List.cons.injEq] at ht2; exact ht2.1.symm
      | cons a t =>
        simp only [List.cons_append, List.cons.injEq] at ht2
        have hm : ((c1', c2'), fn') ∈ pre := by rw [ht1, ht2.1]; simp
        rcases hpre _ hm with h' | h'
        · exact absurd g3 (h' q1')
        · exact absurd g4 (h' q2')
  simp only [Prod.mk.injEq] at this
  obtain ⟨⟨rfl, rfl⟩, rfl⟩ := this
  rw [nodup_fst_inj nd ((io _ _).2 h1) ((io _ _).2 g3), nodup_fst_inj nd ((io _ _).2 h2) ((io _ _).2 g4)]

end Verif.ModelData
