/-
Lazy results as arguments, sums of blocks, and the loops of `wsclean_predict_impl`.
-/
import Verif.Dask.Wsclean
import Verif.Dask.SkyProps

set_option autoImplicit false

namespace Verif.Dask

open Verif.Rime Verif.ModelData

variable {α : Type*}

/-! ### lazy results as arguments -/

theorem locate_spec : ∀ (c : List Nat) (x : Nat), x < c.sum →
    (locate c x).1 < c.length ∧ (locate c x).2 < blockSize c (locate c x).1 ∧
      blockOff c (locate c x).1 + (locate c x).2 = x := by
  intro c
  induction c with
  | nil => intro x h; simp at h
  | cons n cs ih =>
    intro x h
    simp only [locate]
    split_ifs with h1
    · simp [blockSize, blockOff, h1]
    · obtain ⟨h2, h3, h4⟩ := ih (x - n) (by rw [List.sum_cons] at h; omega)
      refine ⟨by simpa using h2, by simpa [blockSize] using h3, ?_⟩
      simp only [blockOff, List.take_succ_cons, List.sum_cons] at h4 ⊢
      omega

theorem firstError_none {β : Type*} : ∀ (l : List (Except PyErr β)), (∀ r ∈ l, ∃ a, r = .ok a) → firstError l = none := by
  intro l
  induction l with
  | nil => intro _; rfl
  | cons r l ih =>
    intro h
    obtain ⟨a, rfl⟩ := h r (by simp)
    exact ih fun r hr => h r (by simp [hr])

theorem firstError_some {β : Type*} : ∀ (l : List (Except PyErr β)) (e : PyErr), .error e ∈ l →
    (∀ e', .error e' ∈ l → e' = e) → firstError l = some e := by
  intro l
  induction l with
  | nil => intro e h; simp at h
  | cons r l ih =>
    intro e h hu
    cases r with
    | error e' => rw [firstError, hu e' (by simp)]
    | ok a =>
      rw [firstError]
      exact ih e (by simpa using h) fun e' h' => hu e' (by simp [h'])

theorem mem_allBlocks : ∀ (cs : List (List Nat)) (b : List Nat), b ∈ allBlocks cs ↔ IsBlock cs b := by
  intro cs
  induction cs with
  | nil => intro b; simp [allBlocks, isBlock_nil]
  | cons c cs ih =>
    intro b
    simp only [allBlocks, List.mem_flatMap, List.mem_range, List.mem_map, isBlock_cons, ih]
    constructor
    · rintro ⟨j, hj, b', hb, rfl⟩; exact ⟨j, b', rfl, hj, hb⟩
    · rintro ⟨j, b', rfl, hj, hb⟩; exact ⟨j, hj, b', hb, rfl⟩

private theorem locate_all : ∀ (cs : List (List Nat)) (i : List Nat), IsIndex (cs.map List.sum) i →
    IsBlock cs ((List.zipWith locate cs i).map Prod.fst) ∧
    IsIndex (List.zipWith blockSize cs ((List.zipWith locate cs i).map Prod.fst)) ((List.zipWith locate cs i).map Prod.snd) ∧
    List.zipWith (· + ·) (List.zipWith blockOff cs ((List.zipWith locate cs i).map Prod.fst))
      ((List.zipWith locate cs i).map Prod.snd) = i := by
  intro cs
  induction cs with
  | nil => intro i h; simp [isIndex_nil] at h; subst h; simp [isBlock_nil, isIndex_nil]
  | cons c cs ih =>
    intro i h
    rw [List.map_cons, isIndex_cons] at h
    obtain ⟨x, i', rfl, hx, hi⟩ := h
    obtain ⟨h1, h2, h3⟩ := locate_spec c x hx
    obtain ⟨k1, k2, k3⟩ := ih i' hi
    simp only [List.zipWith_cons_cons, List.map_cons]
    refine ⟨isBlock_cons.2 ⟨_, _, rfl, h1, k1⟩, isIndex_cons.2 ⟨_, _, rfl, h2, k2⟩, ?_⟩
    rw [h3, k3]

/-- A lazy result that computes an array is that array, as an argument. -/
theorem Lazy.Computes.assemble [Inhabited α] {l : Lazy α} {a : NArr α} (h : l.Computes a) :
    ∃ d, l.assemble = .ok d ∧ d.chunks = l.chunks ∧ ∀ i, IsIndex a.shape i → d.val i = a.val i := by
  unfold Lazy.assemble
  rw [firstError_none]
  · refine ⟨_, rfl, rfl, fun i hi => ?_⟩
    rw [← h.1] at hi
    obtain ⟨h1, h2, h3⟩ := locate_all _ _ hi
    obtain ⟨blk, hb, hs, hv⟩ := h.2 _ h1
    simp only [hb]
    rw [hv _ (by rw [hs]; exact h2), h3]
  · intro r hr
    obtain ⟨b, hb, rfl⟩ := List.mem_map.1 hr
    obtain ⟨blk, hb, _⟩ := h.2 b ((mem_allBlocks _ _).1 hb)
    exact ⟨blk, hb⟩

/-- A lazy result one of whose blocks raises `e`, and none something else, raises `e` as an argument. -/
theorem Lazy.assemble_error [Inhabited α] {l : Lazy α} {e : PyErr} (h : l.Agrees (.error e))
    (hu : ∀ b, IsBlock l.chunks b → ∀ e', l.block b = .error e' → e' = e) : l.assemble = .error e := by
  obtain ⟨b, hb, he⟩ := h
  unfold Lazy.assemble
  rw [firstError_some _ e]
  · exact List.mem_map.2 ⟨b, (mem_allBlocks _ _).2 hb, he⟩
  · intro e' h'
    obtain ⟨b', hb', he'⟩ := List.mem_map.1 h'
    exact hu b' ((mem_allBlocks _ _).1 hb') e' he'

/-! ### sums of blocks -/

theorem sumArrays_ok [AddCommMonoid α] (shape : List Nat) (v : Nat → List Nat → α) : ∀ (n : Nat), 0 < n →
    ∃ u, sumArrays ((List.range n).map fun k => (.ok ⟨shape, v k⟩ : Except PyErr (NArr α))) = .ok ⟨shape, u⟩ ∧
      ∀ i, u i = ∑ k ∈ Finset.range n, v k i := by
  intro n
  induction n generalizing v with
  | zero => intro h; omega
  | succ n ih =>
    intro _
    rw [List.range_succ_eq_map, List.map_cons, List.map_map]
    by_cases hn : n = 0
    · subst hn
      exact ⟨v 0, by simp [sumArrays], by simp⟩
    · obtain ⟨u, hu, hv⟩ := ih (fun k => v (k + 1)) (by omega)
      have hne : (List.range n).map ((fun k => (.ok ⟨shape, v k⟩ : Except PyErr (NArr α))) ∘ Nat.succ) ≠ [] := by
        simpa using hn
      obtain ⟨y, ys, hy⟩ := List.exists_cons_of_ne_nil hne
      have hu' : sumArrays (y :: ys) = .ok ⟨shape, u⟩ := by rw [← hy]; exact hu
      refine ⟨fun i => v 0 i + u i, ?_, fun i => ?_⟩
      · rw [hy, sumArrays, hu']
        · rfl
        · simp
      · show v 0 i + u i = _
        rw [hv, Finset.sum_range_succ', add_comm]

theorem sumArrays_error [Add α] : ∀ (l : List (Except PyErr (NArr α))) (e : PyErr), .error e ∈ l →
    (∀ e', .error e' ∈ l → e' = e) → sumArrays l = .error e := by
  intro l
  induction l with
  | nil => intro e h; simp at h
  | cons x xs ih =>
    intro e h hu
    cases xs with
    | nil => simp at h; simp [sumArrays, ← h]
    | cons y ys =>
      rw [sumArrays]
      · by_cases hm : .error e ∈ y :: ys
        · rw [ih e hm fun e' h' => hu e' (by simp [h'])]; rfl
        · have hx : x = .error e := by
            rcases List.mem_cons.1 h with h | h
            · exact h.symm
            · exact absurd h hm
          cases hs : sumArrays (y :: ys) with
          | error e' =>
            have : ∀ (l : List (Except PyErr (NArr α))) (e' : PyErr), l ≠ [] → sumArrays l = .error e' → .error e' ∈ l := by
              intro l
              induction l with
              | nil => intro _ h; exact absurd rfl h
              | cons z zs ihz =>
                intro e' _ h
                cases zs with
                | nil => simp [sumArrays] at h; simp [h]
                | cons w ws =>
                  rw [sumArrays] at h
                  · cases hw : sumArrays (w :: ws) with
                    | error e2 =>
                      rw [hw] at h
                      obtain rfl : e2 = e' := Except.error.inj h
                      exact List.mem_cons_of_mem _ (ihz _ (by simp) hw)
                    | ok s =>
                      rw [hw] at h
                      cases z with
                      | error e2 =>
                        obtain rfl : e2 = e' := Except.error.inj h
                        simp
                      | ok a => cases h
                  · simp
            have h' := hu e' (List.mem_cons_of_mem _ (this _ _ (by simp) hs))
            rw [h']; rfl
          | ok s => rw [hx]; rfl
      · simp

/-! ### the loops of `wsclean_predict_impl` -/

theorem addSource_val (nr nf : Nat) (g vis : Nat → Nat → ℂ) (r f : Nat) :
    addSource nr nf g vis r f = if r < nr ∧ f < nf then vis r f + g r f else vis r f := by
  have inner : ∀ (r' : Nat) (vis : Nat → Nat → ℂ), (forRange nf vis fun f' vis =>
      Function.update vis r' (Function.update (vis r') f' (vis r' f' + g r' f'))) r f =
      if r = r' ∧ f < nf then vis r f + g r f else vis r f := by
    intro r' vis
    by_cases hr : r = r'
    · subst hr
      by_cases hf : f < nf
      · rw [if_pos ⟨rfl, hf⟩]
        exact forRange_single (fun v : Nat → Nat → ℂ => v r f) f hf (fun z => z + g r f) (fun s => by simp)
          (fun i _ hi s => by simp [Function.update_of_ne (Ne.symm hi)])
      · rw [if_neg (fun h => hf h.2)]
        exact forRange_const (fun v : Nat → Nat → ℂ => v r f) (fun i hi s => by
          have : f ≠ i := by omega
          simp [Function.update_of_ne this])
    · rw [if_neg (fun h => hr h.1)]
      exact forRange_const (fun v : Nat → Nat → ℂ => v r f) (fun i _ s => by simp [Function.update_of_ne hr])
  unfold addSource
  by_cases hr : r < nr
  · have := forRange_single (n := nr) (init := vis) (f := fun r vis => forRange nf vis fun f vis =>
        Function.update vis r (Function.update (vis r) f (vis r f + g r f)))
      (fun v : Nat → Nat → ℂ => v r f) r hr (fun z => if f < nf then z + g r f else z)
      (fun s => by simp only [inner]; simp) (fun i _ hi s => by simp only [inner]; simp [Ne.symm hi])
    rw [this]
    simp [hr]
  · rw [if_neg (fun h => hr h.1)]
    exact forRange_const (fun v : Nat → Nat → ℂ => v r f) (fun i hi s => by
      have : ¬ (r = i ∧ f < nf) := by omega
      simp only [inner, if_neg this])

/-- A source whose type is known and, if it is a Gaussian, has three shape parameters. -/
def GoodSource (t : String) (c : Nat) : Prop := t = "POINT" ∨ t = "GAUSSIAN" ∧ c = 3

/-- What a source adds to the visibility of a row and a channel. -/
noncomputable def sourceTerm (uvw lm : NArr ℝ) (sourceType : NArr String) (gaussShape frequency spectrum : NArr ℝ)
    (s r f : Nat) : ℂ :=
  if sourceType.val [s] = "POINT" then
    wsPoint (lm.val [s, 0]) (lm.val [s, 1]) (uvw.val [r, 0]) (uvw.val [r, 1]) (uvw.val [r, 2]) (frequency.val [f])
      (spectrum.val [s, f])
  else
    wsGauss (lm.val [s, 0]) (lm.val [s, 1]) (uvw.val [r, 0]) (uvw.val [r, 1]) (uvw.val [r, 2]) (frequency.val [f])
      (spectrum.val [s, f]) (gaussShape.val [s, 0]) (gaussShape.val [s, 1]) (gaussShape.val [s, 2])

theorem wsStep_good {uvw lm : NArr ℝ} {sourceType : NArr String} {gaussShape frequency spectrum : NArr ℝ}
    {nr nf c s : Nat} (h : GoodSource (sourceType.val [s]) c) (vis : Nat → Nat → ℂ) :
    wsStep uvw lm sourceType gaussShape frequency spectrum nr nf c s vis =
      .ok (addSource nr nf (sourceTerm uvw lm sourceType gaussShape frequency spectrum s) vis) := by
  unfold wsStep sourceTerm
  rcases h with h | ⟨h, rfl⟩
  · simp only [h, if_true]
  · have : ¬ ("GAUSSIAN" = "POINT") := by decide
    simp only [h, this, if_true, if_false, ne_eq, not_true_eq_false]

theorem wsStep_bad {uvw lm : NArr ℝ} {sourceType : NArr String} {gaussShape frequency spectrum : NArr ℝ}
    {nr nf c s : Nat} (h : ¬ GoodSource (sourceType.val [s]) c) (vis : Nat → Nat → ℂ) :
    wsStep uvw lm sourceType gaussShape frequency spectrum nr nf c s vis = .error .valueError := by
  unfold wsStep
  unfold GoodSource at h
  push Not at h
  rw [if_neg h.1]
  split_ifs with h1 h2
  · rfl
  · exact absurd (not_not.1 h2) (h.2 h1)
  · rfl

theorem wsLoop (uvw lm : NArr ℝ) (sourceType : NArr String) (gaussShape frequency spectrum : NArr ℝ) (nr nf c : Nat) :
    ∀ ns : Nat,
    ((∀ s < ns, GoodSource (sourceType.val [s]) c) →
      ∃ vis, forRangeM ns (fun _ _ => (0 : ℂ)) (wsStep uvw lm sourceType gaussShape frequency spectrum nr nf c) = .ok vis ∧
        ∀ r < nr, ∀ f < nf, vis r f =
          ∑ s ∈ Finset.range ns, sourceTerm uvw lm sourceType gaussShape frequency spectrum s r f) ∧
    ((∃ s < ns, ¬ GoodSource (sourceType.val [s]) c) →
      forRangeM ns (fun _ _ => (0 : ℂ)) (wsStep uvw lm sourceType gaussShape frequency spectrum nr nf c) =
        .error .valueError) := by
  intro ns
  induction ns with
  | zero => exact ⟨fun _ => ⟨_, rfl, by simp⟩, by simp⟩
  | succ n ih =>
    rw [forRangeM_succ]
    constructor
    · intro h
      obtain ⟨vis, h1, h2⟩ := ih.1 fun s hs => h s (by omega)
      rw [h1]
      refine ⟨_, wsStep_good (h n (by omega)) vis, fun r hr f hf => ?_⟩
      rw [addSource_val, if_pos ⟨hr, hf⟩, h2 r hr f hf, Finset.sum_range_succ]
    · intro h
      by_cases hb : ∃ s < n, ¬ GoodSource (sourceType.val [s]) c
      · rw [ih.2 hb]; rfl
      · push Not at hb
        obtain ⟨vis, h1, _⟩ := ih.1 hb
        obtain ⟨s, hs, hg⟩ := h
        obtain rfl : s = n := by
          by_contra hne
          exact hg (hb s (by omega))
        rw [h1]
        exact wsStep_bad hg vis

/-- `wsclean_predict_impl`: the sum over the sources, or `ValueError` for a source it does not know. -/
theorem wsBody_cases (uvw lm : NArr ℝ) (sourceType : NArr String) (gaussShape frequency spectrum : NArr ℝ)
    (nr nf ns c d e g : Nat) (hu : uvw.shape = [nr, d]) (hg : gaussShape.shape = [e, c]) (hf : frequency.shape = [nf])
    (hs : spectrum.shape = [ns, g]) :
    ((∀ s < ns, GoodSource (sourceType.val [s]) c) →
      ∃ v, wsBody uvw lm sourceType gaussShape frequency spectrum = .ok ⟨[nr, nf, 1], v⟩ ∧
        ∀ r < nr, ∀ f < nf, ∀ k, v [r, f, k] =
          ∑ s ∈ Finset.range ns, sourceTerm uvw lm sourceType gaussShape frequency spectrum s r f) ∧
    ((∃ s < ns, ¬ GoodSource (sourceType.val [s]) c) →
      wsBody uvw lm sourceType gaussShape frequency spectrum = .error .valueError) := by
  obtain ⟨h1, h2⟩ := wsLoop uvw lm sourceType gaussShape frequency spectrum nr nf c ns
  unfold wsBody
  rw [hu, hg, hf, hs]
  dsimp only
  constructor
  · intro h
    obtain ⟨vis, h3, h4⟩ := h1 h
    rw [h3]
    exact ⟨_, rfl, fun r hr f hf k => h4 r hr f hf⟩
  · intro h
    rw [h2 h]

end Verif.Dask
