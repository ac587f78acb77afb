/-
What a launch of the conversion kernel leaves in memory.
-/
import Verif.Cuda.ConvertLemmas

set_option autoImplicit false

namespace Verif.Cuda

open Verif.ModelData

/-! ### reading and writing -/

theorem readRegs_eq {α : Type} {E : Nat} {S U : Int} (hS : 0 ≤ S) (inputs : GArr α) (junk : Nat → α) (source elem : Nat)
    (he : elem < E) : readRegs E S U inputs junk source elem =
      if (source : Int) + elem * S < U then inputs.flatInt (source + elem * S) else junk elem := by
  unfold readRegs
  have := forRange_inv (n := E) (init := ((source : Int), junk))
    (f := fun elem s => if s.1 < U then (s.1 + S, Function.update s.2 elem (inputs.flatInt s.1)) else s)
    (P := fun k s => (s.1 = source + k * S ∨ (U ≤ s.1 ∧ U ≤ source + k * S)) ∧ ∀ e, s.2 e =
      if e < k ∧ (source : Int) + e * S < U then inputs.flatInt (source + e * S) else junk e)
    (by simp) (by
      intro k s hk ⟨h1, h2⟩
      have hsucc : (((k + 1 : Nat) : Int)) * S = k * S + S := by push_cast; ring
      by_cases hlt : s.1 < U
      · rw [if_pos hlt]
        have hs : s.1 = source + k * S := by
          rcases h1 with h1 | h1
          · exact h1
          · omega
        refine ⟨Or.inl (by rw [hsucc]; dsimp only; omega), fun e => ?_⟩
        dsimp only
        by_cases hek : e = k
        · subst hek
          rw [Function.update_self, if_pos ⟨by omega, by omega⟩, hs]
        · rw [Function.update_of_ne hek, h2 e]
          by_cases h' : e < k
          · by_cases h'' : (source : Int) + e * S < U
            · rw [if_pos ⟨h', h''⟩, if_pos ⟨by omega, h''⟩]
            · rw [if_neg (by tauto), if_neg (by tauto)]
          · rw [if_neg (by tauto), if_neg (by omega)]
      · rw [if_neg hlt]
        have hU : U ≤ source + k * S := by
          rcases h1 with h1 | h1
          · omega
          · exact h1.2
        refine ⟨Or.inr ⟨by omega, by rw [hsucc]; omega⟩, fun e => ?_⟩
        rw [h2 e]
        by_cases hek : e = k
        · subst hek
          rw [if_neg (by omega), if_neg (by omega)]
        · by_cases h' : e < k
          · by_cases h'' : (source : Int) + e * S < U
            · rw [if_pos ⟨h', h''⟩, if_pos ⟨by omega, h''⟩]
            · rw [if_neg (by tauto), if_neg (by tauto)]
          · rw [if_neg (by tauto), if_neg (by omega)])
  rw [this.2 elem]
  by_cases h : (source : Int) + elem * S < U
  · rw [if_pos ⟨he, h⟩, if_pos h]
  · rw [if_neg (by tauto), if_neg h]

theorem mem_writeRegs {α : Type} {E : Nat} {S U : Int} (hS : 0 ≤ S) (out : Nat → α) (source : Nat) (w : Int × α) :
    w ∈ writeRegs E S U out source ↔ ∃ e < E, (source : Int) + e * S < U ∧ w = (source + e * S, out e) := by
  unfold writeRegs
  have := forRange_inv (n := E) (init := ((source : Int), ([] : List (Int × α))))
    (f := fun elem s => if s.1 < U then (s.1 + S, s.2 ++ [(s.1, out elem)]) else s)
    (P := fun k s => (s.1 = source + k * S ∨ (U ≤ s.1 ∧ U ≤ source + k * S)) ∧ ∀ w, w ∈ s.2 ↔
      ∃ e < k, (source : Int) + e * S < U ∧ w = (source + e * S, out e))
    (by simp) (by
      intro k s hk ⟨h1, h2⟩
      have hsucc : (((k + 1 : Nat) : Int)) * S = k * S + S := by push_cast; ring
      by_cases hlt : s.1 < U
      · rw [if_pos hlt]
        have hs : s.1 = source + k * S := by
          rcases h1 with h1 | h1
          · exact h1
          · omega
        refine ⟨Or.inl (by rw [hsucc]; dsimp only; omega), fun w => ?_⟩
        dsimp only
        rw [List.mem_append, h2 w, List.mem_singleton]
        constructor
        · rintro (⟨e, he, h⟩ | rfl)
          · exact ⟨e, by omega, h⟩
          · exact ⟨k, by omega, by omega, by rw [hs]⟩
        · rintro ⟨e, he, h, h'⟩
          by_cases hek : e = k
          · subst hek; exact Or.inr (by rw [hs]; exact h')
          · exact Or.inl ⟨e, by omega, h, h'⟩
      · rw [if_neg hlt]
        have hU : U ≤ source + k * S := by
          rcases h1 with h1 | h1
          · omega
          · exact h1.2
        refine ⟨Or.inr ⟨by omega, by rw [hsucc]; omega⟩, fun w => ?_⟩
        rw [h2 w]
        constructor
        · rintro ⟨e, he, h⟩; exact ⟨e, by omega, h⟩
        · rintro ⟨e, he, h, h'⟩
          have hek : e ≠ k := by rintro rfl; omega
          exact ⟨e, by omega, h, h'⟩)
  exact this.2 w

/-! ### assignments -/

theorem assign_ne (p : ConvPlan) (input : Nat → ℂ) (m : List MapEntry) (out : Nat → ℂ) (k : Nat)
    (h : ∀ e ∈ m, ravel p.outShape e.2.2.1 ≠ k) :
    m.foldl (fun out (e : MapEntry) => Function.update out (ravel p.outShape e.2.2.1)
      (e.2.2.2 (input (ravel p.inShape e.1)) (input (ravel p.inShape e.2.1)))) out k = out k := by
  induction m generalizing out with
  | nil => rfl
  | cons e m ih =>
    rw [List.foldl_cons, ih _ fun e he => h e (List.mem_cons_of_mem _ he),
      Function.update_of_ne (h e List.mem_cons_self).symm]

theorem assign_value (p : ConvPlan) (input junk : Nat → ℂ) (hn : (p.mapping.map fun e => ravel p.outShape e.2.2.1).Nodup)
    {e : MapEntry} (he : e ∈ p.mapping) : assignRegs p input junk (ravel p.outShape e.2.2.1) =
      e.2.2.2 (input (ravel p.inShape e.1)) (input (ravel p.inShape e.2.1)) := by
  unfold assignRegs
  obtain ⟨pre, post, hm⟩ := List.append_of_mem he
  rw [hm] at hn ⊢
  rw [List.foldl_append, List.foldl_cons, assign_ne]
  · simp
  · intro e' he' hEq
    rw [List.map_append, List.nodup_append] at hn
    have h2 := hn.2.1
    rw [List.map_cons, List.nodup_cons] at h2
    exact h2.1 (List.mem_map.2 ⟨e', he', hEq⟩)

/-! ### a thread -/

/-- What the thread for `source` writes. -/
theorem body_mem (p : ConvPlan) (inputs : GArr ℂ) (junkIn junkOut : Nat → Nat → ℂ) {k n : Nat}
    (hE : size p.inShape = 2 ^ k) (hk : k ≤ 9) (hn : inputs.shape.getD 0 0 = n) (hsmall : 2 ^ k * (n + 2 ^ k) ≤ 2 ^ 31)
    (hval : ∀ input input' junk junk' o, o < 2 ^ k → (∀ e < 2 ^ k, input e = input' e) →
      assignRegs p input junk o = assignRegs p input' junk' o)
    (b t : Dim3) (sh : Empty → ℂ) (w : Int × ℂ) :
    w ∈ (convertKernel p inputs junkIn junkOut).body b t sh ↔
      ∃ q o row, q < 2 ^ k ∧ o < 2 ^ k ∧ row < n ∧ b.x * 512 + t.x < 2 ^ k * ((n + (2 ^ k - 1)) / 2 ^ k) ∧
        row * 2 ^ k + o = b.x * 512 + t.x + q * (2 ^ k * ((n + (2 ^ k - 1)) / 2 ^ k)) ∧
        w = (((row * 2 ^ k + o : Nat) : Int),
          assignRegs p (fun e => inputs.flatInt ((row * 2 ^ k + e : Nat) : Int)) (fun _ => 0) o) := by
  have hdvd : 2 ^ k ∣ 512 := ⟨2 ^ (9 - k), by rw [← pow_add, Nat.add_sub_cancel' hk]; rfl⟩
  have hpos : 0 < 2 ^ k := Nat.two_pow_pos k
  have htr : ∀ x : Nat → Nat → ℂ, _ := Util.Cycles.C91_transpose (α := ℂ) k
  unfold convertKernel
  dsimp only [convertBlock]
  rw [hE, hn]
  generalize hEE : 2 ^ k = E at *
  clear hE
  set G := (n + (E - 1)) / E with hG
  have hGle : E * G ≤ n + (E - 1) := Nat.mul_div_le _ _
  have hGge : n ≤ E * G := by
    have := Nat.div_add_mod (n + (E - 1)) E
    have := Nat.mod_lt (n + (E - 1)) hpos
    rw [← hG] at *
    omega
  have hEn : E * n ≤ E * (n + E) := Nat.mul_le_mul_left _ (by omega)
  have hEn' : E * n < E * (n + E) := Nat.mul_lt_mul_of_pos_left (by omega) hpos
  have hle : n + E ≤ E * (n + E) := Nat.le_mul_of_pos_left _ hpos
  rw [wrap32_eq (k := E * G) (by omega), wrap32_eq (k := E * n) (by omega)]
  set source := b.x * 512 + t.x with hsource
  have hmod : t.x % E = source % E := by
    rw [hsource, Nat.add_mod, Nat.mod_eq_zero_of_dvd (Dvd.dvd.mul_left hdvd _), Nat.zero_add, Nat.mod_mod]
  rw [hmod]
  by_cases hs : source < E * G
  swap
  · rw [if_pos (by exact_mod_cast Nat.le_of_not_lt hs)]
    constructor
    · intro h; cases h
    · rintro ⟨_, _, _, _, _, _, h, _⟩; exact absurd h hs
  rw [if_neg (by exact_mod_cast Nat.not_le.2 hs)]
  obtain ⟨x, hx, hx'⟩ := htr fun lane => readRegs E ((E * G : Nat) : Int) ((E * n : Nat) : Int) inputs
    (junkIn (source - source % E + lane)) (source - source % E + lane)
  rw [hx]
  dsimp only
  obtain ⟨y, hy, hy'⟩ := htr fun lane => assignRegs p (x lane) (junkOut (source - source % E + lane))
  rw [hy]
  dsimp only
  rw [mem_writeRegs (by positivity)]
  have hlane : source % E < E := Nat.mod_lt _ hpos
  have hfirst : source - source % E = E * (source / E) := by
    have := Nat.div_add_mod source E
    omega
  -- the row that lane `q` of the group works on
  have key : ∀ q < E, ∀ row o, row * E + o = source + q * (E * G) → o < E → o = source % E ∧ row = source / E + q * G := by
    intro q _ row o h ho
    have h1 : (row * E + o) % E = o := by
      rw [Nat.add_comm, Nat.add_mul_mod_self_right, Nat.mod_eq_of_lt ho]
    have h2 : (source + q * (E * G)) % E = source % E := by
      rw [show q * (E * G) = E * (q * G) by ring, Nat.add_mul_mod_self_left]
    have h3 : (row * E + o) / E = row := by
      rw [Nat.add_comm, Nat.add_mul_div_right _ _ hpos, Nat.div_eq_of_lt ho, Nat.zero_add]
    have h4 : (source + q * (E * G)) / E = source / E + q * G := by
      rw [show q * (E * G) = E * (q * G) by ring, Nat.add_mul_div_left _ _ hpos]
    rw [h] at h1 h3
    exact ⟨by omega, by omega⟩
  have back : ∀ q, (source / E + q * G) * E + source % E = source + q * (E * G) := by
    intro q
    have := Nat.div_add_mod source E
    calc (source / E + q * G) * E + source % E = (E * (source / E) + source % E) + q * (E * G) := by ring
      _ = _ := by rw [this]
  have value : ∀ q < E, source / E + q * G < n → y (source % E) q =
      assignRegs p (fun e => inputs.flatInt (((source / E + q * G) * E + e : Nat) : Int)) (fun _ => 0) (source % E) := by
    intro q hq hrow
    rw [hy' _ _ hlane hq]
    refine hval _ _ _ _ _ hlane fun e he => ?_
    rw [hx' _ _ hq he, readRegs_eq (by positivity) _ _ _ _ hq]
    have e1 : (((source - source % E + e : Nat) : Int) + q * ((E * G : Nat) : Int)) =
        (((source / E + q * G) * E + e : Nat) : Int) := by
      rw [hfirst]; push_cast; ring
    rw [e1, if_pos]
    have : (source / E + q * G + 1) * E ≤ n * E := Nat.mul_le_mul_right _ hrow
    rw [Nat.add_mul, Nat.mul_comm n] at this
    exact_mod_cast (by omega : (source / E + q * G) * E + e < E * n)
  constructor
  · rintro ⟨q, hq, hlt, rfl⟩
    have hlt' : source + q * (E * G) < E * n := by exact_mod_cast hlt
    have hrow : source / E + q * G < n := by
      rw [← back q] at hlt'
      by_contra hge
      have := Nat.mul_le_mul_right E (Nat.le_of_not_lt hge)
      rw [Nat.mul_comm n] at this
      omega
    refine ⟨q, source % E, source / E + q * G, hq, hlane, hrow, hs, back q, ?_⟩
    rw [value q hq hrow]
    congr 1
    rw [back q]; push_cast; ring
  · rintro ⟨q, o, row, hq, ho, hrow, _, heq, rfl⟩
    obtain ⟨rfl, rfl⟩ := key q hq row o heq ho
    refine ⟨q, hq, ?_, ?_⟩
    · have : (source / E + q * G + 1) * E ≤ n * E := Nat.mul_le_mul_right _ hrow
      rw [Nat.add_mul, Nat.mul_comm n] at this
      have h5 : source + q * (E * G) < E * n := by rw [← back q]; omega
      exact_mod_cast h5
    · rw [value q hq hrow]
      congr 1
      rw [back q]; push_cast; ring

/-- After the launch every cell holds the conversion of its row. -/
theorem convert_run {p : ConvPlan} {inputs : GArr ℂ} {junkIn junkOut : Nat → Nat → ℂ} {k n : Nat}
    (hE : size p.inShape = 2 ^ k) (hk : k ≤ 9) (hn : inputs.shape.getD 0 0 = n) (hsmall : 2 ^ k * (n + 2 ^ k) ≤ 2 ^ 31)
    (hval : ∀ input input' junk junk' o, o < 2 ^ k → (∀ e < 2 ^ k, input e = input' e) →
      assignRegs p input junk o = assignRegs p input' junk' o)
    {out : Int → ℂ} (hr : Runs (convertKernel p inputs junkIn junkOut) (blocks ⟨n, 1, 1⟩ convertBlock) convertBlock out)
    {row o : Nat} (hrow : row < n) (ho : o < 2 ^ k) : out ((row * 2 ^ k + o : Nat) : Int) =
      assignRegs p (fun e => inputs.flatInt ((row * 2 ^ k + e : Nat) : Int)) (fun _ => 0) o := by
  obtain ⟨_, sh, out0, ws, _, hw, rfl⟩ := hr
  have hpos : 0 < 2 ^ k := Nat.two_pow_pos k
  have hbody := body_mem p inputs junkIn junkOut hE hk hn hsmall hval
  have hdvd : 2 ^ k ∣ 512 := ⟨2 ^ (9 - k), by rw [← pow_add, Nat.add_sub_cancel' hk]; rfl⟩
  refine out_eq hw _ _ ?_ ?_
  · intro b _ t _ e he heq
    obtain ⟨q, o', row', hq, ho', hrow', _, _, rfl⟩ := (hbody b t (sh b) e).1 he
    have h1 : row' * 2 ^ k + o' = row * 2 ^ k + o := by
      dsimp only at heq
      exact_mod_cast heq
    have h2 : row' = row := by
      have a1 : (row' * 2 ^ k + o') / 2 ^ k = row' := by
        rw [Nat.add_comm, Nat.add_mul_div_right _ _ hpos, Nat.div_eq_of_lt ho', Nat.zero_add]
      have a2 : (row * 2 ^ k + o) / 2 ^ k = row := by
        rw [Nat.add_comm, Nat.add_mul_div_right _ _ hpos, Nat.div_eq_of_lt ho, Nat.zero_add]
      rw [← a1, h1, a2]
    subst h2
    obtain rfl : o' = o := by omega
    rfl
  · generalize hEE : 2 ^ k = E at *
    set G := (n + (E - 1)) / E with hG
    have hGge : n ≤ E * G := by
      have := Nat.div_add_mod (n + (E - 1)) E
      have := Nat.mod_lt (n + (E - 1)) hpos
      rw [← hG] at *
      omega
    have hG0 : 0 < G := Nat.pos_of_ne_zero fun h => by rw [h] at hGge; omega
    have hg : row % G < G := Nat.mod_lt _ hG0
    set source := row % G * E + o with hs
    have hlt : source < E * G := by
      have : (row % G + 1) * E ≤ G * E := Nat.mul_le_mul_right _ hg
      rw [Nat.add_mul, Nat.mul_comm G] at this
      omega
    have hq : row / G < E := by
      rw [Nat.div_lt_iff_lt_mul hG0]; omega
    have hblk : source / 512 < (n + 512 - 1) / 512 := by
      obtain ⟨c, hc⟩ := hdvd
      have h512 : 512 * ((n + 512 - 1) / 512) ≥ n := by omega
      have : G ≤ c * ((n + 512 - 1) / 512) := by
        rw [hG, ← Nat.lt_succ_iff, Nat.div_lt_iff_lt_mul hpos]
        have : (c * ((n + 512 - 1) / 512)).succ * E = 512 * ((n + 512 - 1) / 512) + E := by
          rw [Nat.succ_mul, hc]; ring
        omega
      have h6 : E * G ≤ E * (c * ((n + 512 - 1) / 512)) := Nat.mul_le_mul_left _ this
      rw [← Nat.mul_assoc, ← hc] at h6
      rw [Nat.div_lt_iff_lt_mul (by omega)]
      omega
    refine ⟨⟨source / 512, 0, 0⟩, ?_, ⟨source % 512, 0, 0⟩, ?_, _, (hbody _ _ _ _).2
      ⟨row / G, o, row, hq, ho, hrow, ?_, ?_, rfl⟩⟩
    · rw [mem_all]
      exact ⟨hblk, by simp [blocks, convertBlock], by simp [blocks, convertBlock]⟩
    · rw [mem_all]
      exact ⟨Nat.mod_lt _ (by decide), by simp [convertBlock], by simp [convertBlock]⟩
    · dsimp only
      rw [Nat.mul_comm, Nat.div_add_mod]
      exact hlt
    · dsimp only
      rw [Nat.mul_comm _ 512, Nat.div_add_mod, hs]
      have := Nat.div_add_mod row G
      calc row * E + o = (G * (row / G) + row % G) * E + o := by rw [this]
        _ = _ := by ring

end Verif.Cuda
