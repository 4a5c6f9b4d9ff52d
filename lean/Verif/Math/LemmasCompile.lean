import Verif.Math.ModelCompile
import Verif.Math.SpecCompile
import Verif.Math.LemmasArith

/-! Lemmas for C65. -/

set_option linter.unusedSectionVars false

namespace Verif.Arith

variable {F : Type*} {R : Type*} [CommRing R]

theorem runFrom_append (b : Bool) (emb : F → R) (q : List R) : ∀ (code code' : List (Instr F)) (n : Nat)
    (m : Nat → Option R), runFrom b emb q n m (code ++ code') =
      (runFrom b emb q n m code).bind fun m => runFrom b emb q (n + code.length) m code'
  | [], code', n, m => rfl
  | i :: is, code', n, m => by
    rw [List.cons_append, runFrom, runFrom]
    cases exec b emb q n m i with
    | none => rfl
    | some m' =>
      rw [Option.bind_some, Option.bind_some, runFrom_append b emb q is code' (n + 1) m']
      rw [List.length_cons, show n + 1 + is.length = n + (is.length + 1) by omega]

/-- The state of the compiler is consistent with the values `v` of the steps: `G k` is the slot that holds
the value of step `k`, `T k` says that step `k` has been compiled. -/
structure Inv (c : Circuit F) (emb : F → R) (q : List R) (b : Bool) (v : Nat → R) (st : CState F)
    (m : Nat → Option R) (G : Nat → Option Nat) (T : Nat → Prop) : Prop where
  run : runFrom b emb q 0 (fun _ => none) st.code = some m
  bound : ∀ s x, m s = some x → s < st.code.length
  held : ∀ k s, G k = some s → T k ∧ m s = some (v k)
  inj : ∀ k k' s, G k = some s → G k' = some s → k = k'
  cache : ∀ k, ¬OddPow c k → st.toConv k = G k
  cacheOdd : ∀ k s, OddPow c k → st.toConv k = some s → T k ∧ s < st.code.length ∧ ∀ p, G p ≠ some s
  back : ∀ s k, st.toOrig s = some k ↔ st.toConv k = some s
  touched : ∀ k, T k → isOp c k = true

section inv

variable {c : Circuit F} {emb : F → R} {q : List R} {b : Bool} {v : Nat → R} {st : CState F}
  {m : Nat → Option R} {G : Nat → Option Nat} {T : Nat → Prop}

theorem Inv.heldBound (h : Inv c emb q b v st m G T) {k s : Nat} (hk : G k = some s) :
    s < st.code.length := h.bound s _ (h.held k s hk).2

theorem Inv.convBound (h : Inv c emb q b v st m G T) {k s : Nat} (hk : st.toConv k = some s) :
    s < st.code.length := by
  by_cases ho : OddPow c k
  · exact (h.cacheOdd k s ho hk).2.1
  · exact h.heldBound ((h.cache k ho).symm.trans hk)

theorem Inv.val_update (h : Inv c emb q b v st m G T) {a : Arg F} {x : R} (y : Option R)
    (ha : a.val emb q m = some x) : a.val emb q (Function.update m st.code.length y) = some x := by
  cases a with
  | var i => exact ha
  | const k => exact ha
  | slot s =>
    have : m s = some x := ha
    have hs := h.bound s x this
    show Function.update m st.code.length y s = some x
    rw [Function.update_of_ne (by omega), this]

theorem Inv.run_push (h : Inv c emb q b v st m G T) {ins : Instr F} {m' : Nat → Option R}
    (hex : exec b emb q st.code.length m ins = some m') :
    runFrom b emb q 0 (fun _ => none) (st.code ++ [ins]) = some m' := by
  rw [runFrom_append, h.run, Option.bind_some, runFrom, Nat.zero_add, hex, Option.bind_some, runFrom]

theorem Inv.bound_push (h : Inv c emb q b v st m G T) (ins : Instr F) (y : Option R) (s : Nat) (x : R)
    (hs : Function.update m st.code.length y s = some x) : s < (st.code ++ [ins]).length := by
  rw [List.length_append, List.length_singleton]
  by_cases e : s = st.code.length
  · omega
  · rw [Function.update_of_ne e] at hs
    have := h.bound s x hs
    omega

theorem Inv.push (h : Inv c emb q b v st m G T) {ins : Instr F} {x : R}
    (hex : exec b emb q st.code.length m ins = some (Function.update m st.code.length (some x))) :
    Inv c emb q b v (st.push ins).2 (Function.update m st.code.length (some x)) G T where
  run := h.run_push hex
  bound := h.bound_push ins _
  held := fun k s hk => by
    have := h.heldBound hk
    rw [Function.update_of_ne (by omega)]
    exact h.held k s hk
  inj := h.inj
  cache := h.cache
  cacheOdd := fun k s ho hk => by
    obtain ⟨h1, h2, h3⟩ := h.cacheOdd k s ho hk
    refine ⟨h1, ?_, h3⟩
    show s < (st.code ++ [ins]).length
    rw [List.length_append]
    omega
  back := h.back
  touched := h.touched

theorem Inv.register_push (h : Inv c emb q b v st m G T) {ins : Instr F} {i : Nat} (hT : ¬T i)
    (ho : ¬OddPow c i) (hop : isOp c i = true)
    (hex : exec b emb q st.code.length m ins = some (Function.update m st.code.length (some (v i)))) :
    Inv c emb q b v ((st.register i st.code.length).push ins).2
      (Function.update m st.code.length (some (v i))) (Function.update G i (some st.code.length))
      (fun k => T k ∨ k = i) := by
  have hG : G i = none := by
    cases hg : G i with
    | none => rfl
    | some s => exact absurd (h.held i s hg).1 hT
  have hconv : st.toConv i = none := (h.cache i ho).trans hG
  refine ⟨h.run_push hex, h.bound_push ins _, ?_, ?_, ?_, ?_, ?_, ?_⟩
  · intro k s hk
    by_cases e : k = i
    · subst e
      rw [Function.update_self] at hk
      cases hk
      exact ⟨Or.inr rfl, Function.update_self ..⟩
    · rw [Function.update_of_ne e] at hk
      have := h.heldBound hk
      rw [Function.update_of_ne (by omega)]
      exact ⟨Or.inl (h.held k s hk).1, (h.held k s hk).2⟩
  · intro k k' s hk hk'
    by_cases e : k = i
    · by_cases e' : k' = i
      · rw [e, e']
      · subst e
        rw [Function.update_self] at hk
        rw [Function.update_of_ne e'] at hk'
        have := h.heldBound hk'
        cases hk
        omega
    · rw [Function.update_of_ne e] at hk
      by_cases e' : k' = i
      · subst e'
        rw [Function.update_self] at hk'
        have := h.heldBound hk
        cases hk'
        omega
      · rw [Function.update_of_ne e'] at hk'
        exact h.inj k k' s hk hk'
  · intro k hk
    show Function.update st.toConv i (some st.code.length) k = _
    by_cases e : k = i
    · subst e
      rw [Function.update_self, Function.update_self]
    · rw [Function.update_of_ne e, Function.update_of_ne e, h.cache k hk]
  · intro k s hk hs
    have e : k ≠ i := fun e => ho (e ▸ hk)
    have hs' : Function.update st.toConv i (some st.code.length) k = some s := hs
    rw [Function.update_of_ne e] at hs'
    obtain ⟨h1, h2, h3⟩ := h.cacheOdd k s hk hs'
    refine ⟨Or.inl h1, ?_, fun p hp => ?_⟩
    · show s < (st.code ++ [ins]).length
      rw [List.length_append]
      omega
    · by_cases e' : p = i
      · subst e'
        rw [Function.update_self] at hp
        cases hp
        omega
      · rw [Function.update_of_ne e'] at hp
        exact h3 p hp
  · intro s k
    show Function.update st.toOrig st.code.length (some i) s = some k ↔
      Function.update st.toConv i (some st.code.length) k = some s
    by_cases e : s = st.code.length
    · subst e
      rw [Function.update_self]
      by_cases e' : k = i
      · subst e'
        rw [Function.update_self]
        simp
      · rw [Function.update_of_ne e']
        constructor
        · intro hk
          cases hk
          exact absurd rfl e'
        · intro hk
          have := h.convBound hk
          omega
    · rw [Function.update_of_ne e, h.back s k]
      by_cases e' : k = i
      · subst e'
        rw [Function.update_self, hconv]
        constructor
        · intro hk
          cases hk
        · intro hk
          cases hk
          exact absurd rfl e
      · rw [Function.update_of_ne e']
  · rintro k (hk | rfl)
    exacts [h.touched k hk, hop]

/-- Registration of an odd power at its last squaring. -/
theorem Inv.register_odd (h : Inv c emb q b v st m G T) {ins : Instr F} {i : Nat} {x : R} (hT : ¬T i)
    (ho : OddPow c i) (hop : isOp c i = true) (hconv : st.toConv i = none)
    (hex : exec b emb q st.code.length m ins = some (Function.update m st.code.length (some x))) :
    Inv c emb q b v ((st.register i st.code.length).push ins).2
      (Function.update m st.code.length (some x)) G (fun k => T k ∨ k = i) := by
  refine ⟨h.run_push hex, h.bound_push ins _, ?_, h.inj, ?_, ?_, ?_, ?_⟩
  · intro k s hk
    have := h.heldBound hk
    rw [Function.update_of_ne (by omega)]
    exact ⟨Or.inl (h.held k s hk).1, (h.held k s hk).2⟩
  · intro k hk
    have e : k ≠ i := fun e => hk (e ▸ ho)
    show Function.update st.toConv i (some st.code.length) k = _
    rw [Function.update_of_ne e, h.cache k hk]
  · intro k s hk hs
    have hs' : Function.update st.toConv i (some st.code.length) k = some s := hs
    by_cases e : k = i
    · subst e
      rw [Function.update_self] at hs'
      cases hs'
      refine ⟨Or.inr rfl, ?_, fun p hp => ?_⟩
      · show st.code.length < (st.code ++ [ins]).length
        rw [List.length_append, List.length_singleton]
        omega
      · have := h.heldBound hp
        omega
    · rw [Function.update_of_ne e] at hs'
      obtain ⟨h1, h2, h3⟩ := h.cacheOdd k s hk hs'
      refine ⟨Or.inl h1, ?_, h3⟩
      show s < (st.code ++ [ins]).length
      rw [List.length_append]
      omega
  · intro s k
    show Function.update st.toOrig st.code.length (some i) s = some k ↔
      Function.update st.toConv i (some st.code.length) k = some s
    by_cases e : s = st.code.length
    · subst e
      rw [Function.update_self]
      by_cases e' : k = i
      · subst e'
        rw [Function.update_self]
        simp
      · rw [Function.update_of_ne e']
        constructor
        · intro hk
          cases hk
          exact absurd rfl e'
        · intro hk
          have := h.convBound hk
          omega
    · rw [Function.update_of_ne e, h.back s k]
      by_cases e' : k = i
      · subst e'
        rw [Function.update_self, hconv]
        constructor
        · intro hk
          cases hk
        · intro hk
          cases hk
          exact absurd rfl e
      · rw [Function.update_of_ne e']
  · rintro k (hk | rfl)
    exacts [h.touched k hk, hop]

/-- The last product of an odd power holds its value. -/
theorem Inv.push_hold (h : Inv c emb q b v st m G T) {ins : Instr F} {i : Nat} (hT : T i)
    (ho : OddPow c i)
    (hex : exec b emb q st.code.length m ins = some (Function.update m st.code.length (some (v i)))) :
    Inv c emb q b v (st.push ins).2 (Function.update m st.code.length (some (v i)))
      (Function.update G i (some st.code.length)) T := by
  have hp := h.push hex
  refine ⟨hp.run, hp.bound, ?_, ?_, ?_, ?_, hp.back, hp.touched⟩
  · intro k s hk
    by_cases e : k = i
    · subst e
      rw [Function.update_self] at hk
      cases hk
      exact ⟨hT, Function.update_self ..⟩
    · rw [Function.update_of_ne e] at hk
      exact hp.held k s hk
  · intro k k' s hk hk'
    by_cases e : k = i
    · by_cases e' : k' = i
      · rw [e, e']
      · subst e
        rw [Function.update_self] at hk
        rw [Function.update_of_ne e'] at hk'
        have := h.heldBound hk'
        cases hk
        omega
    · rw [Function.update_of_ne e] at hk
      by_cases e' : k' = i
      · subst e'
        rw [Function.update_self] at hk'
        have := h.heldBound hk
        cases hk'
        omega
      · rw [Function.update_of_ne e'] at hk'
        exact h.inj k k' s hk hk'
  · intro k hk
    have e : k ≠ i := fun e => hk (e ▸ ho)
    rw [Function.update_of_ne e]
    exact hp.cache k hk
  · intro k s hk hs
    obtain ⟨h1, h2, h3⟩ := hp.cacheOdd k s hk hs
    refine ⟨h1, h2, fun p hpp => ?_⟩
    by_cases e' : p = i
    · subst e'
      rw [Function.update_self] at hpp
      have hs' : st.toConv k = some s := hs
      have := h.convBound hs'
      cases hpp
      omega
    · rw [Function.update_of_ne e'] at hpp
      exact h3 p hpp

/-- An accumulation in place. -/
theorem Inv.fuse (h : Inv c emb q b v st m G T) {ins : Instr F} {i l s : Nat} (hT : ¬T i)
    (ho : ¬OddPow c i) (hop : isOp c i = true) (hl : G l = some s)
    (hex : exec b emb q st.code.length m ins = some (Function.update m s (some (v i)))) :
    Inv c emb q b v (((st.clearStep s).register i s).push ins).2
      (Function.update m s (some (v i))) (Function.update (Function.update G l none) i (some s))
      (fun k => T k ∨ k = i) := by
  classical
  have hsb := h.heldBound hl
  have hG : G i = none := by
    cases hg : G i with
    | none => rfl
    | some s => exact absurd (h.held i s hg).1 hT
  have hli : l ≠ i := by
    rintro rfl
    rw [hl] at hG
    cases hG
  have hconv : st.toConv i = none := (h.cache i ho).trans hG
  -- the cache after the old entry of the slot is cleared
  obtain ⟨cv, og, hst, hcv, hog⟩ : ∃ (cv og : Nat → Option Nat),
      st.clearStep s = { st with toConv := cv, toOrig := og } ∧
      (∀ k, cv k = if k = l ∧ ¬OddPow c l then none else st.toConv k) ∧
      (∀ t, og t = if t = s then none else st.toOrig t) := by
    by_cases hlo : OddPow c l
    · have hnone : st.toOrig s = none := by
        cases hk : st.toOrig s with
        | none => rfl
        | some k =>
          have hk' := (h.back s k).1 hk
          by_cases hko : OddPow c k
          · exact absurd hl ((h.cacheOdd k s hko hk').2.2 l)
          · have := h.inj k l s ((h.cache k hko).symm.trans hk') hl
            exact absurd (this ▸ hlo) hko
      refine ⟨st.toConv, st.toOrig, ?_, fun k => ?_, fun t => ?_⟩
      · rw [CState.clearStep, hnone]
      · rw [if_neg (fun hh => hh.2 hlo)]
      · by_cases e : t = s
        · rw [if_pos e, e, hnone]
        · rw [if_neg e]
    · have hsome : st.toOrig s = some l := (h.back s l).2 ((h.cache l hlo).trans hl)
      refine ⟨Function.update st.toConv l none, Function.update st.toOrig s none, ?_, fun k => ?_, fun t => ?_⟩
      · rw [CState.clearStep, hsome]
      · by_cases e : k = l
        · rw [e, Function.update_self, if_pos ⟨rfl, hlo⟩]
        · rw [Function.update_of_ne e, if_neg (fun hh => e hh.1)]
      · by_cases e : t = s
        · rw [e, Function.update_self, if_pos rfl]
        · rw [Function.update_of_ne e, if_neg e]
  have hnots : ∀ k, cv k ≠ some s := by
    intro k hk
    rw [hcv] at hk
    split at hk
    · cases hk
    · rename_i hne
      by_cases hko : OddPow c k
      · exact (h.cacheOdd k s hko hk).2.2 l hl
      · have := h.inj k l s ((h.cache k hko).symm.trans hk) hl
        exact hne ⟨this, this ▸ hko⟩
  have hsub : ∀ k t, cv k = some t → st.toConv k = some t := by
    intro k t hk
    rw [hcv] at hk
    split at hk
    · cases hk
    · exact hk
  rw [hst]
  refine ⟨h.run_push hex, ?_, ?_, ?_, ?_, ?_, ?_, ?_⟩
  · intro t x ht
    show t < (st.code ++ [ins]).length
    rw [List.length_append]
    by_cases e : t = s
    · omega
    · rw [Function.update_of_ne e] at ht
      have := h.bound t x ht
      omega
  · intro k t hk
    by_cases e : k = i
    · subst e
      rw [Function.update_self] at hk
      cases hk
      exact ⟨Or.inr rfl, Function.update_self ..⟩
    · rw [Function.update_of_ne e] at hk
      by_cases e2 : k = l
      · rw [e2, Function.update_self] at hk
        cases hk
      · rw [Function.update_of_ne e2] at hk
        have hts : t ≠ s := fun hts => e2 (h.inj k l s (hts ▸ hk) hl)
        rw [Function.update_of_ne hts]
        exact ⟨Or.inl (h.held k t hk).1, (h.held k t hk).2⟩
  · have key : ∀ k t, k ≠ i → Function.update (Function.update G l none) i (some s) k = some t →
        G k = some t ∧ t ≠ s := by
      intro k t e hk
      rw [Function.update_of_ne e] at hk
      by_cases e2 : k = l
      · rw [e2, Function.update_self] at hk
        cases hk
      · rw [Function.update_of_ne e2] at hk
        exact ⟨hk, fun hts => e2 (h.inj k l s (hts ▸ hk) hl)⟩
    intro k k' t hk hk'
    by_cases e : k = i
    · by_cases e' : k' = i
      · rw [e, e']
      · subst e
        rw [Function.update_self] at hk
        cases hk
        exact absurd rfl (key k' s e' hk').2
    · by_cases e' : k' = i
      · subst e'
        rw [Function.update_self] at hk'
        cases hk'
        exact absurd rfl (key k s e hk).2
      · exact h.inj k k' t (key k t e hk).1 (key k' t e' hk').1
  · intro k hk
    show Function.update cv i (some s) k = _
    by_cases e : k = i
    · subst e
      rw [Function.update_self, Function.update_self]
    · rw [Function.update_of_ne e, Function.update_of_ne e, hcv]
      by_cases e2 : k = l
      · subst e2
        rw [Function.update_self, if_pos ⟨rfl, hk⟩]
      · rw [Function.update_of_ne e2, if_neg (fun hh => e2 hh.1), h.cache k hk]
  · intro k t hk ht
    have e : k ≠ i := fun e => ho (e ▸ hk)
    have ht' : Function.update cv i (some s) k = some t := ht
    rw [Function.update_of_ne e] at ht'
    obtain ⟨h1, h2, h3⟩ := h.cacheOdd k t hk (hsub k t ht')
    refine ⟨Or.inl h1, ?_, fun p hp => ?_⟩
    · show t < (st.code ++ [ins]).length
      rw [List.length_append]
      omega
    · by_cases e' : p = i
      · subst e'
        rw [Function.update_self] at hp
        cases hp
        exact hnots k ht'
      · rw [Function.update_of_ne e'] at hp
        by_cases e2 : p = l
        · rw [e2, Function.update_self] at hp
          cases hp
        · rw [Function.update_of_ne e2] at hp
          exact h3 p hp
  · intro t k
    show Function.update og s (some i) t = some k ↔ Function.update cv i (some s) k = some t
    by_cases e : t = s
    · subst e
      rw [Function.update_self]
      by_cases e' : k = i
      · subst e'
        rw [Function.update_self]
        simp
      · rw [Function.update_of_ne e']
        constructor
        · intro hk
          cases hk
          exact absurd rfl e'
        · intro hk
          exact absurd hk (hnots k)
    · rw [Function.update_of_ne e, hog, if_neg e, h.back t k]
      by_cases e' : k = i
      · subst e'
        rw [Function.update_self, hconv]
        constructor
        · intro hk
          cases hk
        · intro hk
          cases hk
          exact absurd rfl e
      · rw [Function.update_of_ne e', hcv]
        by_cases e2 : k = l ∧ ¬OddPow c l
        · rw [if_pos e2, e2.1, (h.cache l e2.2).trans hl]
          constructor
          · intro hk
            cases hk
            exact absurd rfl e
          · intro hk
            cases hk
        · rw [if_neg e2]
  · rintro k (hk | rfl)
    exacts [h.touched k hk, hop]

end inv

section order

variable {c : Circuit F} {G G1 G2 : Nat → Option Nat} {T T1 T2 : Nat → Prop}

/-- A compiled step whose slot is no longer held, or whose entry in the cache is wrong. -/
def Stale (c : Circuit F) (G : Nat → Option Nat) (T : Nat → Prop) (p : Nat) : Prop :=
  T p ∧ (G p = none ∨ OddPow c p)

/-- A step that may be used once and whose user has been compiled. -/
def Spent (c : Circuit F) (T : Nat → Prop) (p : Nat) : Prop :=
  (OddPow c p ∨ Accumulator c p) ∧
    ∃ (a : Nat) (s : Step F), Asked c a ∧ c[a]? = some s ∧ p ∈ operands c s ∧ T a

theorem Spent.mono (h : ∀ k, T k → T1 k) {p : Nat} (hp : Spent c T p) : Spent c T1 p := by
  obtain ⟨h1, a, s, h2, h3, h4, h5⟩ := hp
  exact ⟨h1, a, s, h2, h3, h4, h a h5⟩

/-- Step `i` may be asked for. -/
def Ready (c : Circuit F) (G : Nat → Option Nat) (T : Nat → Prop) (i : Nat) : Prop :=
  ¬Stale c G T i ∧ ∀ p, Stale c G T p → ∀ (a : Nat) (s : Step F), Asked c a → c[a]? = some s →
    p ∈ operands c s → T a ∨ i < a

/-- What has changed while the operands `done` of step `i` were compiled. -/
structure Mid (c : Circuit F) (i : Nat) (done : List Nat) (G : Nat → Option Nat) (T : Nat → Prop)
    (G' : Nat → Option Nat) (T' : Nat → Prop) : Prop where
  mono : ∀ k, T k → T' k
  new : ∀ k, T' k → T k ∨ k < i
  keep : ∀ k s, G k = some s → G' k = some s ∨ Spent c T' k
  stale : ∀ p, Stale c G' T' p → Stale c G T p ∨ Spent c T' p ∨ (p ∈ done ∧ OddPow c p)

/-- What has changed while step `i` was compiled. -/
structure Post (c : Circuit F) (i : Nat) (G : Nat → Option Nat) (T : Nat → Prop)
    (G' : Nat → Option Nat) (T' : Nat → Prop) : Prop where
  mono : ∀ k, T k → T' k
  new : ∀ k, T' k → T k ∨ k ≤ i
  keep : ∀ k s, G k = some s → G' k = some s ∨ Spent c T' k
  stale : ∀ p, Stale c G' T' p → Stale c G T p ∨ Spent c T' p ∨ (p = i ∧ OddPow c i)

theorem Mid.nil (i : Nat) : Mid c i [] G T G T :=
  ⟨fun _ h => h, fun _ h => Or.inl h, fun _ _ h => Or.inl h, fun _ h => Or.inl h⟩

theorem Mid.ready {i j : Nat} {si : Step F} {done rest : List Nat} (hsafe : Safe c) (hA : Asked c i)
    (hi : c[i]? = some si) (hT : ¬T i) (hr : Ready c G T i) (hop : operands c si = done ++ j :: rest)
    (hj : j < i) (h : Mid c i done G T G1 T1) : Ready c G1 T1 j := by
  have hjm : j ∈ operands c si := by rw [hop]; simp
  have hT1 : ¬T1 i := fun ht => (h.new i ht).elim hT (fun hh => absurd hh (lt_irrefl i))
  refine ⟨fun hs => ?_, fun p hp a s hAa ha hpa => ?_⟩
  · rcases h.stale j hs with h0 | ⟨hf, a, s, hAa, ha, hpa, hTa⟩ | ⟨hd, ho⟩
    · rcases hr.2 j h0 i si hA hi hjm with h' | h'
      · exact hT h'
      · exact lt_irrefl i h'
    · have := (hsafe.once j hf i a si s hA hAa hi ha hjm hpa).1
      exact hT1 (this ▸ hTa)
    · have := (hsafe.once j (Or.inl ho) i i si si hA hA hi hi hjm hjm).2
      rw [hop, List.count_append, List.count_cons_self] at this
      have h1 := List.count_pos_iff.2 hd
      omega
  · rcases h.stale p hp with h0 | ⟨hf, a', s', hAa', ha', hpa', hTa'⟩ | ⟨hd, ho⟩
    · rcases hr.2 p h0 a s hAa ha hpa with h' | h'
      · exact Or.inl (h.mono a h')
      · exact Or.inr (hj.trans h')
    · have := (hsafe.once p hf a a' s s' hAa hAa' ha ha' hpa hpa').1
      exact Or.inl (this ▸ hTa')
    · have hpm : p ∈ operands c si := by rw [hop]; exact List.mem_append_left _ hd
      have := (hsafe.once p (Or.inl ho) a i s si hAa hA ha hi hpa hpm).1
      exact Or.inr (this ▸ hj)

theorem Mid.next {i j : Nat} {si : Step F} {done rest : List Nat} (hsafe : Safe c) (hA : Asked c i)
    (hi : c[i]? = some si) (hT : ¬T i) (hop : operands c si = done ++ j :: rest)
    (hj : j < i) (h : Mid c i done G T G1 T1) (hp : Post c j G1 T1 G2 T2) :
    Mid c i (done ++ [j]) G T G2 T2 ∧ ∀ x s, x ∈ done → G1 x = some s → G2 x = some s := by
  refine ⟨⟨fun k hk => hp.mono k (h.mono k hk), fun k hk => ?_, fun k s hk => ?_, fun p hs => ?_⟩, ?_⟩
  · rcases hp.new k hk with h1 | h1
    · exact h.new k h1
    · exact Or.inr (h1.trans_lt hj)
  · rcases h.keep k s hk with h1 | h1
    · exact hp.keep k s h1
    · exact Or.inr (h1.mono hp.mono)
  · rcases hp.stale p hs with h1 | h1 | ⟨rfl, h1⟩
    · rcases h.stale p h1 with h2 | h2 | ⟨h2, h3⟩
      · exact Or.inl h2
      · exact Or.inr (Or.inl (h2.mono hp.mono))
      · exact Or.inr (Or.inr ⟨List.mem_append_left _ h2, h3⟩)
    · exact Or.inr (Or.inl h1)
    · exact Or.inr (Or.inr ⟨by simp, h1⟩)
  · intro x s hx hg
    rcases hp.keep x s hg with h1 | ⟨hf, a, t, hAa, ha, hxa, hTa⟩
    · exact h1
    · have hxm : x ∈ operands c si := by rw [hop]; exact List.mem_append_left _ hx
      have := (hsafe.once x hf i a si t hA hAa hi ha hxm hxa).1
      rw [← this] at hTa
      rcases hp.new i hTa with h1 | h1
      · exact ((h.new i h1).elim hT (fun hh => absurd hh (lt_irrefl i))).elim
      · omega

theorem Mid.finish {i : Nat} {si : Step F} {done : List Nat} (hA : Asked c i)
    (hi : c[i]? = some si) (hG : G i = none) (hop : ∀ x ∈ done, x ∈ operands c si)
    (h : Mid c i done G T G1 T1) {s : Nat} (hs : G2 i = some s)
    (hrest : ∀ k, k ≠ i → G2 k = G1 k ∨ Spent c (fun k => T1 k ∨ k = i) k) :
    Post c i G T G2 (fun k => T1 k ∨ k = i) := by
  refine ⟨fun k hk => Or.inl (h.mono k hk), fun k hk => ?_, fun k t hk => ?_, fun p hp => ?_⟩
  · rcases hk with h1 | rfl
    · exact (h.new k h1).imp_right le_of_lt
    · exact Or.inr le_rfl
  · have hki : k ≠ i := by
      rintro rfl
      rw [hG] at hk
      cases hk
    rcases h.keep k t hk with h1 | h1
    · rcases hrest k hki with h2 | h2
      · exact Or.inl (h2.trans h1)
      · exact Or.inr h2
    · exact Or.inr (h1.mono fun _ => Or.inl)
  · obtain ⟨hT, hst⟩ := hp
    by_cases e : p = i
    · subst e
      rcases hst with h1 | h1
      · rw [hs] at h1
        cases h1
      · exact Or.inr (Or.inr ⟨rfl, h1⟩)
    · have hT1 : T1 p := hT.resolve_right e
      rcases hrest p e with h2 | h2
      · rcases h.stale p ⟨hT1, hst.imp_left (fun hh => h2.symm.trans hh)⟩ with h3 | h3 | ⟨h3, h4⟩
        · exact Or.inl h3
        · exact Or.inr (Or.inl (h3.mono fun _ => Or.inl))
        · exact Or.inr (Or.inl ⟨Or.inl h4, i, si, hA, hi, hop p h3, Or.inr rfl⟩)
      · exact Or.inr (Or.inl h2)

end order

section pow

variable {c : Circuit F} {emb : F → R} {q : List R} {b : Bool} {v : Nat → R}
  {G : Nat → Option Nat} {T : Nat → Prop}

theorem div_two_pow_succ (e k : Nat) :
    e / 2 ^ k = 2 * (e / 2 ^ (k + 1)) + if e.testBit k then 1 else 0 := by
  have h1 : e / 2 ^ (k + 1) = e / 2 ^ k / 2 := by rw [pow_succ, Nat.div_div_eq_div_mul]
  have h2 : e.testBit k = decide (e / 2 ^ k % 2 = 1) := Nat.testBit_eq_decide_div_mod_eq
  rw [h1, h2]
  by_cases h : e / 2 ^ k % 2 = 1
  · simp only [h, decide_true, if_true]
    omega
  · simp only [h, decide_false]
    simp only [Bool.false_eq_true, if_false]
    omega

theorem powLoop_spec {i x e : Nat} (hi : c[i]? = some (.pow x e)) (hT : ¬T i)
    {base : Arg F} (hvi : v i = v x ^ e) : ∀ (k : Nat) (acc : Arg F) (st : CState F) (m : Nat → Option R),
    Inv c emb q b v st m G T → st.toConv i = none →
    base.val emb q m = some (v x) → acc.val emb q m = some (v x ^ (e / 2 ^ (k + 1))) →
    ∃ s st' m', powLoop i e base (k + 1) acc st = (.slot s, st') ∧
      Inv c emb q b v st' m' (Function.update G i (some s)) (fun t => T t ∨ t = i) := by
  have hop : isOp c i = true := by simp [isOp, hi, Step.isOp]
  intro k
  induction k with
  | zero =>
    intro acc st m h hconv hbase hacc
    have hexs : exec b emb q st.code.length m (.square acc) =
        some (Function.update m st.code.length (some (v x ^ (e / 2 ^ 1) * v x ^ (e / 2 ^ 1)))) := by
      rw [exec, hacc, Option.bind_some]
    have hd := div_two_pow_succ e 0
    rw [pow_zero, Nat.div_one, zero_add] at hd
    by_cases hbit : e.testBit 0 = true
    · have hodd : OddPow c i := ⟨x, e, hi, by simpa using hbit⟩
      have h1 := h.register_odd hT hodd hop hconv hexs
      have hexm : exec b emb q ((st.register i st.code.length).push (.square acc)).2.code.length
          (Function.update m st.code.length (some (v x ^ (e / 2 ^ 1) * v x ^ (e / 2 ^ 1))))
          (.mul (.slot st.code.length) base) = some (Function.update
            (Function.update m st.code.length (some (v x ^ (e / 2 ^ 1) * v x ^ (e / 2 ^ 1))))
            ((st.register i st.code.length).push (.square acc)).2.code.length (some (v i))) := by
        rw [exec, h.val_update _ hbase]
        show (Function.update m st.code.length _ st.code.length).bind _ = _
        rw [Function.update_self, Option.bind_some, Option.bind_some, hvi]
        congr 3
        rw [if_pos hbit] at hd
        conv_rhs => rw [hd]
        ring
      have h2 := h1.push_hold (Or.inr rfl) hodd hexm
      refine ⟨_, _, _, ?_, h2⟩
      rw [powLoop, if_pos rfl]
      simp only [hbit, if_true, powLoop]
      rfl
    · have hnodd : ¬OddPow c i := by
        rintro ⟨x', e', hi', ho⟩
        rw [hi] at hi'
        cases hi'
        exact hbit (by simpa using ho)
      have hexs' : exec b emb q st.code.length m (.square acc) =
          some (Function.update m st.code.length (some (v i))) := by
        rw [hexs, hvi]
        congr 3
        rw [if_neg hbit, add_zero] at hd
        conv_rhs => rw [hd]
        ring
      refine ⟨_, _, _, ?_, h.register_push hT hnodd hop hexs'⟩
      rw [powLoop, if_pos rfl]
      simp only [hbit, powLoop]
      rfl
  | succ k ih =>
    intro acc st m h hconv hbase hacc
    have hexs : exec b emb q st.code.length m (.square acc) =
        some (Function.update m st.code.length
          (some (v x ^ (e / 2 ^ (k + 1 + 1)) * v x ^ (e / 2 ^ (k + 1 + 1))))) := by
      rw [exec, hacc, Option.bind_some]
    have hd := div_two_pow_succ e (k + 1)
    have h1 := h.push hexs
    have hb1 := h.val_update (some (v x ^ (e / 2 ^ (k + 1 + 1)) * v x ^ (e / 2 ^ (k + 1 + 1)))) hbase
    rw [powLoop, if_neg (Nat.succ_ne_zero k)]
    by_cases hbit : e.testBit (k + 1) = true
    · have hexm : exec b emb q (st.push (.square acc)).2.code.length
          (Function.update m st.code.length
            (some (v x ^ (e / 2 ^ (k + 1 + 1)) * v x ^ (e / 2 ^ (k + 1 + 1)))))
          (.mul (.slot st.code.length) base) = some (Function.update
            (Function.update m st.code.length
              (some (v x ^ (e / 2 ^ (k + 1 + 1)) * v x ^ (e / 2 ^ (k + 1 + 1)))))
            (st.push (.square acc)).2.code.length (some (v x ^ (e / 2 ^ (k + 1))))) := by
        rw [exec, hb1]
        show (Function.update m st.code.length _ st.code.length).bind _ = _
        rw [Function.update_self, Option.bind_some, Option.bind_some]
        congr 3
        rw [if_pos hbit] at hd
        rw [hd]
        ring
      have h2 := h1.push hexm
      have := ih (.slot (st.push (.square acc)).2.code.length) _ _ h2 hconv (h1.val_update _ hb1)
        (Function.update_self ..)
      obtain ⟨s, st', m', h3, h4⟩ := this
      refine ⟨s, st', m', ?_, h4⟩
      simp only [hbit, if_true]
      exact h3
    · have := ih (.slot st.code.length) _ _ h1 hconv hb1 (by
        show Function.update m st.code.length _ st.code.length = _
        rw [Function.update_self]
        congr 1
        rw [if_neg hbit, add_zero] at hd
        rw [hd]
        ring)
      obtain ⟨s, st', m', h3, h4⟩ := this
      refine ⟨s, st', m', ?_, h4⟩
      simp only [hbit]
      exact h3

end pow

section convert

variable {c : Circuit F} {emb : F → R} {q : List R} {b : Bool} {v : Nat → R}

/-- The argument that stands for step `i`. -/
def ArgOf (c : Circuit F) (i : Nat) (a : Arg F) (G : Nat → Option Nat) : Prop :=
  (∀ x, c[i]? = some (.const x) → a = .const x) ∧ (∀ x, c[i]? = some (.var x) → a = .var x) ∧
    (isOp c i = true → ∃ s, a = .slot s ∧ G i = some s)

/-- `v` gives the values of the steps of the circuit. -/
def ValE (emb : F → R) (q : List R) (c : Circuit F) (v : Nat → R) : Prop :=
  ∀ (i : Nat) (s : Step F), c[i]? = some s → match s with
    | .add l r => l < i ∧ r < i ∧ v i = v l + v r
    | .mul l r => l < i ∧ r < i ∧ v i = v l * v r
    | .pow b e => b < i ∧ v i = v b ^ e
    | .const c => v i = emb c
    | .var x => q[x]? = some (v i)

theorem ArgOf.val {i : Nat} {a : Arg F} {G : Nat → Option Nat} {T : Nat → Prop} {st : CState F}
    {m : Nat → Option R} (h : ArgOf c i a G) (hi : i < c.length) (hv : ValE emb q c v)
    (hinv : Inv c emb q b v st m G T) : a.val emb q m = some (v i) := by
  obtain ⟨h1, h2, h3⟩ := h
  obtain ⟨s, hs⟩ : ∃ s, c[i]? = some s := ⟨c[i], List.getElem?_eq_getElem hi⟩
  have hvi := hv i s hs
  have hslot : isOp c i = true → a.val emb q m = some (v i) := by
    intro ho
    obtain ⟨t, rfl, hg⟩ := h3 ho
    exact (hinv.held i t hg).2
  cases s with
  | const x =>
    rw [h1 x hs, Arg.val]
    exact congrArg some (Eq.symm hvi)
  | var x =>
    rw [h2 x hs, Arg.val]
    exact hvi
  | add l r => exact hslot (by simp [isOp, hs, Step.isOp])
  | mul l r => exact hslot (by simp [isOp, hs, Step.isOp])
  | pow x e => exact hslot (by simp [isOp, hs, Step.isOp])

theorem ArgOf.keep {i : Nat} {a : Arg F} {G G' : Nat → Option Nat} (h : ArgOf c i a G)
    (hk : ∀ s, G i = some s → G' i = some s) : ArgOf c i a G' :=
  ⟨h.1, h.2.1, fun ho => by
    obtain ⟨s, h1, h2⟩ := h.2.2 ho
    exact ⟨s, h1, hk s h2⟩⟩

theorem ArgOf.const {i : Nat} {x : F} {G : Nat → Option Nat} (hi : i < c.length)
    (h : ArgOf c i (.const x) G) : c[i]? = some (.const x) := by
  obtain ⟨h1, h2, h3⟩ := h
  obtain ⟨s, hs⟩ : ∃ s, c[i]? = some s := ⟨c[i], List.getElem?_eq_getElem hi⟩
  have hslot : isOp c i = true → False := by
    intro ho
    obtain ⟨t, ht, -⟩ := h3 ho
    cases ht
  cases s with
  | const y =>
    have := h1 y hs
    cases this
    exact hs
  | var y =>
    have := h2 y hs
    cases this
  | add l r => exact (hslot (by simp [isOp, hs, Step.isOp])).elim
  | mul l r => exact (hslot (by simp [isOp, hs, Step.isOp])).elim
  | pow y e => exact (hslot (by simp [isOp, hs, Step.isOp])).elim

theorem ArgOf.fusable {i r : Nat} {a : Arg F} {G : Nat → Option Nat} (hi : i < c.length)
    (h : ArgOf c i a G) (hn : ∀ x y, c[r]? = some (.mul x y) → isOp c i = false) :
    fusable a c[r]? = none := by
  cases a with
  | var x => rfl
  | const x => rfl
  | slot s =>
    have hop : isOp c i = true := by
      obtain ⟨s', hs⟩ : ∃ s, c[i]? = some s := ⟨c[i], List.getElem?_eq_getElem hi⟩
      cases s' with
      | const y => cases h.1 y hs
      | var y => cases h.2.1 y hs
      | add l r => simp [isOp, hs, Step.isOp]
      | mul l r => simp [isOp, hs, Step.isOp]
      | pow y e => simp [isOp, hs, Step.isOp]
    cases hr : c[r]? with
    | none => rfl
    | some t =>
      cases t with
      | mul x y =>
        have := hn x y hr
        rw [hop] at this
        cases this
      | _ => rfl

theorem convert_spec (hv : ValE emb q c v) (hsafe : Safe c) (hb : b = true → NoConstProduct c) :
    ∀ f i, i < f → Asked c i → i < c.length → ∀ (st : CState F) (m : Nat → Option R)
      (G : Nat → Option Nat) (T : Nat → Prop), Inv c emb q b v st m G T → Ready c G T i →
      ∃ a st' m' G' T', convertStep c f i st = some (a, st') ∧ Inv c emb q b v st' m' G' T' ∧
        Post c i G T G' T' ∧ ArgOf c i a G' := by
  intro f
  induction f with
  | zero => intro i hi; omega
  | succ f ih =>
    intro i hif hA hil st m G T h hr
    obtain ⟨si, hi⟩ : ∃ s, c[i]? = some s := ⟨c[i], List.getElem?_eq_getElem hil⟩
    have hPrefl : Post c i G T G T :=
      ⟨fun _ h => h, fun _ h => Or.inl h, fun _ _ h => Or.inl h, fun _ h => Or.inl h⟩
    cases hcv : st.toConv i with
    | some s =>
      have hTi : T i := by
        by_cases ho : OddPow c i
        · exact (h.cacheOdd i s ho hcv).1
        · exact (h.held i s ((h.cache i ho).symm.trans hcv)).1
      have ho : ¬OddPow c i := fun ho => hr.1 ⟨hTi, Or.inr ho⟩
      have hG : G i = some s := (h.cache i ho).symm.trans hcv
      have hop := h.touched i hTi
      refine ⟨.slot s, st, m, G, T, by rw [convertStep, hcv], h, hPrefl, ?_, ?_, fun _ => ⟨s, rfl, hG⟩⟩
      · intro x hx
        simp [isOp, hx, Step.isOp] at hop
      · intro x hx
        simp [isOp, hx, Step.isOp] at hop
    | none =>
      have hTi : ¬T i := by
        intro hT
        by_cases ho : OddPow c i
        · exact hr.1 ⟨hT, Or.inr ho⟩
        · exact hr.1 ⟨hT, Or.inl ((h.cache i ho).symm.trans hcv)⟩
      have hGi : G i = none := by
        cases hg : G i with
        | none => rfl
        | some s => exact absurd (h.held i s hg).1 hTi
      have hvi := hv i si hi
      -- one more operand
      have step : ∀ (j : Nat) (done rest : List Nat) (st1 : CState F) (m1 : Nat → Option R)
          (G1 : Nat → Option Nat) (T1 : Nat → Prop), operands c si = done ++ j :: rest → j < i →
          Inv c emb q b v st1 m1 G1 T1 → Mid c i done G T G1 T1 →
          ∃ a st2 m2 G2 T2, convertStep c f j st1 = some (a, st2) ∧ Inv c emb q b v st2 m2 G2 T2 ∧
            Mid c i (done ++ [j]) G T G2 T2 ∧ ArgOf c j a G2 ∧
            ∀ x s, x ∈ done → G1 x = some s → G2 x = some s := by
        intro j done rest st1 m1 G1 T1 hop hj hinv hmid
        have hjm : j ∈ operands c si := by rw [hop]; simp
        obtain ⟨a, st2, m2, G2, T2, e1, e2, e3, e4⟩ := ih j (by omega) (Asked.operand hA hi hjm)
          (by omega) st1 m1 G1 T1 hinv (hmid.ready hsafe hA hi hTi hr hop hj)
        obtain ⟨n1, n2⟩ := hmid.next hsafe hA hi hTi hop hj e3
        exact ⟨a, st2, m2, G2, T2, e1, e2, n1, e4, n2⟩
      have two : ∀ (l r : Nat), operands c si = [l, r] → l < i → r < i →
          ∃ a a' st1 G1 st2 m2 G2 T2, convertStep c f l st = some (a, st1) ∧
            convertStep c f r st1 = some (a', st2) ∧ ArgOf c l a G1 ∧ Inv c emb q b v st2 m2 G2 T2 ∧
            Mid c i [l, r] G T G2 T2 ∧ a.val emb q m2 = some (v l) ∧ a'.val emb q m2 = some (v r) := by
        intro l r hop hl hr'
        obtain ⟨a, st1, m1, G1, T1, e1, e2, e3, e4, -⟩ := step l [] [r] st m G T hop hl h (Mid.nil i)
        obtain ⟨a', st2, m2, G2, T2, d1, d2, d3, d4, d5⟩ := step r [l] [] st1 m1 G1 T1 hop hr' e2 e3
        exact ⟨a, a', st1, G1, st2, m2, G2, T2, e1, d1, e4, d2, d3,
          (e4.keep fun s => d5 l s (by simp)).val (by omega) hv d2, d4.val (by omega) hv d2⟩
      have fin : ∀ (l r : Nat) (ins : Instr F) (st2 : CState F) (m2 : Nat → Option R)
          (G2 : Nat → Option Nat) (T2 : Nat → Prop), operands c si = [l, r] → ¬OddPow c i →
          si.isOp = true → Inv c emb q b v st2 m2 G2 T2 → Mid c i [l, r] G T G2 T2 →
          exec b emb q st2.code.length m2 ins = some (Function.update m2 st2.code.length (some (v i))) →
          ∃ st' m' G' T', (st2.register i st2.code.length).push ins = (.slot st2.code.length, st') ∧
            Inv c emb q b v st' m' G' T' ∧ Post c i G T G' T' ∧ ArgOf c i (.slot st2.code.length) G' := by
        intro l r ins st2 m2 G2 T2 hop ho hsop hinv hmid hex
        have hiop : isOp c i = true := by simp [isOp, hi, hsop]
        have hT2 : ¬T2 i := fun ht => (hmid.new i ht).elim hTi (fun hh => absurd hh (lt_irrefl i))
        refine ⟨_, _, _, _, rfl, hinv.register_push hT2 ho hiop hex,
          hmid.finish hA hi hGi (fun x hx => by rw [hop]; exact hx) (Function.update_self ..)
            (fun k hk => Or.inl (Function.update_of_ne hk ..)), ?_, ?_, fun _ => ⟨_, rfl, Function.update_self ..⟩⟩
        · intro x hx
          simp [isOp, hx, Step.isOp] at hiop
        · intro x hx
          simp [isOp, hx, Step.isOp] at hiop
      rw [convertStep, hcv, hi]
      cases si with
      | const x =>
        refine ⟨.const x, st, m, G, T, rfl, h, hPrefl, fun y hy => ?_, fun y hy => ?_, fun ho => ?_⟩
        · rw [hi] at hy; cases hy; rfl
        · rw [hi] at hy; cases hy
        · simp [isOp, hi, Step.isOp] at ho
      | var x =>
        refine ⟨.var x, st, m, G, T, rfl, h, hPrefl, fun y hy => ?_, fun y hy => ?_, fun ho => ?_⟩
        · rw [hi] at hy; cases hy
        · rw [hi] at hy; cases hy; rfl
        · simp [isOp, hi, Step.isOp] at ho
      | mul l r =>
        obtain ⟨hl, hr', hval⟩ := hvi
        obtain ⟨a, a', st1, G1, st2, m2, G2, T2, e1, e2, -, e4, e5, e6, e7⟩ := two l r rfl hl hr'
        have ho : ¬OddPow c i := by rintro ⟨x, e, hx, -⟩; rw [hi] at hx; cases hx
        obtain ⟨st', m', G', T', d1, d2⟩ := fin l r (.mul a a') st2 m2 G2 T2 rfl ho rfl e4 e5
          (by rw [exec, e6, e7, hval]; rfl)
        refine ⟨_, st', m', G', T', ?_, d2⟩
        simp only [Option.bind_some, e1, e2, d1]
      | add l r =>
        obtain ⟨hl, hr', hval⟩ := hvi
        have ho : ¬OddPow c i := by rintro ⟨x, e, hx, -⟩; rw [hi] at hx; cases hx
        by_cases hf : ∃ x y, c[r]? = some (.mul x y) ∧ isOp c l = true
        · obtain ⟨x, y, hrm, hlop⟩ := hf
          have hop : operands c (.add l r) = [l, x, y] := by
            rw [operands, hrm]
            simp [hlop]
          obtain ⟨hx, hy, hvr⟩ := hv r _ hrm
          obtain ⟨a, st1, m1, G1, T1, e1, e2, e3, e4, -⟩ := step l [] [x, y] st m G T hop hl h (Mid.nil i)
          obtain ⟨ax, st2, m2, G2, T2, d1, d2, d3, d4, d5⟩ :=
            step x [l] [y] st1 m1 G1 T1 hop (by omega) e2 e3
          obtain ⟨ay, st3, m3, G3, T3, g1, g2, g3, g4, g5⟩ :=
            step y [l, x] [] st2 m2 G2 T2 hop (by omega) d2 d3
          obtain ⟨s, rfl, hs⟩ := e4.2.2 hlop
          have hs3 : G3 l = some s := g5 l s (by simp) (d5 l s (by simp) hs)
          have hax := (d4.keep fun s => g5 x s (by simp)).val (by omega) hv g2
          have hay := g4.val (by omega) hv g2
          have hT3 : ¬T3 i := fun ht => (g3.new i ht).elim hTi (fun hh => absurd hh (lt_irrefl i))
          have hiop : isOp c i = true := by simp [isOp, hi, Step.isOp]
          have hcc : (b && bothConst ax ay) = false := by
            cases b with
            | false => rfl
            | true =>
              cases ax with
              | const p =>
                cases ay with
                | const p' =>
                  exact (hb rfl r x y p p' hrm ⟨d4.const (by omega), g4.const (by omega)⟩).elim
                | _ => rfl
              | _ => rfl
          have hex : exec b emb q st3.code.length m3 (.addMul s ax ay) =
              some (Function.update m3 s (some (v i))) := by
            rw [exec, hcc, hax, hay, (g2.held l s hs3).2, hval, hvr]
            rfl
          have hspent : Spent c (fun k => T3 k ∨ k = i) l :=
            ⟨Or.inr ⟨hlop, i, r, x, y, hi, hrm⟩, i, _, hA, hi, by rw [hop]; simp, Or.inr rfl⟩
          refine ⟨.slot s, _, _, _, _, ?_, g2.fuse hT3 ho hiop hs3 hex,
            g3.finish hA hi hGi (fun x hx => by rw [hop]; exact hx) (Function.update_self ..)
              (fun k hk => ?_), ?_, ?_, fun _ => ⟨_, rfl, Function.update_self ..⟩⟩
          · simp only [Option.bind_some, e1, hrm, fusable, d1, g1]
          · by_cases e : k = l
            · exact Or.inr (e ▸ hspent)
            · exact Or.inl (by rw [Function.update_of_ne hk, Function.update_of_ne e])
          · intro x hx
            simp [isOp, hx, Step.isOp] at hiop
          · intro x hx
            simp [isOp, hx, Step.isOp] at hiop
        · have hn : ∀ x y, c[r]? = some (.mul x y) → isOp c l = false := by
            intro x y hxy
            cases hlo : isOp c l with
            | false => rfl
            | true => exact absurd ⟨x, y, hxy, hlo⟩ hf
          have hop : operands c (.add l r) = [l, r] := by
            rw [operands]
            split
            · rename_i x y hxy
              simp [hn x y hxy]
            · rfl
          obtain ⟨a, a', st1, G1, st2, m2, G2, T2, e1, e2, e3, e4, e5, e6, e7⟩ := two l r hop hl hr'
          obtain ⟨st', m', G', T', d1, d2⟩ := fin l r (.add a a') st2 m2 G2 T2 hop ho rfl e4 e5
            (by rw [exec, e6, e7, hval]; rfl)
          refine ⟨_, st', m', G', T', ?_, d2⟩
          simp only [Option.bind_some, e1, e3.fusable (by omega) hn, e2, d1]
      | pow x e =>
        obtain ⟨hx, hval⟩ := hvi
        have he := hsafe.exponent i x e hi
        obtain ⟨a, st1, m1, G1, T1, e1, e2, e3, e4, -⟩ := step x [] [] st m G T rfl hx h (Mid.nil i)
        have hT1 : ¬T1 i := fun ht => (e3.new i ht).elim hTi (fun hh => absurd hh (lt_irrefl i))
        have hiop : isOp c i = true := by simp [isOp, hi, Step.isOp]
        have hconv1 : st1.toConv i = none := by
          cases hc1 : st1.toConv i with
          | none => rfl
          | some s =>
            by_cases ho : OddPow c i
            · exact absurd (e2.cacheOdd i s ho hc1).1 hT1
            · exact absurd (e2.held i s ((e2.cache i ho).symm.trans hc1)).1 hT1
        have hav := e4.val (by omega) hv e2
        obtain ⟨k, hk⟩ : ∃ k, Nat.log2 e = k + 1 := by
          have : Nat.log2 e ≠ 0 := by
            intro h0
            have := Nat.lt_log2_self (n := e)
            rw [h0] at this
            omega
          exact ⟨Nat.log2 e - 1, by omega⟩
        have hdiv : e / 2 ^ (k + 1) = 1 := by
          have h1 := Nat.log2_self_le (n := e) (by omega)
          have h2 := Nat.lt_log2_self (n := e)
          rw [hk] at h1 h2
          apply Nat.div_eq_of_lt_le
          · omega
          · rw [pow_succ] at h2
            omega
        obtain ⟨s, st', m', d1, d2⟩ := powLoop_spec hi hT1 hval k a st1 m1 e2 hconv1 hav
          (by rw [hdiv, pow_one]; exact hav)
        refine ⟨.slot s, st', m', _, _, ?_, d2,
          e3.finish hA hi hGi (fun x hx => hx) (Function.update_self ..)
            (fun k hk => Or.inl (Function.update_of_ne hk ..)), ?_, ?_, fun _ => ⟨_, rfl, Function.update_self ..⟩⟩
        · simp only [Option.bind_some, e1, if_neg (show ¬e = 0 by omega), hk, d1]
        · intro x hx
          simp [isOp, hx, Step.isOp] at hiop
        · intro x hx
          simp [isOp, hx, Step.isOp] at hiop

theorem convertCircuit_spec (hne : c ≠ []) (hv : ValE emb q c v) (hsafe : Safe c)
    (hb : b = true → NoConstProduct c) :
    ∃ p, convertCircuit c = some p ∧ runCode b emb q p.1 p.2 = some (v (c.length - 1)) := by
  have hpos := List.length_pos_iff.2 hne
  have h0 : Inv c emb q b v (CState.init : CState F) (fun _ => none) (fun _ => none) (fun _ => False) :=
    ⟨rfl, fun s x hs => (nomatch hs), fun k s hs => (nomatch hs),
      fun k k' s hs => (nomatch hs), fun _ _ => rfl, fun k s _ hs => (nomatch (show (none : Option Nat) = some s from hs)),
      fun s k => ⟨fun hs => (nomatch hs), fun hs => (nomatch hs)⟩,
      fun k hk => hk.elim⟩
  obtain ⟨a, st', m', G', T', e1, e2, e3, e4⟩ := convert_spec hv hsafe hb c.length (c.length - 1)
    (by omega) .root (by omega) _ _ _ _ h0 ⟨fun hs => hs.1, fun p hp => hp.1.elim⟩
  refine ⟨(st'.code, a), by rw [convertCircuit, e1]; rfl, ?_⟩
  rw [runCode, e2.run, Option.bind_some]
  exact e4.val (by omega) hv e2

end convert

end Verif.Arith
