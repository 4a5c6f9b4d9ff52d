import Verif.Protocol.SpecProg
import Mathlib.Data.Fintype.BigOperators
import Mathlib.Data.Fin.Tuple.Basic
import Mathlib.Logic.Equiv.Fin.Basic
import Mathlib.Algebra.BigOperators.Ring.Finset
import Mathlib.Algebra.Order.BigOperators.Group.Finset
import Mathlib.Algebra.Group.Action.Defs
import Mathlib.Algebra.Module.Defs
import Mathlib.Tactic.Ring
import Mathlib.Tactic.Linarith

/-!
# Soundness error of interactive verifiers

`SoundErr good p ε` bounds what a prover can achieve against `p`: on each path the sampled challenges
must avoid finite sets of "bad" values, of total size at most `ε`, and if they do, the verifier does
not end with a `good` result. The bad set for a challenge is fixed before the challenge is drawn.
`soundErr_count` turns this into a count of challenge vectors.
-/

namespace Verif.Protocol

open Prog



variable {F : Type} {E : Type} {A : Type} {B : Type}

inductive SoundErr (good : A → Prop) : Prog F E A → Nat → Prop
  | ret {a : A} {ε : Nat} (h : ¬ good a) : SoundErr good (.ret a) ε
  | fail {e : E} {ε : Nat} : SoundErr good (.fail e) ε
  | read {k : Nat} {c : List F → Prog F E A} {ε : Nat}
      (h : ∀ m, m.length = k → SoundErr good (c m) ε) : SoundErr good (.read k c) ε
  | sample {c : F → Prog F E A} {ε d ε' : Nat} (bad : Finset F) (hb : bad.card ≤ d)
      (hε : d + ε ≤ ε') (h : ∀ x, x ∉ bad → SoundErr good (c x) ε) :
      SoundErr good (.sample c) ε'

theorem SoundErr.mono {good : A → Prop} {p : Prog F E A} {ε ε' : Nat}
    (h : SoundErr good p ε) (hle : ε ≤ ε') : SoundErr good p ε' := by
  induction h generalizing ε' with
  | ret h => exact .ret h
  | fail => exact .fail
  | read h ih => exact .read fun m hm => ih m hm hle
  | sample bad hb hε h _ => exact .sample bad hb (Nat.le_trans hε hle) h

theorem SoundErr.sample0 {good : A → Prop} {c : F → Prog F E A} {ε : Nat}
    (h : ∀ x, SoundErr good (c x) ε) : SoundErr good (.sample c) ε :=
  .sample ∅ (d := 0) (by simp) (by omega) fun x _ => h x

theorem bind_assoc {C : Type} (p : Prog F E A) (k : A → Prog F E B) (l : B → Prog F E C) :
    (p.bind k).bind l = p.bind fun a => (k a).bind l := by
  induction p with
  | ret a => rfl
  | fail e => rfl
  | read n c ih => simp only [Prog.bind, ih]
  | sample c ih => simp only [Prog.bind, ih]

theorem ofExcept_bind (e : Except E A) (k : A → Prog F E B) :
    (Prog.ofExcept (F := F) e).bind k = match e with | .ok a => k a | .error e => .fail e := by
  cases e <;> rfl

theorem extend_cons [Zero F] {N : Nat} (x : F) (r : Fin N → F) :
    extend (Fin.cons x r : Fin (N + 1) → F) 0 = x ∧
      (fun i => extend (Fin.cons x r : Fin (N + 1) → F) (i + 1)) = extend r := by
  refine ⟨by simp [extend], funext fun i => ?_⟩
  unfold extend
  by_cases h : i < N
  · rw [dif_pos h, dif_pos (Nat.succ_lt_succ h)]
    exact Fin.cons_succ (α := fun _ => F) x r ⟨i, h⟩
  · rw [dif_neg h, dif_neg (by omega)]

open Classical in
theorem accepting_le [Zero F] [Fintype F] (good : A → Prop) (msg : List F → Nat → List F)
    (p : Prog F E A) (hist : List F) (reads N : Nat) :
    accepting good msg p hist reads N ≤ Fintype.card F ^ N := by
  unfold accepting
  refine le_trans (Finset.card_filter_le _ _) ?_
  simp

open Classical in
theorem accepting_sample [Zero F] [Fintype F] (good : A → Prop) (msg : List F → Nat → List F)
    (c : F → Prog F E A) (hist : List F) (reads N : Nat) :
    accepting good msg (.sample c) hist reads (N + 1)
      = ∑ x : F, accepting good msg (c x) (hist ++ [x]) reads N := by
  unfold accepting
  have e : ∀ N (q : (Fin N → F) → Prop),
      (Finset.univ.filter q).card = ∑ r : Fin N → F, if q r then 1 else 0 := fun N q => by
    rw [Finset.card_filter]
  simp only [e]
  rw [← (Fin.consEquiv (fun _ : Fin (N + 1) => F)).sum_comp, Fintype.sum_prod_type]
  refine Finset.sum_congr rfl fun x _ => Finset.sum_congr rfl fun r _ => ?_
  have h := extend_cons x r
  simp only [Fin.consEquiv, Equiv.coe_fn_mk, Prog.run, h.1, h.2]

theorem soundErr_count [Zero F] [Fintype F] {good : A → Prop} {p : Prog F E A} {ε : Nat}
    (h : SoundErr good p ε) (msg : List F → Nat → List F) (N : Nat) (hN : p.SamplesLe N)
    (hist : List F) (reads : Nat) :
    accepting good msg p hist reads N * Fintype.card F ≤ ε * Fintype.card F ^ N := by
  classical
  induction h generalizing N hist reads with
  | ret h => simp [accepting, Prog.run, h]
  | fail => simp [accepting, Prog.run]
  | @read k c ε h ih =>
    by_cases hl : (msg hist reads).length < k
    · simp [accepting, Prog.run, hl]
    · have := ih ((msg hist reads).take k) (by rw [List.length_take]; omega) N (hN _) hist
        (reads + 1)
      simpa [accepting, Prog.run, hl] using this
  | @sample c ε d ε' bad hb hε h ih =>
    cases N with
    | zero => exact absurd hN (by simp [Prog.SamplesLe])
    | succ N =>
      rw [accepting_sample, Finset.sum_mul]
      have step : ∀ x : F, accepting good msg (c x) (hist ++ [x]) reads N * Fintype.card F
          ≤ (if x ∈ bad then Fintype.card F ^ (N + 1) else 0) + ε * Fintype.card F ^ N := by
        intro x
        by_cases hx : x ∈ bad
        · rw [if_pos hx, pow_succ]
          exact le_trans (Nat.mul_le_mul_right _ (accepting_le ..)) (Nat.le_add_right _ _)
        · rw [if_neg hx, Nat.zero_add]
          exact ih x hx N (hN x) _ _
      refine le_trans (Finset.sum_le_sum fun x _ => step x) ?_
      rw [Finset.sum_add_distrib, Finset.sum_const, Finset.card_univ, ← Finset.sum_filter,
        Finset.sum_const, smul_eq_mul, smul_eq_mul, Finset.filter_mem_eq_inter, Finset.univ_inter]
      calc bad.card * Fintype.card F ^ (N + 1) + Fintype.card F * (ε * Fintype.card F ^ N)
          = (bad.card + ε) * Fintype.card F ^ (N + 1) := by ring
        _ ≤ ε' * Fintype.card F ^ (N + 1) := Nat.mul_le_mul_right _ (by omega)

/-- If no leaf is good, the error is zero. -/
theorem soundErr_of_bind_never {good : B → Prop} (p : Prog F E A) (k : A → Prog F E B)
    (h : ∀ a ε, SoundErr good (k a) ε) (ε : Nat) : SoundErr good (p.bind k) ε := by
  induction p with
  | ret a => exact h a ε
  | fail e => exact .fail
  | read n c ih => exact .read fun m _ => ih m
  | sample c ih => exact .sample0 fun x => ih x

theorem samplesLe_mono {p : Prog F E A} {N M : Nat} (h : p.SamplesLe N) (hle : N ≤ M) :
    p.SamplesLe M := by
  induction p generalizing N M with
  | ret a => trivial
  | fail e => trivial
  | read n c ih => exact fun m => ih m (h m) hle
  | sample c ih =>
    cases N with
    | zero => exact absurd h (by simp [Prog.SamplesLe])
    | succ N =>
      cases M with
      | zero => omega
      | succ M => exact fun x => ih x (h x) (by omega)

theorem samplesLe_bind {p : Prog F E A} {k : A → Prog F E B} {N M : Nat} (hp : p.SamplesLe N)
    (hk : ∀ a, (k a).SamplesLe M) : (p.bind k).SamplesLe (N + M) := by
  induction p generalizing N with
  | ret a => exact samplesLe_mono (hk a) (by omega)
  | fail e => trivial
  | read n c ih => exact fun m => ih m (hp m)
  | sample c ih =>
    cases N with
    | zero => exact absurd hp (by simp [Prog.SamplesLe])
    | succ N =>
      rw [show N + 1 + M = (N + M) + 1 by omega]
      exact fun x => ih x (hp x)

/-! ## Provers and verifiers that run in step -/

/-- The prover `p` and the verifier `v` make matching calls, whatever is sampled, and end with related
results. -/
inductive Agree (R : A → B → Prop) : PProg F E A → Prog F E B → Prop
  | ret {a : A} {b : B} (h : R a b) : Agree R (.ret a) (.ret b)
  | write {m : List F} {k : Nat} {p : PProg F E A} {c : List F → Prog F E B} (hk : m.length = k)
      (h : Agree R p (c m)) : Agree R (.write m p) (.read k c)
  | sample {p : F → PProg F E A} {c : F → Prog F E B} (h : ∀ x, Agree R (p x) (c x)) :
      Agree R (.sample p) (.sample c)

theorem agree_run {R : A → B → Prop} {p : PProg F E A} {v : Prog F E B} (h : Agree R p v)
    (before : List (List F)) (hist : List F) (chal : Nat → F) :
    ∃ a b, (p.run chal).2 = .ok a ∧
      v.run (fun _ i => (before ++ (p.run chal).1).getD i []) hist before.length chal = .ok b ∧
      R a b := by
  induction h generalizing before hist chal with
  | ret h => exact ⟨_, _, rfl, rfl, h⟩
  | @write m k p c hk _ ih =>
    obtain ⟨a, b, h1, h2, h3⟩ := ih (before ++ [m]) hist chal
    refine ⟨a, b, h1, ?_, h3⟩
    rw [Prog.run]
    have hm : (before ++ (PProg.run (.write m p) chal).1).getD before.length [] = m := by
      simp [PProg.run, List.getD_eq_getElem?_getD]
    simp only [hm]
    rw [if_neg (by omega), List.take_of_length_le (by omega)]
    simp only [List.length_append, List.length_singleton, List.append_assoc,
      List.singleton_append] at h2
    exact h2
  | sample _ ih =>
    obtain ⟨a, b, h1, h2, h3⟩ := ih (chal 0) before (hist ++ [chal 0]) (fun i => chal (i + 1))
    exact ⟨a, b, h1, h2, h3⟩

end Verif.Protocol
