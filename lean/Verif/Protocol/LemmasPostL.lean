import Verif.Protocol.LemmasSeq

/-! Postconditions that know the length of the messages. -/

namespace Verif.Protocol

variable {F E A B : Type}

/-- What every accepting leaf of a verifier satisfies, if the messages have the lengths asked for. -/
def PostL (Q : A → Prop) : Prog F E A → Prop
  | .ret a => Q a
  | .fail _ => True
  | .read k c => ∀ m : List F, m.length = k → PostL Q (c m)
  | .sample c => ∀ x, PostL Q (c x)

theorem PostL.bind {Q : A → Prop} {R : B → Prop} {p : Prog F E A} {k : A → Prog F E B}
    (h : PostL Q p) (hk : ∀ a, Q a → PostL R (k a)) : PostL R (p.bind k) := by
  induction p with
  | ret a => exact hk a h
  | fail e => trivial
  | read n c ih => exact fun m hm => ih m (h m hm)
  | sample c ih => exact fun x => ih x (h x)

theorem PostL.of {Q : A → Prop} {p : Prog F E A} (h : Post Q p) : PostL Q p := by
  induction p with
  | ret a => exact h
  | fail e => trivial
  | read n c ih => exact fun m _ => ih m (h m)
  | sample c ih => exact fun x => ih x (h x)

theorem PostL.run {Q : A → Prop} {p : Prog F E A} (h : PostL Q p) (msg : List F → Nat → List F) (hist : List F)
    (reads : Nat) (chal : Nat → F) (a : A) (hr : p.run msg hist reads chal = .ok a) : Q a := by
  induction p generalizing hist reads chal with
  | ret b => injection hr with hr; rw [← hr]; exact h
  | fail e => cases hr
  | read n c ih =>
    rw [Prog.run] at hr
    split at hr
    · cases hr
    · exact ih _ (h _ (by rw [List.length_take]; omega)) _ _ _ hr
  | sample c ih => exact ih _ (h _) _ _ _ hr

theorem PostL.mono {Q R : A → Prop} {p : Prog F E A} (h : PostL Q p) (hk : ∀ a, Q a → R a) : PostL R p := by
  induction p with
  | ret a => exact hk a h
  | fail e => exact True.intro
  | read n c ih => exact fun m hm => ih m (h m hm)
  | sample c ih => exact fun x => ih x (h x)

theorem soundErr_of_postL {good : A → Prop} {p : Prog F E A} (ε : Nat) (h : PostL (fun a => ¬ good a) p) :
    SoundErr good p ε := by
  induction p with
  | ret a => exact .ret h
  | fail e => exact .fail
  | read n c ih => exact .read fun m hm => ih m (h m hm)
  | sample c ih => exact .sample0 fun x => ih x (h x)

theorem soundErr_throughL {good : B → Prop} {Q : A → Prop} {p : Prog F E A} {k : A → Prog F E B}
    {ε : Nat} (hp : PostL Q p) (h : ∀ a, Q a → SoundErr good (k a) ε) : SoundErr good (p.bind k) ε := by
  induction p with
  | ret a => exact h a hp
  | fail e => exact .fail
  | read n c ih => exact .read fun m hm => ih m (hp m hm)
  | sample c ih => exact .sample0 fun x => ih x (hp x)

/-- The errors of two verifiers add up. -/
theorem soundErr_bindL {good : A → Prop} {good' : B → Prop} {Q : A → Prop} {p : Prog F E A}
    {k : A → Prog F E B} {ε ε' : Nat} (h : SoundErr good p ε) (hp : PostL Q p)
    (hk : ∀ a, Q a → ¬ good a → SoundErr good' (k a) ε') : SoundErr good' (p.bind k) (ε + ε') := by
  induction h with
  | ret h => exact (hk _ hp h).mono (Nat.le_add_left _ _)
  | fail => exact .fail
  | read h ih => exact .read fun m hm => ih m hm (hp m hm)
  | @sample c ε d ε₁ bad hb hε h ih =>
    exact .sample bad hb (by omega) fun x hx => ih x hx (hp x)

/-- A verifier samples at most `N` challenges, if the messages have the lengths asked for. -/
def SamplesLeL : Prog F E A → Nat → Prop
  | .ret _, _ => True
  | .fail _, _ => True
  | .read k c, N => ∀ m : List F, m.length = k → SamplesLeL (c m) N
  | .sample _, 0 => False
  | .sample c, N + 1 => ∀ x, SamplesLeL (c x) N

theorem SamplesLeL.of {p : Prog F E A} {N : Nat} (h : p.SamplesLe N) : SamplesLeL p N := by
  induction p generalizing N with
  | ret a => exact True.intro
  | fail e => exact True.intro
  | read n c ih => exact fun m _ => ih m (h m)
  | sample c ih =>
    cases N with
    | zero => exact absurd h (by simp [Prog.SamplesLe])
    | succ N => exact fun x => ih x (h x)

theorem SamplesLeL.mono {p : Prog F E A} {N M : Nat} (h : SamplesLeL p N) (hle : N ≤ M) : SamplesLeL p M := by
  induction p generalizing N M with
  | ret a => exact True.intro
  | fail e => exact True.intro
  | read n c ih => exact fun m hm => ih m (h m hm) hle
  | sample c ih =>
    cases N with
    | zero => exact absurd h (by simp [SamplesLeL])
    | succ N =>
      cases M with
      | zero => omega
      | succ M => exact fun x => ih x (h x) (by omega)

theorem SamplesLeL.bind {Q : A → Prop} {p : Prog F E A} {k : A → Prog F E B} {N M : Nat}
    (hp : SamplesLeL p N) (hq : PostL Q p) (hk : ∀ a, Q a → SamplesLeL (k a) M) : SamplesLeL (p.bind k) (N + M) := by
  induction p generalizing N with
  | ret a => exact (hk a hq).mono (by omega)
  | fail e => exact True.intro
  | read n c ih => exact fun m hm => ih m (hp m hm) (hq m hm)
  | sample c ih =>
    cases N with
    | zero => exact absurd hp (by simp [SamplesLeL])
    | succ N =>
      rw [show N + 1 + M = (N + M) + 1 by omega]
      exact fun x => ih x (hp x) (hq x)

theorem agree_postL {R : A → B → Prop} {Q : B → Prop} {p : PProg F E A} {v : Prog F E B}
    (h : Agree R p v) (hq : PostL Q v) : Agree (fun a b => R a b ∧ Q b) p v := by
  induction h with
  | ret h => exact .ret ⟨h, hq⟩
  | write hk _ ih => exact .write hk (ih (hq _ hk))
  | sample _ ih => exact .sample fun x => ih x (hq x)

theorem soundErr_countL [Zero F] [Fintype F] {good : A → Prop} {p : Prog F E A} {ε : Nat}
    (h : SoundErr good p ε) (msg : List F → Nat → List F) (N : Nat) (hN : SamplesLeL p N)
    (hist : List F) (reads : Nat) :
    accepting good msg p hist reads N * Fintype.card F ≤ ε * Fintype.card F ^ N := by
  classical
  induction h generalizing N hist reads with
  | ret h => simp [accepting, Prog.run, h]
  | fail => simp [accepting, Prog.run]
  | @read k c ε h ih =>
    by_cases hl : (msg hist reads).length < k
    · simp [accepting, Prog.run, hl]
    · have hlen : ((msg hist reads).take k).length = k := by rw [List.length_take]; omega
      have := ih ((msg hist reads).take k) hlen N (hN _ hlen) hist (reads + 1)
      simpa [accepting, Prog.run, hl] using this
  | @sample c ε d ε' bad hb hε h ih =>
    cases N with
    | zero => exact absurd hN (by simp [SamplesLeL])
    | succ N =>
      rw [accepting_sample, Finset.sum_mul]
      have step : ∀ x : F, accepting good msg (c x) (hist ++ [x]) reads N * Fintype.card F
          ≤ (if x ∈ bad then Fintype.card F ^ (N + 1) else 0) + ε * Fintype.card F ^ N := by
        intro x
        by_cases hx : x ∈ bad
        · rw [if_pos hx, pow_succ]
          exact le_trans (Nat.mul_le_mul_right _ (accepting_le ..)) (Nat.le_add_right _ _)
        · rw [if_neg hx, Nat.zero_add]
          exact ih x hx N (hN x) _ _
      refine le_trans (Finset.sum_le_sum fun x _ => step x) ?_
      rw [Finset.sum_add_distrib, Finset.sum_const, Finset.card_univ, ← Finset.sum_filter,
        Finset.sum_const, smul_eq_mul, smul_eq_mul, Finset.filter_mem_eq_inter, Finset.univ_inter]
      calc bad.card * Fintype.card F ^ (N + 1) + Fintype.card F * (ε * Fintype.card F ^ N)
          = (bad.card + ε) * Fintype.card F ^ (N + 1) := by ring
        _ ≤ ε' * Fintype.card F ^ (N + 1) := Nat.mul_le_mul_right _ (by omega)

end Verif.Protocol
