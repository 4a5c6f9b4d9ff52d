import Verif.Protocol.LemmasProg

/-! Sequencing and the soundness error. -/

namespace Verif.Protocol

open Prog

variable {F : Type} {E : Type} {A : Type} {B : Type}

/-- What every accepting leaf of a verifier satisfies. -/
def Post (Q : A → Prop) : Prog F E A → Prop
  | .ret a => Q a
  | .fail _ => True
  | .read _ c => ∀ m, Post Q (c m)
  | .sample c => ∀ x, Post Q (c x)

theorem Post.bind {Q : A → Prop} {R : B → Prop} {p : Prog F E A} {k : A → Prog F E B}
    (h : Post Q p) (hk : ∀ a, Q a → Post R (k a)) : Post R (p.bind k) := by
  induction p with
  | ret a => exact hk a h
  | fail e => trivial
  | read n c ih => exact fun m => ih m (h m)
  | sample c ih => exact fun x => ih x (h x)

theorem Post.ofExcept {Q : A → Prop} {e : Except E A} (h : ∀ a, e = .ok a → Q a) :
    Post Q (Prog.ofExcept (F := F) e) := by
  cases e with
  | ok a => exact h a rfl
  | error e => trivial

theorem Post.trivial (p : Prog F E A) : Post (fun _ => True) p := by
  induction p with
  | ret a => exact True.intro
  | fail e => exact True.intro
  | read n c ih => exact fun m => ih m
  | sample c ih => exact fun x => ih x

theorem Post.mono {Q R : A → Prop} {p : Prog F E A} (h : Post Q p) (hk : ∀ a, Q a → R a) :
    Post R p := by
  induction p with
  | ret a => exact hk a h
  | fail e => exact True.intro
  | read n c ih => exact fun m => ih m (h m)
  | sample c ih => exact fun x => ih x (h x)

/-- Nothing is lost on the way through a verifier. -/
theorem soundErr_through {good : B → Prop} {Q : A → Prop} {p : Prog F E A} {k : A → Prog F E B}
    {ε : Nat} (hp : Post Q p) (h : ∀ a, Q a → SoundErr good (k a) ε) : SoundErr good (p.bind k) ε := by
  induction p with
  | ret a => exact h a hp
  | fail e => exact .fail
  | read n c ih => exact .read fun m _ => ih m (hp m)
  | sample c ih => exact .sample0 fun x => ih x (hp x)

/-- The errors of two verifiers add up. -/
theorem soundErr_bind {good : A → Prop} {good' : B → Prop} {Q : A → Prop} {p : Prog F E A}
    {k : A → Prog F E B} {ε ε' : Nat} (h : SoundErr good p ε) (hp : Post Q p)
    (hk : ∀ a, Q a → ¬ good a → SoundErr good' (k a) ε') : SoundErr good' (p.bind k) (ε + ε') := by
  induction h with
  | ret h => exact (hk _ hp h).mono (Nat.le_add_left _ _)
  | fail => exact .fail
  | read h ih => exact .read fun m hm => ih m hm (hp m)
  | @sample c ε d ε₁ bad hb hε h ih =>
    exact .sample bad hb (by omega) fun x hx => ih x hx (hp x)

/-- Agreement is preserved by sequencing. -/
theorem agree_bind {A' B' : Type} {R : A → B → Prop} {R' : A' → B' → Prop} {p : PProg F E A}
    {v : Prog F E B} {k : A → PProg F E A'} {l : B → Prog F E B'} (h : Agree R p v)
    (hk : ∀ a b, R a b → Agree R' (k a) (l b)) : Agree R' (p.bind k) (v.bind l) := by
  induction h with
  | ret h => exact hk _ _ h
  | write hk' _ ih => exact .write hk' ih
  | sample _ ih => exact .sample ih

theorem agree_post {R : A → B → Prop} {Q : B → Prop} {p : PProg F E A} {v : Prog F E B}
    (h : Agree R p v) (hq : Post Q v) : Agree (fun a b => R a b ∧ Q b) p v := by
  induction h with
  | ret h => exact .ret ⟨h, hq⟩
  | write hk _ ih => exact .write hk (ih (hq _))
  | sample _ ih => exact .sample fun x => ih x (hq x)

theorem agree_mono {R R' : A → B → Prop} {p : PProg F E A} {v : Prog F E B}
    (h : Agree R p v) (hr : ∀ a b, R a b → R' a b) : Agree R' p v := by
  induction h with
  | ret h => exact .ret (hr _ _ h)
  | write hk _ ih => exact .write hk ih
  | sample _ ih => exact .sample ih

/-- The numbers of samples add up. -/
theorem samplesLe_bind_post {Q : A → Prop} {p : Prog F E A} {k : A → Prog F E B} {N M : Nat}
    (hp : p.SamplesLe N) (hq : Post Q p) (hk : ∀ a, Q a → (k a).SamplesLe M) :
    (p.bind k).SamplesLe (N + M) := by
  induction p generalizing N with
  | ret a => exact samplesLe_mono (hk a hq) (by omega)
  | fail e => trivial
  | read n c ih => exact fun m => ih m (hp m) (hq m)
  | sample c ih =>
    cases N with
    | zero => exact absurd hp (by simp [Prog.SamplesLe])
    | succ N =>
      rw [show N + 1 + M = (N + M) + 1 by omega]
      exact fun x => ih x (hp x) (hq x)

/-- A verifier none of whose results is good makes no error. -/
theorem soundErr_of_post {good : A → Prop} {p : Prog F E A} (ε : Nat) (h : Post (fun a => ¬ good a) p) :
    SoundErr good p ε := by
  induction p with
  | ret a => exact .ret h
  | fail e => exact .fail
  | read n c ih => exact .read fun m _ => ih m (h m)
  | sample c ih => exact .sample0 fun x => ih x (h x)

end Verif.Protocol
