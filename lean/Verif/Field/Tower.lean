import Mathlib.Algebra.Field.Basic
import Mathlib.Algebra.CharP.Two
import Mathlib.Tactic.Ring
import Mathlib.Tactic.LinearCombination

/-!
# The binary tower (model)

Scalars of the canonical binary tower `BinaryField1b < BinaryField2b < ... < BinaryField128b`
(`crates/field/src/binary_field.rs:740-764`).  A level-`n+1` element is split by the code into its
low and high half (`binary_field.rs:681-697`), both level-`n` elements; the model keeps the pair.
The integer representation is `T.toNat` in `Verif.Field.Repr`.
-/

namespace Verif.Field

/-- Elements of tower level `n`; `binary_field.rs:681-697` (`From<$name> for (sub, sub)` and back):
a level-`n+1` element is the pair (low half, high half). Level 0 is one bit (`U1`). -/
def T : Nat → Type
  | 0 => Bool
  | n + 1 => T n × T n

namespace T

instance decEq : (n : Nat) → DecidableEq (T n)
  | 0 => inferInstanceAs (DecidableEq Bool)
  | n + 1 => letI := decEq n; inferInstanceAs (DecidableEq (T n × T n))

/-- `Field::ZERO`, `binary_field.rs:316`. -/
def zero : (n : Nat) → T n
  | 0 => false
  | n + 1 => (zero n, zero n)

/-- `Field::ONE`, `binary_field.rs:317` (integer one: the low bit is set). -/
def one : (n : Nat) → T n
  | 0 => true
  | n + 1 => (one n, zero n)

/-- `Add`, `binary_field.rs:183-190`: xor of the representations. -/
def add : (n : Nat) → T n → T n → T n
  | 0, a, b => Bool.xor a b
  | n + 1, (a0, a1), (b0, b1) => (add n a0 b0, add n a1 b1)

/-- `multiply_alpha`: level 0 `binary_field_arithmetic.rs:88-90`, higher levels
`arch/portable/pairwise_recursive_arithmetic.rs:54-61`. -/
def mulAlpha : (n : Nat) → T n → T n
  | 0, a => a
  | n + 1, (a0, a1) => (a1, add n a0 (mulAlpha n a1))

/-- `multiply`: level 0 `binary_field_arithmetic.rs:83-85`, higher levels
`arch/portable/pairwise_recursive_arithmetic.rs:18-29` (Karatsuba). Subtraction is xor
(`binary_field.rs:201-208`). -/
def mul : (n : Nat) → T n → T n → T n
  | 0, a, b => Bool.and a b
  | n + 1, (a0, a1), (b0, b1) =>
    let z0 := mul n a0 b0
    let z2 := mul n a1 b1
    let z0z2 := add n z0 z2
    let z1 := add n (mul n (add n a0 a1) (add n b0 b1)) z0z2
    let z2a := mulAlpha n z2
    (z0z2, add n z1 z2a)

/-- `square`: level 0 `binary_field_arithmetic.rs:93-95`, higher levels
`arch/portable/pairwise_recursive_arithmetic.rs:38-45`. -/
def square : (n : Nat) → T n → T n
  | 0, a => a
  | n + 1, (a0, a1) =>
    let z0 := square n a0
    let z2 := square n a1
    let z2a := mulAlpha n z2
    (add n z0 z2, z2a)

/-- `invert_or_zero`: level 0 `binary_field_arithmetic.rs:76-78`, higher levels
`arch/portable/pairwise_recursive_arithmetic.rs:70-80`. -/
def invertOrZero : (n : Nat) → T n → T n
  | 0, a => a
  | n + 1, (a0, a1) =>
    let a0z1 := add n a0 (mulAlpha n a1)
    let delta := add n (mul n a0 a0z1) (square n a1)
    let deltaInv := invertOrZero n delta
    (mul n deltaInv a0z1, mul n deltaInv a1)

instance (n : Nat) : Zero (T n) := ⟨zero n⟩
instance (n : Nat) : One (T n) := ⟨one n⟩
instance (n : Nat) : Add (T n) := ⟨add n⟩
instance (n : Nat) : Mul (T n) := ⟨mul n⟩
/-- `Neg`, `binary_field.rs:175-181`: the identity. -/
instance (n : Nat) : Neg (T n) := ⟨fun a => a⟩
/-- `Sub`, `binary_field.rs:201-208`: xor. -/
instance (n : Nat) : Sub (T n) := ⟨add n⟩
/-- `Field::invert_or_zero`. -/
instance (n : Nat) : Inv (T n) := ⟨invertOrZero n⟩

/-- The primitive element `α_n` used by `mul_alpha`: 1 at level 0 and the element with halves
`(0, 1)` (integer `1 << 2^(n-1)`, see the `alphas!` macro, `packed_arithmetic.rs:172-189`). -/
def alpha : (n : Nat) → T n
  | 0 => true
  | n + 1 => (zero n, one n)

/-! ## Ring laws at all levels -/

/-- The laws proved by simultaneous induction on the level. -/
structure Laws (n : Nat) : Prop where
  add_assoc : ∀ a b c : T n, a + b + c = a + (b + c)
  add_comm : ∀ a b : T n, a + b = b + a
  zero_add : ∀ a : T n, 0 + a = a
  add_self : ∀ a : T n, a + a = 0
  mul_assoc : ∀ a b c : T n, a * b * c = a * (b * c)
  mul_comm : ∀ a b : T n, a * b = b * a
  one_mul : ∀ a : T n, 1 * a = a
  mul_add : ∀ a b c : T n, a * (b + c) = a * b + a * c
  mulAlpha_eq : ∀ a : T n, mulAlpha n a = alpha n * a

namespace Laws
variable {n : Nat}

theorem zero_mul (h : Laws n) (a : T n) : 0 * a = 0 := by
  have h1 : a * (0 + 0) = a * 0 + a * 0 := h.mul_add _ _ _
  rw [h.zero_add, h.add_self] at h1
  rw [h.mul_comm]; exact h1

/-- The commutative ring built from the laws; all operations are the model's. -/
abbrev commRing (h : Laws n) : CommRing (T n) where
  add_assoc := h.add_assoc
  add_comm := h.add_comm
  zero_add := h.zero_add
  add_zero a := by rw [h.add_comm, h.zero_add]
  mul_assoc := h.mul_assoc
  mul_comm := h.mul_comm
  one_mul := h.one_mul
  mul_one a := by rw [h.mul_comm, h.one_mul]
  left_distrib := h.mul_add
  right_distrib a b c := by rw [h.mul_comm, h.mul_add, h.mul_comm c a, h.mul_comm c b]
  zero_mul := h.zero_mul
  mul_zero a := by rw [h.mul_comm, h.zero_mul]
  neg_add_cancel a := h.add_self a
  sub_eq_add_neg _ _ := rfl
  nsmul := nsmulRec
  zsmul := zsmulRec

end Laws

section succ
variable {n : Nat}

theorem add_mk (a0 a1 b0 b1 : T n) :
    (show T (n+1) from (a0, a1)) + (show T (n+1) from (b0, b1)) = (a0 + b0, a1 + b1) := rfl

theorem zero_mk : (0 : T (n+1)) = (0, 0) := rfl
theorem one_mk : (1 : T (n+1)) = (1, 0) := rfl
theorem alpha_succ : alpha (n+1) = (0, 1) := rfl

theorem mul_mk_raw (a0 a1 b0 b1 : T n) :
    (show T (n+1) from (a0, a1)) * (show T (n+1) from (b0, b1)) =
      (a0 * b0 + a1 * b1,
       ((a0 + a1) * (b0 + b1) + (a0 * b0 + a1 * b1)) + mulAlpha n (a1 * b1)) := rfl

end succ

theorem laws_zero : Laws 0 where
  add_assoc := by rintro (_ | _) (_ | _) (_ | _) <;> rfl
  add_comm := by rintro (_ | _) (_ | _) <;> rfl
  zero_add := by rintro (_ | _) <;> rfl
  add_self := by rintro (_ | _) <;> rfl
  mul_assoc := by rintro (_ | _) (_ | _) (_ | _) <;> rfl
  mul_comm := by rintro (_ | _) (_ | _) <;> rfl
  one_mul := by rintro (_ | _) <;> rfl
  mul_add := by rintro (_ | _) (_ | _) (_ | _) <;> rfl
  mulAlpha_eq := by rintro (_ | _) <;> rfl

theorem laws_succ {n : Nat} (h : Laws n) : Laws (n + 1) := by
  let _ := h.commRing
  have two : (2 : T n) = 0 := by
    have := h.add_self 1
    rw [← this]; exact (one_add_one_eq_two).symm
  -- closed form of the product
  have hmul : ∀ a0 a1 b0 b1 : T n,
      (show T (n+1) from (a0, a1)) * (show T (n+1) from (b0, b1)) =
        (a0 * b0 + a1 * b1, a0 * b1 + a1 * b0 + alpha n * (a1 * b1)) := by
    intro a0 a1 b0 b1
    rw [mul_mk_raw, h.mulAlpha_eq]
    refine Prod.ext rfl ?_
    show (a0 + a1) * (b0 + b1) + (a0 * b0 + a1 * b1) + alpha n * (a1 * b1) = _
    linear_combination (a0 * b0 + a1 * b1) * two
  refine ⟨?_, ?_, ?_, ?_, ?_, ?_, ?_, ?_, ?_⟩
  · rintro ⟨a0, a1⟩ ⟨b0, b1⟩ ⟨c0, c1⟩
    exact Prod.ext (h.add_assoc _ _ _) (h.add_assoc _ _ _)
  · rintro ⟨a0, a1⟩ ⟨b0, b1⟩
    exact Prod.ext (h.add_comm _ _) (h.add_comm _ _)
  · rintro ⟨a0, a1⟩
    exact Prod.ext (h.zero_add _) (h.zero_add _)
  · rintro ⟨a0, a1⟩
    exact Prod.ext (h.add_self _) (h.add_self _)
  · rintro ⟨a0, a1⟩ ⟨b0, b1⟩ ⟨c0, c1⟩
    have e1 := hmul a0 a1 b0 b1
    have e2 := hmul b0 b1 c0 c1
    refine (congrArg (· * (show T (n+1) from (c0, c1))) e1).trans ?_
    refine Eq.trans ?_ (congrArg ((show T (n+1) from (a0, a1)) * ·) e2).symm
    refine (hmul _ _ _ _).trans ?_
    refine Eq.trans ?_ (hmul _ _ _ _).symm
    refine Prod.ext ?_ ?_
    · show (a0 * b0 + a1 * b1) * c0 + (a0 * b1 + a1 * b0 + alpha n * (a1 * b1)) * c1 =
        a0 * (b0 * c0 + b1 * c1) + a1 * (b0 * c1 + b1 * c0 + alpha n * (b1 * c1))
      ring
    · show (a0 * b0 + a1 * b1) * c1 + (a0 * b1 + a1 * b0 + alpha n * (a1 * b1)) * c0 +
          alpha n * ((a0 * b1 + a1 * b0 + alpha n * (a1 * b1)) * c1) =
        a0 * (b0 * c1 + b1 * c0 + alpha n * (b1 * c1)) + a1 * (b0 * c0 + b1 * c1) +
          alpha n * (a1 * (b0 * c1 + b1 * c0 + alpha n * (b1 * c1)))
      ring
  · rintro ⟨a0, a1⟩ ⟨b0, b1⟩
    refine (hmul _ _ _ _).trans ?_
    refine Eq.trans ?_ (hmul _ _ _ _).symm
    refine Prod.ext ?_ ?_
    · show a0 * b0 + a1 * b1 = b0 * a0 + b1 * a1
      ring
    · show a0 * b1 + a1 * b0 + alpha n * (a1 * b1) = b0 * a1 + b1 * a0 + alpha n * (b1 * a1)
      ring
  · rintro ⟨a0, a1⟩
    refine (hmul 1 0 a0 a1).trans ?_
    refine Prod.ext ?_ ?_
    · show 1 * a0 + 0 * a1 = a0
      ring
    · show 1 * a1 + 0 * a0 + alpha n * (0 * a1) = a1
      ring
  · rintro ⟨a0, a1⟩ ⟨b0, b1⟩ ⟨c0, c1⟩
    refine (hmul a0 a1 (b0 + c0) (b1 + c1)).trans ?_
    have e1 := hmul a0 a1 b0 b1
    have e2 := hmul a0 a1 c0 c1
    refine Eq.trans ?_ (congrArg₂ (· + ·) e1 e2).symm
    refine Prod.ext ?_ ?_
    · show a0 * (b0 + c0) + a1 * (b1 + c1) = (a0 * b0 + a1 * b1) + (a0 * c0 + a1 * c1)
      ring
    · show a0 * (b1 + c1) + a1 * (b0 + c0) + alpha n * (a1 * (b1 + c1)) =
        (a0 * b1 + a1 * b0 + alpha n * (a1 * b1)) + (a0 * c1 + a1 * c0 + alpha n * (a1 * c1))
      ring
  · rintro ⟨a0, a1⟩
    refine Eq.trans ?_ (hmul 0 1 a0 a1).symm
    refine Prod.ext ?_ ?_
    · show a1 = 0 * a0 + 1 * a1
      ring
    · show a0 + mulAlpha n a1 = 0 * a1 + 1 * a0 + alpha n * (1 * a1)
      rw [h.mulAlpha_eq]
      ring

theorem laws : (n : Nat) → Laws n
  | 0 => laws_zero
  | n + 1 => laws_succ (laws n)

instance instCommRing (n : Nat) : CommRing (T n) := (laws n).commRing

theorem mulAlpha_eq {n : Nat} (a : T n) : mulAlpha n a = alpha n * a := (laws n).mulAlpha_eq a

theorem add_self {n : Nat} (a : T n) : a + a = 0 := (laws n).add_self a

theorem two_eq_zero {n : Nat} : (2 : T n) = 0 := by
  rw [← one_add_one_eq_two]; exact add_self 1

theorem neg_eq' {n : Nat} (a : T n) : -a = a := rfl

theorem mk_mul_mk {n : Nat} (a0 a1 b0 b1 : T n) :
    (show T (n+1) from (a0, a1)) * (show T (n+1) from (b0, b1)) =
      (a0 * b0 + a1 * b1, a0 * b1 + a1 * b0 + alpha n * (a1 * b1)) := by
  rw [mul_mk_raw, mulAlpha_eq]
  refine Prod.ext rfl ?_
  show (a0 + a1) * (b0 + b1) + (a0 * b0 + a1 * b1) + alpha n * (a1 * b1) = _
  linear_combination (a0 * b0 + a1 * b1) * (two_eq_zero : (2 : T n) = 0)

theorem square_eq : {n : Nat} → (a : T n) → square n a = a * a
  | 0, a => by cases a <;> rfl
  | n + 1, (a0, a1) => by
    refine Eq.trans ?_ (mk_mul_mk _ _ _ _).symm
    refine Prod.ext ?_ ?_
    · show square n a0 + square n a1 = a0 * a0 + a1 * a1
      rw [square_eq a0, square_eq a1]
    · show mulAlpha n (square n a1) = a0 * a1 + a1 * a0 + alpha n * (a1 * a1)
      rw [mulAlpha_eq, square_eq a1]
      linear_combination (- (a0 * a1)) * (two_eq_zero : (2 : T n) = 0)

/-! ## Irreducibility of `X² + α_n X + 1` by a trace argument -/

/-- Inverse of `alpha n`, used in the irreducibility proof only. -/
def beta : (n : Nat) → T n
  | 0 => true
  | n + 1 => (alpha n, one n)

theorem alpha_mul_beta : (n : Nat) → alpha n * beta n = 1
  | 0 => rfl
  | n + 1 => by
    refine (mk_mul_mk (0 : T n) 1 (alpha n) 1).trans ?_
    refine Prod.ext ?_ ?_
    · show (0 : T n) * alpha n + 1 * 1 = 1
      ring
    · show (0 : T n) * 1 + 1 * alpha n + alpha n * (1 * 1) = 0
      linear_combination (alpha n) * (two_eq_zero : (2 : T n) = 0)

/-- An `F_2`-linear functional (the absolute trace), used in the irreducibility proof only. -/
def tr : (n : Nat) → T n → Bool
  | 0, a => a
  | n + 1, (_, a1) => tr n (mul n a1 (alpha n))

theorem tr_add : (n : Nat) → (a b : T n) → tr n (a + b) = Bool.xor (tr n a) (tr n b)
  | 0, _, _ => rfl
  | n + 1, (a0, a1), (b0, b1) => by
    show tr n ((a1 + b1) * alpha n) = Bool.xor (tr n (a1 * alpha n)) (tr n (b1 * alpha n))
    rw [add_mul, tr_add]

theorem tr_square : (n : Nat) → (a : T n) → tr n (a * a) = tr n a
  | 0, a => by cases a <;> rfl
  | n + 1, (a0, a1) => by
    rw [mk_mul_mk]
    show tr n ((a0 * a1 + a1 * a0 + alpha n * (a1 * a1)) * alpha n) = tr n (a1 * alpha n)
    rw [← tr_square n (a1 * alpha n)]
    congr 1
    linear_combination (a0 * a1 * alpha n) * (two_eq_zero : (2 : T n) = 0)

theorem tr_alpha : (n : Nat) → tr n (alpha n) = true
  | 0 => rfl
  | n + 1 => by
    show tr n (1 * alpha n) = true
    rw [one_mul, tr_alpha n]

theorem tr_beta : (n : Nat) → tr n (beta n) = true
  | 0 => rfl
  | n + 1 => by
    show tr n (1 * alpha n) = true
    rw [one_mul, tr_alpha n]

/-- `Y² + α Y + 1` has no root at level `n`. -/
theorem no_root (n : Nat) (x : T n) : x * x + alpha n * x + 1 ≠ 0 := by
  intro hx
  have hab := alpha_mul_beta n
  have h2 : (2 : T n) = 0 := two_eq_zero
  -- y = x * beta satisfies y² + y = beta²
  have hy : (x * beta n) * (x * beta n) + x * beta n = beta n * beta n := by
    linear_combination (beta n * beta n) * hx - (x * beta n) * hab - (beta n * beta n) * h2
  have := congrArg (tr n) hy
  rw [tr_add, tr_square, tr_square, tr_beta] at this
  simp at this

/-! ## Inverses -/

structure InvLaws (n : Nat) : Prop where
  nontrivial : (0 : T n) ≠ 1
  inv_zero : invertOrZero n 0 = 0
  mul_inv : ∀ a : T n, a ≠ 0 → a * invertOrZero n a = 1

theorem invLaws : (n : Nat) → InvLaws n
  | 0 => by
    refine ⟨?_, rfl, ?_⟩
    · intro h; exact Bool.noConfusion h
    · rintro (_ | _) h
      · exact absurd rfl h
      · rfl
  | n + 1 => by
    have ih := invLaws n
    refine ⟨?_, ?_, ?_⟩
    · intro h
      exact ih.nontrivial (congrArg Prod.fst h)
    · show ((invertOrZero n (0 * (0 + mulAlpha n 0) + square n 0) * (0 + mulAlpha n 0),
        invertOrZero n (0 * (0 + mulAlpha n 0) + square n 0) * 0) : T n × T n) = (0, 0)
      rw [mulAlpha_eq]
      simp
    · rintro ⟨a0, a1⟩ ha
      let δ : T n := a0 * (a0 + alpha n * a1) + a1 * a1
      have hinv : invertOrZero (n+1) (a0, a1) =
          (invertOrZero n δ * (a0 + alpha n * a1), invertOrZero n δ * a1) := by
        show ((invertOrZero n (a0 * (a0 + mulAlpha n a1) + square n a1) * (a0 + mulAlpha n a1),
          invertOrZero n (a0 * (a0 + mulAlpha n a1) + square n a1) * a1) : T n × T n) = _
        rw [mulAlpha_eq, square_eq]
      have hδ : δ ≠ 0 := by
        intro h0
        have h0' : a0 * (a0 + alpha n * a1) + a1 * a1 = 0 := h0
        by_cases h1 : a1 = 0
        · have ha0 : a0 * a0 = 0 := by
            rw [h1] at h0'
            linear_combination h0'
          by_cases h00 : a0 = 0
          · exact ha (by rw [h00, h1]; rfl)
          · have := ih.mul_inv a0 h00
            exact h00 (by linear_combination (- a0) * this + invertOrZero n a0 * ha0)
        · have hi := ih.mul_inv a1 h1
          apply no_root n (a0 * invertOrZero n a1)
          linear_combination (invertOrZero n a1 * invertOrZero n a1) * h0' -
            (a1 * invertOrZero n a1 + 1 + alpha n * a0 * invertOrZero n a1) * hi
      have hd := ih.mul_inv δ hδ
      refine (congrArg ((show T (n+1) from (a0, a1)) * ·) hinv).trans ?_
      refine (mk_mul_mk _ _ _ _).trans ?_
      refine Prod.ext ?_ ?_
      · show a0 * (invertOrZero n δ * (a0 + alpha n * a1)) + a1 * (invertOrZero n δ * a1) = 1
        linear_combination hd
      · show a0 * (invertOrZero n δ * a1) + a1 * (invertOrZero n δ * (a0 + alpha n * a1)) +
          alpha n * (a1 * (invertOrZero n δ * a1)) = 0
        linear_combination (a0 * a1 * invertOrZero n δ +
          alpha n * a1 * a1 * invertOrZero n δ) * (two_eq_zero : (2 : T n) = 0)

instance instField (n : Nat) : Field (T n) where
  exists_pair_ne := ⟨0, 1, (invLaws n).nontrivial⟩
  mul_inv_cancel a ha := (invLaws n).mul_inv a ha
  inv_zero := (invLaws n).inv_zero
  nnqsmul := _
  nnqsmul_def := fun _ _ => rfl
  qsmul := _
  qsmul_def := fun _ _ => rfl

instance instCharP (n : Nat) : CharP (T n) 2 := CharTwo.of_one_ne_zero_of_two_eq_zero one_ne_zero two_eq_zero

theorem inv_eq_invertOrZero {n : Nat} (a : T n) : a⁻¹ = invertOrZero n a := rfl

end T
end Verif.Field
