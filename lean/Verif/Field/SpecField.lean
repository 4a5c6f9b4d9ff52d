/-!
# Specification: what it means to be a field

Independent of the model: the usual list of axioms for two binary operations, a zero, a one and an
inversion function with the convention `inv zero = zero`.
-/

namespace Verif.Spec

/-- `(α, add, mul, zero, one, inv)` is a field of characteristic two, `inv zero = zero`. -/
structure IsChar2Field {α : Type} (add mul : α → α → α) (zero one : α) (inv : α → α) : Prop where
  add_assoc : ∀ a b c, add (add a b) c = add a (add b c)
  add_comm : ∀ a b, add a b = add b a
  add_zero : ∀ a, add a zero = a
  add_self : ∀ a, add a a = zero
  mul_assoc : ∀ a b c, mul (mul a b) c = mul a (mul b c)
  mul_comm : ∀ a b, mul a b = mul b a
  mul_one : ∀ a, mul a one = a
  distrib : ∀ a b c, mul a (add b c) = add (mul a b) (mul a c)
  zero_ne_one : zero ≠ one
  mul_inv : ∀ a, a ≠ zero → mul a (inv a) = one
  inv_zero : inv zero = zero

/-- `f` is an injective homomorphism between the two structures. -/
structure IsEmbedding {α β : Type} (addA mulA : α → α → α) (zeroA oneA : α)
    (addB mulB : β → β → β) (zeroB oneB : β) (f : α → β) : Prop where
  map_add : ∀ a b, f (addA a b) = addB (f a) (f b)
  map_mul : ∀ a b, f (mulA a b) = mulB (f a) (f b)
  map_zero : f zeroA = zeroB
  map_one : f oneA = oneB
  injective : ∀ a b, f a = f b → a = b

end Verif.Spec

namespace Verif.Spec

/-- `a` multiplied with itself `n` times, by the definition of a power. -/
def power {α : Type} (mul : α → α → α) (one : α) (a : α) : Nat → α
  | 0 => one
  | n + 1 => mul (power mul one a n) a

/-- The value of a little-endian list of 64-bit limbs. -/
def limbsValue : List Nat → Nat
  | [] => 0
  | l :: ls => l + 2 ^ 64 * limbsValue ls

/-- The image of `x` under the `GF(2)`-linear map whose `t`-th column is `cols[t]`: the
exclusive-or of the columns selected by the bits of `x`. -/
def linearImage {w : Nat} (cols : List (BitVec w)) (x : BitVec w) : BitVec w :=
  (List.range cols.length).foldl (fun acc t => acc ^^^ (if x.getLsbD t then cols.getD t 0#_ else 0#_)) 0#_

end Verif.Spec

namespace Verif.Spec

/-- Multiplication by `x` in `GF(2)[x]/(x^8+x^4+x^3+x+1)` (FIPS 197, section 4.2.1). -/
def aesXtime (a : BitVec 8) : BitVec 8 :=
  (a <<< 1) ^^^ (if a.getLsbD 7 then 0x1b#8 else 0#8)

/-- `(b_0 + b_1 x + ... + b_{k-1} x^{k-1}) a` in the AES field. -/
def aesMulBits : Nat → BitVec 8 → BitVec 8 → BitVec 8
  | 0, _, _ => 0#8
  | k + 1, a, b => (if b.getLsbD 0 then a else 0#8) ^^^ aesMulBits k (aesXtime a) (b >>> 1)

/-- The product of two bytes in the AES field (FIPS 197, section 4.2). -/
def aesMul (a b : BitVec 8) : BitVec 8 := aesMulBits 8 a b

end Verif.Spec
