/-!
# Specification: the field of POLYVAL (RFC 8452, section 3)

`GF(2)[x]/(x^128 + x^127 + x^126 + x^121 + 1)`; bit `i` of an integer is the coefficient of `x^i`.
-/

namespace Verif.Spec

/-- Multiplication by `x`: `x^128 = x^127 + x^126 + x^121 + 1`. -/
def polyvalXtime (a : BitVec 128) : BitVec 128 :=
  (a <<< 1) ^^^ (if a.getLsbD 127 then 0xc2000000000000000000000000000001#128 else 0#128)

/-- `(b_0 + b_1 x + ... + b_{k-1} x^{k-1}) a`. -/
def polyvalMulBits : Nat → BitVec 128 → BitVec 128 → BitVec 128
  | 0, _, _ => 0#128
  | k + 1, a, b =>
    (if b.getLsbD 0 then a else 0#128) ^^^ polyvalMulBits k (polyvalXtime a) (b >>> 1)

/-- The product of two polynomials modulo the POLYVAL polynomial. -/
def polyvalMul (a b : BitVec 128) : BitVec 128 := polyvalMulBits 128 a b

/-- `x^128` modulo the POLYVAL polynomial. -/
def polyvalX128 : BitVec 128 := 0xc2000000000000000000000000000001#128

end Verif.Spec
