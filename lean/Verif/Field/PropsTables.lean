import Verif.Field.LemmasAes
import Verif.Field.PropsGenerators
import Verif.Field.PropsTower

/-!
# C08: lookup-table arithmetic is tower arithmetic, and the AES tower is the binary tower

The reference for the tables of the canonical tower is the arithmetic of `Scalar`, which C06 shows to
be a field; the reference for the AES tables is `Spec.aesMul`, the multiplication of FIPS 197.
-/

namespace Verif.Field
open Verif.Spec Table

/-! ## Tables of the canonical tower -/

set_option maxRecDepth 100000 in
/-- **C08.** The nibble table multiplies in the 4-bit tower field. -/
theorem C08_mul4b (a b : BitVec 4) : mulBinaryTower4b (a.setWidth 8) (b.setWidth 8) =
    some ((Scalar.mul (k := 2) a b).setWidth 8) := by
  have h : ∀ a b : BitVec 4, mulBinaryTower4b (a.setWidth 8) (b.setWidth 8) =
    some ((Scalar.mul (k := 2) a b).setWidth 8) := by decide +kernel
  exact h a b

/-- **C08.** The log/antilog tables multiply in the 8-bit tower field. -/
theorem C08_mul8b (a b : BitVec 8) :
    multiply8bUsingLogTable a b logTable expTable = some (Scalar.mul (k := 3) a b) := by
  obtain ⟨z, hz, hv⟩ := logTable_mul_of_ok binary_logTableOk a b
  rw [hz]
  refine congrArg some (toT_injective (k := 3) ?_)
  rw [Scalar.toT_mul]
  exact hv

set_option maxRecDepth 100000 in
theorem unary_tables : ∀ a : BitVec 8, unaryOp squareMap a = some (Scalar.square (k := 3) a) ∧
    unaryOp mulAlphaMap a = some (Packed.mulAlpha (L := 3) 3 a) ∧
    unaryOp invertMap a = some (Scalar.invertOrZero (k := 3) a) := by decide +kernel

/-- **C08.** The squaring and inversion tables agree with multiplication: the square of `a` is
`a * a`, the inverse of a non-zero `a` times `a` is one, and zero maps to zero. -/
theorem C08_square_invert8b (a : BitVec 8) :
    unaryOp squareMap a = multiply8bUsingLogTable a a logTable expTable ∧
    ∃ i, unaryOp invertMap a = some i ∧
      (a ≠ 0 → multiply8bUsingLogTable a i logTable expTable = some 1) ∧ (a = 0 → i = 0) := by
  refine ⟨?_, _, (unary_tables a).2.2, ?_, ?_⟩
  · rw [(unary_tables a).1, C08_mul8b]
    exact congrArg some (C06_square 3 a)
  · intro ha
    rw [C08_mul8b]
    exact congrArg some ((C06_field 3).mul_inv a ha)
  · intro ha
    rw [ha]
    exact (C06_field 3).inv_zero

/-- **C08.** The alpha table multiplies by the basis element that defines the next level, the bit
pattern `0x10`. -/
theorem C08_mulAlpha8b (a : BitVec 8) :
    unaryOp mulAlphaMap a = multiply8bUsingLogTable a 0x10 logTable expTable := by
  rw [(unary_tables a).2.1, C08_mul8b]
  refine congrArg some (toT_injective (k := 3) ?_)
  rw [Scalar.toT_mul]
  have h1 : toT (k := 3) (Packed.mulAlpha (L := 3) 3 a) = T.mulAlpha 3 (toT (k := 3) a) :=
    Packed.lane_mulAlpha 3 le_rfl 0 (by decide) a
  have h2 : toT (k := 3) (0x10#8) = T.alpha 3 := rfl
  rw [h1, T.mulAlpha_eq]
  show _ = toT (k := 3) a * toT (k := 3) (0x10#8)
  rw [h2, mul_comm]

/-! ## The AES field and tower -/

namespace Aes
open Scalar

set_option maxRecDepth 100000 in
theorem φ8_xtime : ∀ a : BitVec 8, φ8 (aesXtime a) = Scalar.mul (k := 3) (φ8 2#8) (φ8 a) := by
  decide +kernel

set_option maxRecDepth 100000 in
theorem bits_split : ∀ b : BitVec 8,
    b = (if b.getLsbD 0 then 1#8 else 0#8) ^^^ aesXtime (b >>> 1) := by decide +kernel

theorem φ8_aesMulBits : ∀ (k : Nat) (a b : BitVec 8), b.toNat < 2 ^ k →
    toT (k := 3) (φ8 (aesMulBits k a b)) = toT (k := 3) (φ8 a) * toT (k := 3) (φ8 b) := by
  have z : toT (k := 3) (φ8 0#8) = 0 := by
    have : φ8 0#8 = 0#8 := by decide
    rw [this]; exact Scalar.toT_zero
  have o : toT (k := 3) (φ8 1#8) = 1 := by
    have : φ8 1#8 = 1#8 := by decide
    rw [this]; exact Scalar.toT_one
  have hadd : ∀ x y, toT (k := 3) (φ8 (x ^^^ y)) = toT (k := 3) (φ8 x) + toT (k := 3) (φ8 y) := by
    intro x y; rw [φ8_xor]; exact Scalar.toT_add _ _
  have hx : ∀ x, toT (k := 3) (φ8 (aesXtime x)) = toT (k := 3) (φ8 2#8) * toT (k := 3) (φ8 x) := by
    intro x; rw [φ8_xtime]; exact Scalar.toT_mul _ _
  intro k
  induction k with
  | zero =>
    intro a b hb
    have : b = 0#8 := BitVec.eq_of_toNat_eq (by simpa using hb)
    rw [this, aesMulBits, z, mul_zero]
  | succ k ih =>
    intro a b hb
    have hs : (b >>> 1).toNat < 2 ^ k := by
      rw [BitVec.toNat_ushiftRight, Nat.shiftRight_eq_div_pow]
      have := pow_succ 2 k
      omega
    rw [aesMulBits, hadd, ih _ _ hs, hx]
    conv_rhs => rw [bits_split b, hadd, hx]
    split
    · rw [o]; ring
    · rw [z]; ring

theorem φ8_injective : Function.Injective φ8 := fun x y h => by
  rw [← (transform8_inverse x).1, ← (transform8_inverse y).1]
  exact congrArg _ h

/-- **C08.** The AES byte tables compute in the field of FIPS 197: multiplication is `aesMul`, the
squaring table squares, the inversion table inverts. -/
theorem C08_aes_bytes (a b : BitVec 8) :
    Aes.mul 0 a b = some (aesMul a b) ∧
    Aes.square 0 a = some (aesMul a a) ∧
    ∃ i, Aes.invertOrZero 0 a = some i ∧ (a ≠ 0 → aesMul a i = 1) ∧ (a = 0 → i = 0) := by
  have hm : ∀ a b, toT (k := 3) (φ8 (aesMul a b)) = toT (k := 3) (φ8 a) * toT (k := 3) (φ8 b) :=
    fun a b => φ8_aesMulBits 8 a b b.isLt
  have hinj : Function.Injective fun x => toT (k := 3) (φ8 x) :=
    fun x y h => φ8_injective (toT_injective h)
  have h0 : φ8 0#8 = 0#8 := by decide
  have h1 : φ8 1#8 = 1#8 := by decide
  obtain ⟨z, hz, hv⟩ := Φ_mul 0 a b
  obtain ⟨s, hs, hsv⟩ := Φ_square 0 a
  obtain ⟨i, hi, hiv⟩ := Φ_inv 0 a
  rw [Φ_zero_eq, Φ_zero_eq] at hsv hiv
  rw [Φ_zero_eq, Φ_zero_eq, Φ_zero_eq] at hv
  refine ⟨hz.trans (congrArg some (hinj (hv.trans (hm a b).symm))),
    hs.trans (congrArg some (hinj (hsv.trans ?_))), i, hi, fun ha => hinj ?_, fun ha => hinj ?_⟩
  · exact (T.square_eq (n := 3) _).trans (hm a a).symm
  · have hne : toT (k := 3) (φ8 a) ≠ 0 := by
      intro h
      apply ha
      apply hinj
      show toT (k := 3) (φ8 a) = toT (k := 3) (φ8 0#8)
      rw [h, h0]; exact Scalar.toT_zero.symm
    show toT (k := 3) (φ8 (aesMul a i)) = toT (k := 3) (φ8 1#8)
    rw [hm]
    refine (congrArg _ hiv).trans ((mul_inv_cancel₀ hne).trans ?_)
    rw [h1]; exact Scalar.toT_one.symm
  · show toT (k := 3) (φ8 i) = toT (k := 3) (φ8 0#8)
    refine hiv.trans ?_
    have : toT (k := 3) (φ8 a) = 0 := by
      subst ha
      show toT (k := 3) (φ8 0#8) = 0
      rw [h0]; exact Scalar.toT_zero
    rw [this, inv_zero, h0]; exact Scalar.toT_zero.symm

/-- **C08.** Conversion between the AES tower and the canonical tower is a bijection, at every
level. -/
theorem C08_aes_bijection (n : Nat) (x : U (3 + n)) :
    ofBinary (toBinary x) = x ∧ toBinary (ofBinary x) = x :=
  ⟨ofBinary_toBinary x, toBinary_ofBinary x⟩

/-- **C08.** Conversion is a field isomorphism at every level: AES-tower arithmetic never fails, and
its results convert to the results of canonical-tower arithmetic on the converted operands. -/
theorem C08_aes_isomorphism (n : Nat) (a b : U (3 + n)) :
    toBinary (a ^^^ b) = Scalar.add (toBinary a) (toBinary b) ∧
    (Aes.mul n a b).map toBinary = some (Scalar.mul (toBinary a) (toBinary b)) ∧
    (Aes.square n a).map toBinary = some (Scalar.square (toBinary a)) ∧
    (Aes.invertOrZero n a).map toBinary = some (Scalar.invertOrZero (toBinary a)) := by
  obtain ⟨z, hz, hv⟩ := Φ_mul n a b
  obtain ⟨s, hs, hsv⟩ := Φ_square n a
  obtain ⟨i, hi, hiv⟩ := Φ_inv n a
  refine ⟨toBinary_xor a b, ?_, ?_, ?_⟩
  · rw [hz]; exact congrArg some (toT_injective (hv.trans (Scalar.toT_mul _ _).symm))
  · rw [hs]; exact congrArg some (toT_injective (hsv.trans (Scalar.toT_square _).symm))
  · rw [hi]; exact congrArg some (toT_injective (hiv.trans (Scalar.toT_inv _).symm))

/-- **C08**, finding: `is_aes_tower` answers `true` for every type. -/
theorem C08_isAesTower_always_true (f a b c d : Nat) : isAesTower f a b c d = true := by
  simp [isAesTower]

/-- The worked example of FIPS 197: `{57} • {83} = {c1}`, through the repository's tables. -/
example : Aes.mul 0 0x57#8 0x83#8 = some 0xc1#8 := by
  rw [(C08_aes_bytes 0x57#8 0x83#8).1]; decide

example : aesMul 0x57#8 0x13#8 = 0xfe#8 := by decide

theorem aes_generator_cert (n : Fin 5) :
    orderCert (3 + n.val) (toBinary (multiplicativeGenerator n)) = true := by
  revert n
  decide +kernel

/-- **C10.** The published generators of the AES tower fields have full order `2^(2^(3+n)) - 1`:
power `m` is one exactly when the order divides `m`. The power is taken after conversion, which by
`C08_aes_isomorphism` is the conversion of the power. -/
theorem C10_aes_order (n : Fin 5) (m : Nat) :
    power Scalar.mul 1#_ (toBinary (multiplicativeGenerator n)) m = 1#_ ↔
      (2 ^ 2 ^ (3 + n.val) - 1) ∣ m := by
  rw [← orderCert_sound (3 + n.val) _ (by omega) (aes_generator_cert n),
    orderOf_dvd_iff_pow_eq_one, ← toT_power, ← Scalar.toT_one]
  exact toT_injective.eq_iff.symm

end Aes

example : multiply8bUsingLogTable 0x2D#8 0x13#8 logTable expTable =
    some (Scalar.mul (k := 3) 0x2D#8 0x13#8) := C08_mul8b _ _

end Verif.Field
