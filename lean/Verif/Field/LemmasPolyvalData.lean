import Verif.Field.ModelPolyval
import Verif.Field.ModelAes
import Verif.Field.LemmasGenerators

/-!
# What the tables of the POLYVAL field satisfy

Each lemma checks a whole table by evaluation in the kernel.
-/

namespace Verif.Field.Polyval

/-- The image in the canonical tower of the polynomial `x`. -/
def gB : U 7 := 0xacc045053a949202b5b1afa15441d009#128

/-- Entry `i` of `POLYVAL_TO_BINARY_TRANSFORMATION`. -/
def col (i : Nat) : U 7 := BitVec.ofNat 128 (polyvalToBinaryBases.getD i 0)

/-- Entry `POLYVAL_NIBBLE_POW_2_N_TABLE[n][k][j]`. -/
def entry (n k j : Nat) : BitVec 128 :=
  BitVec.ofNat 128 (((nibblePowTable.getD n []).getD k []).getD j 0)

/-- The entry for the monomial `x^i`. -/
def mono (n i : Nat) : BitVec 128 := entry n (i / 4) (2 ^ (i % 4))

/-- Repeated squaring. -/
def sqTimes : Nat → BitVec 128 → BitVec 128
  | 0, x => x
  | n + 1, x => square (sqTimes n x)

theorem lengths : polyvalToBinaryBases.length = 128 ∧ binaryToPolyvalBases.length = 128 ∧
    aesToPolyvalBases.length = 128 ∧ polyvalToAesBases.length = 128 := by decide +kernel

set_option maxRecDepth 100000

theorem col_succ : ∀ i : Fin 127, col (i.val + 1) = Scalar.mul gB (col i.val) := by decide +kernel

theorem col_wrap :
    Scalar.mul gB (col 127) = col 127 ^^^ col 126 ^^^ col 121 ^^^ col 0 := by decide +kernel

theorem col_zero : Scalar.mul (col 0) (sqIter 7 gB) = 1#_ := by decide +kernel

theorem toBinary_one : toBinary one = 1#128 := by decide +kernel

theorem toBinary_r2 :
    toBinary 0x1e563df92ea7081b4563df92ea7081b5#128 = sqIter 7 gB := by decide +kernel

theorem toBinary_generator :
    toBinary multiplicativeGenerator = Verif.Field.multiplicativeGenerator 7 := by decide +kernel

theorem binary_basis : ∀ i : Fin 128, ofBinary (toBinary (1#128 <<< i.val)) = 1#128 <<< i.val ∧
    toBinary (ofBinary (1#128 <<< i.val)) = 1#128 <<< i.val := by decide +kernel

theorem aes_basis : ∀ i : Fin 128, ofAes (toAes (1#128 <<< i.val)) = 1#128 <<< i.val ∧
    toAes (ofAes (1#128 <<< i.val)) = 1#128 <<< i.val := by decide +kernel

theorem aes_triangle : ∀ i : Fin 128,
    Aes.toBinary (n := 4) (toAes (1#128 <<< i.val)) = toBinary (1#128 <<< i.val) := by decide +kernel

theorem entry_ok : ∀ n : Fin 6, ∀ k : Fin 32, ∀ j : Fin 16,
    (nibblePowTable[n.val]?.bind fun t => t[k.val]?.bind fun row => row[j.val]?.bind
      fun v => some (BitVec.ofNat 128 v)) = some (
        (if j.val.testBit 0 then mono n (4 * k.val) else 0#128) ^^^
        (if j.val.testBit 1 then mono n (4 * k.val + 1) else 0#128) ^^^
        (if j.val.testBit 2 then mono n (4 * k.val + 2) else 0#128) ^^^
        (if j.val.testBit 3 then mono n (4 * k.val + 3) else 0#128)) := by decide +kernel

theorem mono_zero : ∀ n : Fin 6, mono n 0 = one := by decide +kernel

theorem mono_succ : ∀ n : Fin 6, ∀ i : Fin 127,
    mono n (i.val + 1) = mul (mono n i.val) (mono n 1) := by decide +kernel

theorem mono_first : mono 0 1 = sqTimes 2 (new 2#128) := by decide +kernel

theorem mono_next : ∀ n : Fin 5, mono (n.val + 1) 1 = sqTimes (2 ^ (n.val + 1)) (mono n.val 1) := by
  decide +kernel

end Verif.Field.Polyval
