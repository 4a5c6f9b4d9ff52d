import Verif.Hash.SpecSponge

/-! Specification of Grøstl-256, after its definition (Grøstl, a SHA-3 candidate, sections 3.2 to 3.6), and of the compression
of two digests.  A state is a matrix of 8 rows and 8 columns of bytes. -/

set_option linter.dupNamespace false

namespace Verif.Hash.Groestl

/-! ### The field and the S-box of AES -/

/-- Multiplication by `x` in `F_2[x] / (x^8 + x^4 + x^3 + x + 1)`. -/
def xtime (a : BitVec 8) : BitVec 8 := (a <<< 1) ^^^ (if a.msb = true then 0x1b else 0)

/-- Multiplication: the sum of `a x^i` over the bits `i` of `c`, by Horner's rule. -/
def mul (c a : BitVec 8) : BitVec 8 :=
  [7, 6, 5, 4, 3, 2, 1, 0].foldl (fun acc i => xtime acc ^^^ (if c.getLsbD i = true then a else 0)) 0

/-- `a ^ 254`, the inverse of `a`, or zero. -/
def inv (a : BitVec 8) : BitVec 8 :=
  let a3 := mul a (mul a a)
  let a7 := mul a (mul a3 a3)
  let a15 := mul a (mul a7 a7)
  let a31 := mul a (mul a15 a15)
  let a63 := mul a (mul a31 a31)
  let a127 := mul a (mul a63 a63)
  mul a127 a127

/-- The S-box of AES. -/
def sbox (a : BitVec 8) : BitVec 8 :=
  let b := inv a
  b ^^^ b.rotateLeft 1 ^^^ b.rotateLeft 2 ^^^ b.rotateLeft 3 ^^^ b.rotateLeft 4 ^^^ 0x63

/-! ### The permutations -/

/-- Row and column. -/
abbrev State := Fin 8 → Fin 8 → BitVec 8

/-- The number of a column in the upper half of a byte. -/
def high (j : Fin 8) : BitVec 8 := BitVec.ofNat 8 (16 * j.val)

/-- AddRoundConstant. -/
def addP (r : BitVec 8) (s : State) : State := fun i j => if i = 0 then s i j ^^^ high j ^^^ r else s i j
def addQ (r : BitVec 8) (s : State) : State := fun i j => if i = 7 then s i j ^^^ 0xff ^^^ high j ^^^ r else s i j ^^^ 0xff

/-- SubBytes. -/
def sub (s : State) : State := fun i j => sbox (s i j)

/-- ShiftBytes: row `i` is rotated left by `σ i`. -/
def shift (σ : Fin 8 → Fin 8) (s : State) : State := fun i j => s i (j + σ i)
def shiftsP : Fin 8 → Fin 8 := fun i => i
def shiftsQ : Fin 8 → Fin 8 := fun i => [1, 3, 5, 7, 0, 2, 4, 6].getD i.val 0

/-- The first row of the circulant matrix of MixBytes. -/
def circ (k : Fin 8) : BitVec 8 := [2, 2, 3, 4, 5, 3, 5, 7].getD k.val 0

/-- MixBytes: columns are multiplied by the circulant matrix. -/
def mix (s : State) : State := fun i j => (List.finRange 8).foldl (fun acc k => acc ^^^ mul (circ (k - i)) (s k j)) 0

def roundP (r : BitVec 8) (s : State) : State := mix (shift shiftsP (sub (addP r s)))
def roundQ (r : BitVec 8) (s : State) : State := mix (shift shiftsQ (sub (addQ r s)))

/-- Ten rounds. -/
def permP (s : State) : State := (List.range 10).foldl (fun s r => roundP (BitVec.ofNat 8 r) s) s
def permQ (s : State) : State := (List.range 10).foldl (fun s r => roundQ (BitVec.ofNat 8 r) s) s

/-! ### The hash -/

def add (s t : State) : State := fun i j => s i j ^^^ t i j

/-- Byte `8 j + i` of a block is in row `i` and column `j`. -/
def ofBytes (b : Bytes) : State := fun i j => b.getD (8 * j.val + i.val) 0
def toBytes (s : State) : Bytes := (List.finRange 8).flatMap fun j => (List.finRange 8).map fun i => s i j

/-- The compression function. -/
def compress (h : State) (m : Bytes) : State := add (add (permP (add h (ofBytes m))) (permQ (ofBytes m))) h

/-- The initial value: the number of bits of the output in the last bytes. -/
def initial : State := ofBytes (List.replicate 62 0 ++ [1, 0])

/-- The output transformation: the last 32 bytes of `P(x) + x`. -/
def output (x : State) : Bytes := (toBytes (add (permP x) x)).drop 32

/-- A number as 8 bytes, the most significant first. -/
def be64 (n : Nat) : Bytes := [7, 6, 5, 4, 3, 2, 1, 0].map fun k => BitVec.ofNat 8 (n / 256 ^ k)

/-- The padding of a message of `n` bytes: a bit one, zeros and the number of blocks of the padded message in 8 bytes. -/
def pad (n : Nat) : Bytes := 0x80 :: List.replicate ((119 - n % 64) % 64) 0 ++ be64 ((n + 9 + (119 - n % 64) % 64) / 64)

/-- A hash of this construction over any compression function and output transformation. -/
def merkleDamgard {S : Type} (iv : S) (compress : S → Bytes → S) (output : S → Bytes) (m : Bytes) : Bytes :=
  output ((blocks (m ++ pad m.length)).foldl compress iv)

/-- Grøstl-256. -/
def groestl256 (m : Bytes) : Bytes := merkleDamgard initial compress output m

/-- The compression of two digests of 32 bytes is the output transformation. -/
def compress2 (a b : Bytes) : Bytes := output (ofBytes (a ++ b))

end Verif.Hash.Groestl
