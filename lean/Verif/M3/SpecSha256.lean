import Verif.M3.SpecTable

/-! Specification of the compression function of SHA-256, from the standard FIPS 180-4. -/

namespace Verif.M3.Sha

/-- `Ch`, FIPS 180-4 section 4.1.2. -/
def ch (x y z : BitVec 32) : BitVec 32 := (x &&& y) ^^^ (~~~x &&& z)

/-- `Maj`, FIPS 180-4 section 4.1.2. -/
def maj (x y z : BitVec 32) : BitVec 32 := (x &&& y) ^^^ (x &&& z) ^^^ (y &&& z)

/-- `Σ₀`, FIPS 180-4 section 4.1.2. -/
def bigSigma0 (x : BitVec 32) : BitVec 32 := x.rotateRight 2 ^^^ x.rotateRight 13 ^^^ x.rotateRight 22

/-- `Σ₁`, FIPS 180-4 section 4.1.2. -/
def bigSigma1 (x : BitVec 32) : BitVec 32 := x.rotateRight 6 ^^^ x.rotateRight 11 ^^^ x.rotateRight 25

/-- `σ₀`, FIPS 180-4 section 4.1.2. -/
def sigma0 (x : BitVec 32) : BitVec 32 := x.rotateRight 7 ^^^ x.rotateRight 18 ^^^ x >>> 3

/-- `σ₁`, FIPS 180-4 section 4.1.2. -/
def sigma1 (x : BitVec 32) : BitVec 32 := x.rotateRight 17 ^^^ x.rotateRight 19 ^^^ x >>> 10

/-- The message schedule of the block `m`, FIPS 180-4 section 6.2.2, step 1. -/
def schedule (m : Nat → BitVec 32) (t : Nat) : BitVec 32 :=
  if t < 16 then m t
  else sigma1 (schedule m (t - 2)) + schedule m (t - 7) + sigma0 (schedule m (t - 15)) + schedule m (t - 16)

/-- The working variables. -/
structure State where
  a : BitVec 32
  b : BitVec 32
  c : BitVec 32
  d : BitVec 32
  e : BitVec 32
  f : BitVec 32
  g : BitVec 32
  h : BitVec 32
  deriving DecidableEq

/-- One round with the constant `k` and the word `w` of the schedule, FIPS 180-4 section 6.2.2, step 3. -/
def round (k w : BitVec 32) (s : State) : State :=
  let t1 := s.h + bigSigma1 s.e + ch s.e s.f s.g + k + w
  let t2 := bigSigma0 s.a + maj s.a s.b s.c
  ⟨t1 + t2, s.a, s.b, s.c, s.d + t1, s.e, s.f, s.g⟩

/-- The first `n` rounds. -/
def rounds (k w : Nat → BitVec 32) : Nat → State → State
  | 0, s => s
  | n + 1, s => round (k n) (w n) (rounds k w n s)

/-- The words of the hash value after the block `m`, with the round constants `k` and the hash value `s` before, FIPS
180-4 section 6.2.2. -/
def compress (k : Nat → BitVec 32) (s : State) (m : Nat → BitVec 32) : List (BitVec 32) :=
  let r := rounds k (schedule m) 64 s
  [r.a + s.a, r.b + s.b, r.c + s.c, r.d + s.d, r.e + s.e, r.f + s.f, r.g + s.g, r.h + s.h]

/-- The prime numbers in increasing order, as far as they are needed. -/
def primes : List Nat := (List.range 312).filter fun p => 2 ≤ p && (List.range p).all fun d => d < 2 || p % d != 0

/-- `x` is the first 32 bits of the fractional part of the `r`-th root of `p`: for some whole number `i`,
`i + x / 2^32` is at most the root, and `i + (x + 1) / 2^32` is more. -/
def FracRoot (r p : Nat) (x : BitVec 32) : Prop :=
  ∃ i, (i * 2 ^ 32 + x.toNat) ^ r ≤ p * 2 ^ (32 * r) ∧ p * 2 ^ (32 * r) < (i * 2 ^ 32 + x.toNat + 1) ^ r

/-- `k` are the round constants of SHA-256, FIPS 180-4 section 4.2.2. -/
def RoundConstants (k : Nat → BitVec 32) : Prop := ∀ t < 64, ∀ p, primes[t]? = some p → FracRoot 3 p (k t)

/-- `s` is the initial hash value of SHA-256, FIPS 180-4 section 5.3.3. -/
def InitialValue (s : State) : Prop :=
  FracRoot 2 2 s.a ∧ FracRoot 2 3 s.b ∧ FracRoot 2 5 s.c ∧ FracRoot 2 7 s.d ∧ FracRoot 2 11 s.e ∧ FracRoot 2 13 s.f ∧
    FracRoot 2 17 s.g ∧ FracRoot 2 19 s.h

end Verif.M3.Sha

namespace Verif.M3

variable {F : Type} [Field F] [DecidableEq F]

/-- The `k`-th word of 32 bits in the cell of a column of bits. -/
def wordBV (w : Row F) (c : Col) (k : Nat) : BitVec 32 := BitVec.ofNat 32 (wordAt w c k)

end Verif.M3
