import Mathlib.Data.List.OfFn

/-! Specification of the sponge of the Vision hash: the padding and the order of the blocks.  The permutation and the
change of the representation of the words are parameters. -/

set_option linter.dupNamespace false

namespace Verif.Hash

/-- A string of bytes. -/
abbrev Bytes := List (BitVec 8)

/-- The padding `10*1` to a multiple of 64 bytes: a byte `0x80`, zeros and a byte `0x01`, which are one byte if there is
room for one only. -/
def padding (n : Nat) : Bytes :=
  if n % 64 = 63 then [0x81] else 0x80 :: List.replicate (62 - n % 64) 0 ++ [0x01]

/-- The blocks of 64 bytes of a string. -/
def blocks (m : Bytes) : List Bytes := (List.range (m.length / 64)).map fun k => (m.drop (64 * k)).take 64

/-- The parameters: the words of the state, how 32 bits become a word and back, and the permutation of the state. -/
structure Sponge (E : Type) where
  zero : E
  toWord : BitVec 32 → E
  ofWord : E → BitVec 32
  perm : (Fin 24 → E) → Fin 24 → E

/-- Four bytes as a number, the least significant first. -/
def le32 (a b c d : BitVec 8) : BitVec 32 := d ++ c ++ b ++ a

/-- The four bytes of a number, the least significant first. -/
def bytes32 (v : BitVec 32) : Bytes :=
  [v.extractLsb' 0 8, v.extractLsb' 8 8, v.extractLsb' 16 8, v.extractLsb' 24 8]

variable {E : Type}

/-- One block: it replaces the first 16 words of the state, and the state is permuted. -/
def absorb (P : Sponge E) (s : Fin 24 → E) (b : Bytes) : Fin 24 → E :=
  P.perm fun i =>
    if i.val < 16 then
      P.toWord (le32 (b.getD (4 * i) 0) (b.getD (4 * i + 1) 0) (b.getD (4 * i + 2) 0) (b.getD (4 * i + 3) 0))
    else s i

/-- The hash: the first eight words after the blocks of the padded string are absorbed. -/
def hash (P : Sponge E) (m : Bytes) : Bytes :=
  let s := (blocks (m ++ padding m.length)).foldl (absorb P) fun _ => P.zero
  (List.finRange 8).flatMap fun i => bytes32 (P.ofWord (s ⟨i.val, by omega⟩))

end Verif.Hash
