import Verif.Field.ModelAes

/-! Model of the gadget for the permutations of Grøstl (crates/m3/src/gadgets/hash/groestl.rs).

An element of `B8` is a byte, with the arithmetic of the canonical tower (`Scalar`).  The model is of one row of the table: a
column with 8 elements in a row is a function of the position.  A witness gives the values of all columns; `Holds` says that the
columns which are computed, shifted or constant have the values that they are defined by and that the constraints vanish.
Simplified: how the table builder and the witness store the columns is not part of this model. -/

set_option linter.dupNamespace false

namespace Verif.M3.Groestl

open Verif.Field

/-- `B8`. -/
abbrev B8 := U 3

/-- `Mul` of `B8`. -/
def mulB8 (a b : B8) : B8 := Scalar.mul (k := 3) a b

/-- A column with 8 elements in a row. -/
abbrev Column := Fin 8 → B8

/-- `B8::from(AESTowerField8b::new(x))`. -/
def fromAes (x : BitVec 8) : B8 := Aes.transform8 Aes.aesToBinaryBases x

/-- `reduce(|a, b| a + b)`. -/
def reduceAdd : List B8 → B8
  | [] => 0
  | a :: l => l.foldl (fun a b => Scalar.add (k := 3) a b) a

/-- `upcast_col` of a column of bits. -/
def upcast (b : Bool) : B8 := if b = true then 1 else 0

/-- `MIX_BYTES_VEC`, crates/m3/src/gadgets/hash/groestl.rs:24. -/
def mixBytesVec : List (BitVec 8) := [0x02, 0x02, 0x03, 0x04, 0x05, 0x03, 0x05, 0x07]

/-- `S_BOX_TOWER_MATRIX_COLS` and `S_BOX_TOWER_OFFSET`, crates/m3/src/gadgets/hash/groestl.rs:31-44. -/
def sboxCols : List B8 := [0x62, 0xd2, 0x79, 0x41, 0xf4, 0xd5, 0x81, 0x4e]
def sboxOffset : B8 := 0x14

/-! ### The S-box -/

/-- The columns of `SBox`, crates/m3/src/gadgets/hash/groestl.rs:317-324. -/
structure SBox where
  invBits : Fin 8 → Fin 8 → Bool
  inv : Column
  output : Column

/-- `pack_b8`, crates/m3/src/gadgets/hash/groestl.rs:389-396; `ext_basis` of `B8` over `B1` is the bits. -/
def packB8 (bits : Fin 8 → Bool) : B8 :=
  reduceAdd ((List.finRange 8).map fun i => mulB8 (upcast (bits i)) ((1 : B8) <<< i.val))

/-- `SBox::new`, crates/m3/src/gadgets/hash/groestl.rs:327-350, at every position. -/
def SBox.Holds (input : Column) (s : SBox) : Prop :=
  ∀ j, s.inv j = packB8 (fun i => s.invBits i j) ∧
    Scalar.add (k := 3) (mulB8 (input j) (mulB8 (s.inv j) (s.inv j))) (s.inv j) = 0 ∧
    Scalar.add (k := 3) (mulB8 (mulB8 (input j) (input j)) (s.inv j)) (input j) = 0 ∧
    s.output j = Scalar.add (k := 3)
      (reduceAdd ((List.finRange 8).map fun i => mulB8 (upcast (s.invBits i j)) (sboxCols.getD i.val 0))) sboxOffset

/-- `SBox::populate`, crates/m3/src/gadgets/hash/groestl.rs:352-386. -/
def SBox.populate (input : Column) : SBox :=
  let inv : Column := fun j => Scalar.invertOrZero (k := 3) (input j)
  { invBits := fun i j => (inv j).getLsbD i.val
    inv := inv
    output := fun j => Scalar.add (k := 3) sboxOffset (Aes.transform8 sboxCols (inv j)) }

/-! ### A round -/

/-- `PermutationVariant`, crates/m3/src/gadgets/hash/groestl.rs:147-151. -/
inductive Variant where
  | P
  | Q

/-- `shift_bytes_offset`, crates/m3/src/gadgets/hash/groestl.rs:158-167. -/
def shiftBytesOffset (pq : Variant) (i : Fin 8) : Nat :=
  let right := match pq with
    | .P => [0, 1, 2, 3, 4, 5, 6, 7].getD i.val 0
    | .Q => [1, 3, 5, 7, 0, 2, 4, 6].getD i.val 0
  (8 - right) % 8

/-- `round_consts`, crates/m3/src/gadgets/hash/groestl.rs:170-175. -/
def roundConsts (round : Nat) : Column := fun i => fromAes (BitVec.ofNat 8 ((i.val * 0x10) ^^^ round))

/-- The columns of `PermutationRound`, crates/m3/src/gadgets/hash/groestl.rs:178-190, without those of its input. -/
structure Round where
  roundConst : Column
  sbox : Fin 8 → SBox
  shift : Fin 8 → Column
  stateOut : Fin 8 → Column

/-- The input of the S-boxes, crates/m3/src/gadgets/hash/groestl.rs:203-211. -/
def sboxIn (pq : Variant) (stateIn : Fin 8 → Column) (roundConst : Column) (i : Fin 8) : Column := fun j =>
  match pq with
  | .P => if i = 0 then Scalar.add (k := 3) (stateIn 0 j) (roundConst j) else stateIn i j
  | .Q =>
    if i = 7 then Scalar.add (k := 3) (Scalar.add (k := 3) (stateIn 7 j) (roundConst j)) (fromAes 0xFF)
    else Scalar.add (k := 3) (stateIn i j) (fromAes 0xFF)

/-- A column shifted by `add_shifted` with `ShiftVariant::CircularLeft` in blocks of 8: crates/core/src/oracle/multilinear.rs,
whose values are those of the shift indicator. -/
def circularLeft (offset : Nat) (c : Column) : Column := fun j => c ⟨(j.val + 8 - offset) % 8, Nat.mod_lt _ (by decide)⟩

/-- `mix_bytes_scalars[k]`. -/
def mixScalar (k : Nat) : B8 := fromAes (mixBytesVec.getD k 0)

/-- `PermutationRound::new`, crates/m3/src/gadgets/hash/groestl.rs:193-253. -/
def Round.Holds (pq : Variant) (stateIn : Fin 8 → Column) (round : Nat) (w : Round) : Prop :=
  w.roundConst = roundConsts round ∧
  (∀ i, (w.sbox i).Holds (sboxIn pq stateIn w.roundConst i)) ∧
  (∀ i, w.shift i = if shiftBytesOffset pq i = 0 then (w.sbox i).output
    else circularLeft (shiftBytesOffset pq i) (w.sbox i).output) ∧
  ∀ j k, w.stateOut j k =
    reduceAdd ((List.finRange 8).map fun i => mulB8 (w.shift i k) (mixScalar ((8 + i.val - j.val) % 8)))

/-- The `u64` of the bytes of a column, the first the least significant, which `get_as::<u64, _, 8>` gives. -/
def asU64 (c : Column) : BitVec 64 :=
  (c 7 : BitVec 8) ++ (c 6 : BitVec 8) ++ (c 5 : BitVec 8) ++ (c 4 : BitVec 8) ++ (c 3 : BitVec 8) ++ (c 2 : BitVec 8) ++
    (c 1 : BitVec 8) ++ (c 0 : BitVec 8)

/-- The column of a `u64`. -/
def ofU64 (w : BitVec 64) : Column := fun j => (w >>> (8 * j.val)).setWidth 8

/-- `PermutationRound::populate`, crates/m3/src/gadgets/hash/groestl.rs:255-306. -/
def Round.populate (pq : Variant) (stateIn : Fin 8 → Column) (round : Nat) : Round :=
  let roundConst : Column := roundConsts round
  let sbox : Fin 8 → SBox := fun i => SBox.populate (sboxIn pq stateIn roundConst i)
  let shift : Fin 8 → Column := fun i =>
    if shiftBytesOffset pq i = 0 then (sbox i).output
    else ofU64 ((asU64 (sbox i).output).rotateLeft (shiftBytesOffset pq i * 8))
  { roundConst := roundConst
    sbox := sbox
    shift := shift
    stateOut := fun j k => (List.finRange 8).foldl
      (fun acc i => Scalar.add (k := 3) acc (mulB8 (shift i k) (mixScalar ((8 + i.val - j.val) % 8)))) 0 }

/-! ### The permutation -/

/-- The state before round `r`, crates/m3/src/gadgets/hash/groestl.rs:66-75, and `state_out`, 84-86, as that before round 10. -/
def stateBefore (stateIn : Fin 8 → Column) (rounds : Nat → Round) : Nat → Fin 8 → Column
  | 0 => stateIn
  | r + 1 => (rounds r).stateOut

/-- `Permutation::new`, crates/m3/src/gadgets/hash/groestl.rs:60-76. -/
def Holds (pq : Variant) (stateIn : Fin 8 → Column) (rounds : Nat → Round) : Prop :=
  ∀ r < 10, (rounds r).Holds pq (stateBefore stateIn rounds r) r

/-- `Permutation::populate`, crates/m3/src/gadgets/hash/groestl.rs:88-97. -/
def populate (pq : Variant) (stateIn : Fin 8 → Column) : Nat → Round
  | 0 => Round.populate pq stateIn 0
  | r + 1 => Round.populate pq (populate pq stateIn r).stateOut (r + 1)

/-- `populate_state_in`, crates/m3/src/gadgets/hash/groestl.rs:100-120, for one state. -/
def populateStateIn (state : List B8) : Fin 8 → Column := fun i j => state.getD (j.val * 8 + i.val) 0

/-- A state that `read_state_outs` gives, crates/m3/src/gadgets/hash/groestl.rs:125-144. -/
def readStateOut (stateOut : Fin 8 → Column) : List B8 :=
  (List.finRange 64).map fun ij => stateOut ⟨ij.val % 8, Nat.mod_lt _ (by decide)⟩ ⟨ij.val / 8, by omega⟩

/-- `read_state_outs`, crates/m3/src/gadgets/hash/groestl.rs:125-144, of a segment of `2 ^ logSize` rows. -/
def readStateOuts (logSize : Nat) (stateOut : Nat → Fin 8 → Column) : List (List B8) :=
  (List.range logSize).map fun k => readStateOut (stateOut k)

end Verif.M3.Groestl
