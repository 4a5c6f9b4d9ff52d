import Verif.Hash.ModelHash
import Verif.Hash.ModelGroestlTable

/-! Model of Grøstl: the portable permutations (crates/hash/src/groestl/arch/portable), the hasher
(crates/hash/src/groestl/digest.rs), the compression of two digests (crates/hash/src/groestl/compression.rs) and the hasher of
four strings at once (crates/hash/src/groestl/arch/groestl_multi_avx2.rs), whose vector instructions are not modelled: the
hashers are over any compression function, and that of four strings applies it to each. -/

set_option linter.dupNamespace false

namespace Verif.Hash.Groestl

/-! ### The portable permutations -/

/-- `[u64; 8]`. -/
abbrev Words := Fin 8 → BitVec 64

/-- `TABLE[i][idx]`. -/
def entry (i idx : Nat) : BitVec 64 := BitVec.ofNat 64 ((table.getD i []).getD idx 0)

/-- `column`, crates/hash/src/groestl/arch/portable/compress512.rs:14-22. -/
def column (x : Words) (c : Fin 8 → Fin 8) : BitVec 64 :=
  (List.finRange 8).foldl (fun t i => t ^^^ entry i.val ((x (c i) >>> (8 * (7 - i.val))) &&& 0xFF).toNat) 0

/-- The columns that `rndq` passes, crates/hash/src/groestl/arch/portable/compress512.rs:29-38. -/
def columnsQ : List (List (Fin 8)) :=
  [[1, 3, 5, 7, 0, 2, 4, 6], [2, 4, 6, 0, 1, 3, 5, 7], [3, 5, 7, 1, 2, 4, 6, 0], [4, 6, 0, 2, 3, 5, 7, 1],
    [5, 7, 1, 3, 4, 6, 0, 2], [6, 0, 2, 4, 5, 7, 1, 3], [7, 1, 3, 5, 6, 0, 2, 4], [0, 2, 4, 6, 7, 1, 3, 5]]

/-- The columns that `rndp` passes, crates/hash/src/groestl/arch/portable/compress512.rs:46-55. -/
def columnsP : List (List (Fin 8)) :=
  [[0, 1, 2, 3, 4, 5, 6, 7], [1, 2, 3, 4, 5, 6, 7, 0], [2, 3, 4, 5, 6, 7, 0, 1], [3, 4, 5, 6, 7, 0, 1, 2],
    [4, 5, 6, 7, 0, 1, 2, 3], [5, 6, 7, 0, 1, 2, 3, 4], [6, 7, 0, 1, 2, 3, 4, 5], [7, 0, 1, 2, 3, 4, 5, 6]]

/-- `rndq`, crates/hash/src/groestl/arch/portable/compress512.rs:25-39. -/
def rndq (x : Words) (r : BitVec 64) : Words :=
  let x : Words := fun i => x i ^^^ ((BitVec.allOnes 64 - (BitVec.ofNat 64 i.val <<< 4)) ^^^ r)
  fun n => column x fun i => (columnsQ.getD n.val []).getD i.val 0

/-- `rndp`, crates/hash/src/groestl/arch/portable/compress512.rs:42-56. -/
def rndp (x : Words) (r : BitVec 64) : Words :=
  let x : Words := fun i => x i ^^^ ((BitVec.ofNat 64 i.val <<< 60) ^^^ r)
  fun n => column x fun i => (columnsP.getD n.val []).getD i.val 0

/-- `p`, crates/hash/src/groestl/arch/portable/compress512.rs:78-82. -/
def p (h : Words) : Words := (List.range 10).foldl (fun h i => rndp h (BitVec.ofNat 64 i <<< 56)) h

/-- `q`, crates/hash/src/groestl/arch/portable/compress512.rs:84-88. -/
def q (h : Words) : Words := (List.range 10).foldl (fun h i => rndq h (BitVec.ofNat 64 i)) h

/-- `u64::from_be_bytes` of the chunk `j` of a block. -/
def fromBe (block : Bytes) (j : Nat) : BitVec 64 :=
  block.getD (8 * j) 0 ++ block.getD (8 * j + 1) 0 ++ block.getD (8 * j + 2) 0 ++ block.getD (8 * j + 3) 0 ++
    block.getD (8 * j + 4) 0 ++ block.getD (8 * j + 5) 0 ++ block.getD (8 * j + 6) 0 ++ block.getD (8 * j + 7) 0

/-- `u64::to_be_bytes`. -/
def toBe (v : BitVec 64) : Bytes := (List.finRange 8).map fun k => (v >>> (8 * (7 - k.val))).setWidth 8

/-- `state_from_bytes`, `state_to_bytes` and `xor_state`, crates/hash/src/groestl/arch/portable/mod.rs:14-34. -/
def stateFromBytes (block : Bytes) : Words := fun j => fromBe block j.val
def stateToBytes (s : Words) : Bytes := (List.finRange 8).flatMap fun j => toBe (s j)
def xorState (h m : Words) : Words := fun i => h i ^^^ m i

/-- `compress`, crates/hash/src/groestl/arch/portable/compress512.rs:58-76, which
crates/hash/src/groestl/arch/portable/mod.rs:44-46 calls. -/
def compressWords (h : Words) (block : Bytes) : Words :=
  let q0 : Words := stateFromBytes block
  let p0 : Words := fun i => h i ^^^ q0 i
  let q1 := (List.range 10).foldl (fun h i => rndq h (BitVec.ofNat 64 i)) q0
  let p1 := (List.range 10).foldl (fun h i => rndp h (BitVec.ofNat 64 i <<< 56)) p0
  fun i => h i ^^^ (q1 i ^^^ p1 i)

/-- The `compress` that the trait provides, crates/hash/src/groestl/mod.rs:26-34. -/
def compressDefault (h : Words) (m : Bytes) : Words :=
  let q0 := stateFromBytes m
  let p0 := xorState h q0
  xorState (xorState h (p p0)) (q q0)

/-- `Groestl256ByteCompression::compress`, crates/hash/src/groestl/compression.rs:24-35; copying panics unless the digests
have 32 bytes. -/
def byteCompression (a b : Bytes) : Option Bytes :=
  if a.length = 32 ∧ b.length = 32 then
    let input := stateFromBytes (a ++ b)
    some ((stateToBytes (xorState (p input) input)).drop 32)
  else none

/-! ### The hasher -/

/-- What the hashers use of an implementation: the initial state, the compression function and the output transformation. -/
structure Impl (S : Type) where
  iv : S
  compress : S → Bytes → S
  output : S → Bytes

/-- `to_be_bytes` of a `u64`, as numbers. -/
def toBeNat (n : Nat) : Bytes := [7, 6, 5, 4, 3, 2, 1, 0].map fun k => BitVec.ofNat 8 (n / 256 ^ k)

/-- The portable implementation with 256 bits of output: `new`, crates/hash/src/groestl/digest.rs:61-71, and the end of
`finalize_variable_core`, 81-85. -/
def portable : Impl Words where
  iv := stateFromBytes (List.replicate 56 0 ++ toBeNat (8 * 32))
  compress := compressWords
  output state := (stateToBytes (xorState state (p state))).drop (64 - 32)

variable {S : Type}

/-- `GroestlShortVarCore`, crates/hash/src/groestl/digest.rs:23-26, with the buffer of `CoreWrapper`, which holds less than a
block. -/
structure Core (S : Type) where
  state : S
  blocksLen : Nat
  buffer : Bytes

/-- A new hasher. -/
def Core.new (I : Impl S) : Core S := ⟨I.iv, 0, []⟩

/-- `update_blocks`, crates/hash/src/groestl/digest.rs:46-52, on the full blocks of a string; with the rest. -/
def absorbBlocks (I : Impl S) (s : S) (n : Nat) (data : Bytes) : Core S :=
  if _h : 64 ≤ data.length then absorbBlocks I (I.compress s (data.take 64)) (n + 1) (data.drop 64) else ⟨s, n, data⟩
termination_by data.length
decreasing_by rw [List.length_drop]; omega

/-- `Digest::update` of `CoreWrapper` (crate `digest`, not in the repository): the full blocks of what is in the buffer and
the data are processed, the rest stays in the buffer. -/
def Core.update (I : Impl S) (h : Core S) (data : Bytes) : Core S :=
  absorbBlocks I h.state h.blocksLen (h.buffer ++ data)

/-- `len64_padding_be` (crate `block-buffer`, not in the repository), with the state as an argument: a byte `0x80` and zeros,
a further block if there is no room for the number, and the number in the last 8 bytes. -/
def len64Padding (I : Impl S) (s : S) (buffer : Bytes) (n : Nat) : S :=
  if 64 - buffer.length - 1 < 8 then
    let s := I.compress s (buffer ++ 0x80 :: List.replicate (64 - buffer.length - 1) 0)
    I.compress s (List.replicate 56 0 ++ toBeNat n)
  else I.compress s (buffer ++ 0x80 :: List.replicate (64 - buffer.length - 1 - 8) 0 ++ toBeNat n)

/-- `finalize_variable_core`, crates/hash/src/groestl/digest.rs:74-86. -/
def Core.finalize (I : Impl S) (h : Core S) : Bytes :=
  let blocksLen := if 64 - h.buffer.length ≤ 8 then h.blocksLen + 2 else h.blocksLen + 1
  I.output (len64Padding I h.state h.buffer blocksLen)

/-- As a `Digest`. -/
def groestlDigest (I : Impl S) : Digest (Core S) Bytes := ⟨Core.new I, fun h d => some (h.update I d), fun h => some (h.finalize I), 64⟩

/-! ### Four strings at once -/

/-- `Groestl256Multi`, crates/hash/src/groestl/arch/groestl_multi_avx2.rs:321-327. -/
structure Multi4 (S : Type) where
  state : Fin 4 → S
  block : Fin 4 → Bytes
  unfinished : Nat
  consumed : Nat

/-- `default`, crates/hash/src/groestl/arch/groestl_multi_avx2.rs:400-419. -/
def Multi4.new (I : Impl S) : Multi4 S := ⟨fun _ => I.iv, fun _ => List.replicate 64 0, 0, 0⟩

/-- `reset`, crates/hash/src/groestl/arch/groestl_multi_avx2.rs:498-500. -/
def Multi4.reset (I : Impl S) (g : Multi4 S) : Multi4 S := { g with state := (Multi4.new I).state }

/-- `consume_single_block_parallel`, crates/hash/src/groestl/arch/groestl_multi_avx2.rs:330-348. -/
def Multi4.consume (I : Impl S) (g : Multi4 S) (data : Fin 4 → Bytes) : Multi4 S :=
  { g with state := fun r => I.compress (g.state r) (data r), consumed := g.consumed + 1 }

/-- All of four results, or a panic. -/
def all4 {α : Type} (f : Fin 4 → Option α) : Option (Fin 4 → α) :=
  if h : ∀ r, (f r).isSome then some fun r => (f r).get (h r) else none

/-- The loop `while i + STATE_SIZE <= data[0].len()`, crates/hash/src/groestl/arch/groestl_multi_avx2.rs:467-477: the hasher
and the position after it. -/
def Multi4.absorbLoop (I : Impl S) (data : Fin 4 → Bytes) (g : Multi4 S) (i : Nat) : Option (Multi4 S × Nat) :=
  if _h : i + 64 ≤ (data 0).length then
    (all4 fun r => if (data r).length = 0 then some (List.replicate 64 0) else slice (data r) i (i + 64)).bind fun chunk =>
      Multi4.absorbLoop I data (g.consume I chunk) (i + 64)
  else some (g, i)
termination_by (data 0).length - i
decreasing_by omega

/-- `update`, crates/hash/src/groestl/arch/groestl_multi_avx2.rs:429-487. -/
def Multi4.update (I : Impl S) (g : Multi4 S) (data : Fin 4 → Bytes) : Option (Multi4 S) :=
  if ¬ ∀ r, (data r).length = (data 0).length ∨ (data r).length = 0 then none
  else
    let rest := ((data 0).length + g.unfinished) % 64
    if (data 0).length + g.unfinished < 64 then
      (all4 fun r => if (data r).length = 0 then some (g.block r) else copyAt (g.block r) g.unfinished rest (data r)).bind
        fun b => some { g with block := b, unfinished := rest }
    else
      (if g.unfinished ≠ 0 then
        (all4 fun r =>
          if (data r).length = 0 then some (g.block r)
          else (slice (data r) 0 (64 - g.unfinished)).bind fun src => copyAt (g.block r) g.unfinished 64 src).bind fun b =>
            some (g.consume I b, 64 - g.unfinished)
      else some (g, 0)).bind fun s =>
        (Multi4.absorbLoop I data s.1 s.2).bind fun s =>
          (all4 fun r =>
            if (data r).length = 0 then some (s.1.block r)
            else (slice (data r) s.2 (data r).length).bind fun src => copyAt (s.1.block r) 0 rest src).bind fun b =>
              some { s.1 with block := b, unfinished := rest }

/-- `finalize`, crates/hash/src/groestl/arch/groestl_multi_avx2.rs:350-397: the hasher after it, up to its state, and the digests; `self.state` after it, which only `reset` follows, is not
modelled. -/
def Multi4.finalize (I : Impl S) (g : Multi4 S) : Option (Multi4 S × (Fin 4 → Bytes)) :=
  if 64 ≤ g.unfinished then none
  else
    let fits := decide (g.unfinished < 56)
    let number := toBeNat (if fits then g.consumed + 1 else g.consumed + 2)
    (all4 fun r => (slice (g.block r) 0 g.unfinished).bind fun d =>
      (copyAt (List.replicate 64 0) 0 g.unfinished d).bind fun b =>
        let b := b.set g.unfinished 0x80
        if fits then copyAt b 56 64 number else some b).bind fun b =>
      let g := g.consume I b
      (if fits then some g
      else (copyAt (List.replicate 64 0) 56 64 number).bind fun next => some (g.consume I fun _ => next)).bind fun g =>
        some (g, fun r => I.output (g.state r))

/-- As a `MultiDigest`, crates/hash/src/groestl/arch/groestl_multi_avx2.rs:421-507. -/
def groestlMulti (I : Impl S) : Multi (Multi4 S) Bytes 4 :=
  ⟨Multi4.new I, Multi4.update I, fun g => (g.finalize I).map Prod.snd⟩

end Verif.Hash.Groestl
