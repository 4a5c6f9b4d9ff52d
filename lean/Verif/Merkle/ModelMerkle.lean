import Verif.Util.Loop
import Mathlib.Data.Nat.Size

/-! Model of the binary Merkle tree, crates/core/src/merkle_tree/{binary_merkle_tree,scheme,prover}.rs.

Simplifications.  The hash of a list of field elements (`hash_serialize`, crates/hash/src/serialization.rs:68-84, and
`ParallelDigest::digest` on one item) and the two-to-one compression are parameters.  Digests move through the
transcript whole: a proof is the list of digests still to be read.  The tasks of a parallel loop write different
places and read only what earlier loops wrote, so the loops are sequential.  `none` is a panic. -/

namespace Verif.Merkle

variable {F D : Type*}

/-- `Error` and `VerificationError`, crates/core/src/merkle_tree/errors.rs:5-31. -/
inductive Error where
  | indexOutOfRange (max : Nat)
  | incorrectBatchSize
  | powerOfTwoLengthRequired
  | incorrectLayerDepth
  | transcript
  | incorrectVectorLength
  | invalidProof
  deriving DecidableEq

/-- The hash functions of a scheme, crates/core/src/merkle_tree/scheme.rs:22-37. -/
structure Scheme (F D : Type*) where
  hash : List F → D
  compress : D → D → D

/-- `BinaryMerkleTree`, crates/core/src/merkle_tree/binary_merkle_tree.rs:20-25. -/
structure Tree (D : Type*) where
  logLen : Nat
  innerNodes : Slice D

/-- `Commitment`, crates/core/src/merkle_tree/merkle_tree_vcs.rs:10-14. -/
structure Commitment (D : Type*) where
  root : D
  depth : Nat

/-- `[F]::chunks(n)`, item `i`: the library function the code splits its input with
(crates/core/src/merkle_tree/binary_merkle_tree.rs:192, scheme.rs:78). -/
def chunk (data : List F) (n i : Nat) : List F := (data.drop (i * n)).take n

/-- `compress_layer`, crates/core/src/merkle_tree/binary_merkle_tree.rs:159-171, from the layer of `2 * n` digests at
`prev` to the layer of `n` digests at `next`. -/
def compressLayer (S : Scheme F D) (prev next n : Nat) (nodes : Slice D) : Option (Slice D) :=
  forRange n (fun p nodes =>
    (nodes.get? (prev + 2 * p)).bind fun a => (nodes.get? (prev + 2 * p + 1)).bind fun b =>
      nodes.set? (next + p) (S.compress a b)) nodes

/-- `internal_build`, crates/core/src/merkle_tree/binary_merkle_tree.rs:56-99.  The uninitialised memory after the
leaves holds arbitrary digests `junk`. -/
def internalBuild (S : Scheme F D) (leaf junk : Nat → D) (logLen : Nat) : Option (Tree D) :=
  let total := 2 ^ (logLen + 1) - 1
  (forRange logLen (fun i (s : Slice D × Nat × Nat) =>
    let n := 2 ^ (logLen - (i + 1))
    (compressLayer S s.2.1 s.2.2 n s.1).map fun nodes => (nodes, s.2.2, s.2.2 + n))
    (⟨total, fun p => if p < 2 ^ logLen then leaf p else junk p⟩, 0, 2 ^ logLen)).map fun s => ⟨logLen, s.1⟩

/-- `build`, crates/core/src/merkle_tree/binary_merkle_tree.rs:27-54, with `hash_interleaved` and `hash_iterated`
(lines 178-211): digest `i` is the hash of the `i`-th of `len` equal chunks. -/
def build (S : Scheme F D) (junk : Nat → D) (elements : List F) (batchSize : Nat) : Option (Except Error (Tree D)) :=
  if batchSize = 0 then none
  else if elements.length % batchSize ≠ 0 then some (.error .incorrectBatchSize)
  else
    let len := elements.length / batchSize
    if len ≠ 2 ^ Nat.log2 len then some (.error .powerOfTwoLengthRequired)
    else
      (internalBuild S (fun i => S.hash (chunk elements (elements.length / len) i)) junk (Nat.log2 len)).map .ok

/-- `BinaryMerkleTree::root`, crates/core/src/merkle_tree/binary_merkle_tree.rs:121-126. -/
def Tree.root (t : Tree D) : Option D :=
  if t.innerNodes.size = 0 then none else t.innerNodes.get? (t.innerNodes.size - 1)

/-- `BinaryMerkleTreeProver::commit`, crates/core/src/merkle_tree/prover.rs:45-59. -/
def commit (S : Scheme F D) (junk : Nat → D) (data : List F) (batchSize : Nat) :
    Option (Except Error (Commitment D × Tree D)) :=
  (build S junk data batchSize).bind fun
    | .error e => some (.error e)
    | .ok t => t.root.map fun r => .ok (⟨r, t.logLen⟩, t)

/-- `BinaryMerkleTree::layer`, crates/core/src/merkle_tree/binary_merkle_tree.rs:128-135. -/
def Tree.layer (t : Tree D) (layerDepth : Nat) : Option (Except Error (List D)) :=
  if layerDepth > t.logLen then some (.error .incorrectLayerDepth)
  else if t.innerNodes.size + 1 < 2 ^ (layerDepth + 1) then none
  else
    let start := t.innerNodes.size + 1 - 2 ^ (layerDepth + 1)
    ((List.range (2 ^ layerDepth)).mapM fun i => t.innerNodes.get? (start + i)).map .ok

/-- `BinaryMerkleTree::branch`, crates/core/src/merkle_tree/binary_merkle_tree.rs:140-155. -/
def Tree.branch (t : Tree D) (index layerDepth : Nat) : Option (Except Error (List D)) :=
  if index ≥ 2 ^ t.logLen ∨ layerDepth > t.logLen then some (.error (.indexOutOfRange (2 ^ t.logLen - 1)))
  else
    ((List.range (t.logLen - layerDepth)).mapM fun j =>
      t.innerNodes.get? (((2 ^ j - 1) <<< (t.logLen + 1 - j)) ||| ((index >>> j) ^^^ 1))).map .ok

/-- `prove_opening`, crates/core/src/merkle_tree/prover.rs:69-79: the digests appended to the proof. -/
def proveOpening (t : Tree D) (layerDepth index : Nat) (proof : List D) : Option (Except Error (List D)) :=
  (t.branch index layerDepth).map fun r => r.map fun b => proof ++ b

/-- The `while` loop of `fold_digests_vector_inplace`, crates/core/src/merkle_tree/scheme.rs:159-165. -/
def foldLoop (S : Scheme F D) (len : Nat) (v : Slice D) : Option (Slice D) :=
  if h : len = 0 then some v
  else
    (forRange len (fun i v => (v.get? (2 * i)).bind fun a => (v.get? (2 * i + 1)).bind fun b =>
      v.set? i (S.compress a b)) v).bind (foldLoop S (len / 2))
  termination_by len
  decreasing_by omega

/-- `fold_digests_vector_inplace` followed by `digests[0]`, crates/core/src/merkle_tree/scheme.rs:149-168, 83-87. -/
def foldDigests (S : Scheme F D) (v : Slice D) : Option (Except Error D) :=
  if v.size ≠ 2 ^ Nat.log2 v.size then some (.error .powerOfTwoLengthRequired)
  else (foldLoop S (v.size / 2) v).bind fun v => (v.get? 0).map .ok

section
variable [DecidableEq D]

/-- `verify_vector`, crates/core/src/merkle_tree/scheme.rs:67-90. -/
def verifyVector (S : Scheme F D) (root : D) (data : List F) (batchSize : Nat) : Option (Except Error Unit) :=
  if batchSize = 0 then none
  else if data.length % batchSize ≠ 0 then some (.error .incorrectBatchSize)
  else
    (foldDigests S ⟨data.length / batchSize, fun i => S.hash (chunk data batchSize i)⟩).map fun
      | .error e => .error e
      | .ok d => if d = root then .ok () else .error .invalidProof

/-- `verify_layer`, crates/core/src/merkle_tree/scheme.rs:92-110. -/
def verifyLayer [Inhabited D] (S : Scheme F D) (root : D) (layerDepth : Nat) (digests : List D) :
    Option (Except Error Unit) :=
  if 2 ^ layerDepth ≠ digests.length then some (.error .incorrectVectorLength)
  else
    (foldDigests S ⟨digests.length, fun i => digests[i]?.getD default⟩).map fun
      | .error e => .error e
      | .ok d => if d = root then .ok () else .error .invalidProof

/-- One step of the loop of `verify_opening`: the two digests that are compressed,
crates/core/src/merkle_tree/scheme.rs:134-138. -/
def order (index : Nat) (leaf node : D) : D × D := if index % 2 = 0 then (leaf, node) else (node, leaf)

/-- The loop of `verify_opening`, crates/core/src/merkle_tree/scheme.rs:133-140: the final digest and index. -/
def climb (S : Scheme F D) : Nat → D → List D → D × Nat
  | index, leaf, [] => (leaf, index)
  | index, leaf, node :: rest =>
    let p := order index leaf node
    climb S (index >>> 1) (S.compress p.1 p.2) rest

/-- `verify_opening`, crates/core/src/merkle_tree/scheme.rs:112-146; on success the digests not read.  Reading more
digests than the proof has fails with a transcript error. -/
def verifyOpening (S : Scheme F D) (index : Nat) (values : List F) (layerDepth treeDepth : Nat)
    (layerDigests proof : List D) : Option (Except Error (List D)) :=
  if 2 ^ layerDepth ≠ layerDigests.length then some (.error .incorrectVectorLength)
  else if index ≥ 2 ^ treeDepth then some (.error (.indexOutOfRange (2 ^ treeDepth - 1)))
  else if treeDepth < layerDepth then none
  else
    let n := treeDepth - layerDepth
    if proof.length < n then some (.error .transcript)
    else
      let r := climb S index (S.hash values) (proof.take n)
      (layerDigests[r.2]?).map fun d => if r.1 = d then .ok (proof.drop n) else .error .invalidProof

end

/-- `min_bits`, crates/utils/src/checked_arithmetics.rs:48-50. -/
def minBits (n : Nat) : Nat := if n = 0 then 0 else Nat.log2 n + 1

/-- `optimal_verify_layer`, crates/core/src/merkle_tree/scheme.rs:48-50, with `log2_ceil_usize`
(crates/utils/src/checked_arithmetics.rs:40-42). -/
def optimalVerifyLayer (nQueries treeDepth : Nat) : Nat := min (minBits (nQueries - 1)) treeDepth

/-- `proof_size`, crates/core/src/merkle_tree/scheme.rs:52-65; `size` is the digest size in bytes. -/
def proofSize (size len nQueries layerDepth : Nat) : Option (Except Error Nat) :=
  if len ≠ 2 ^ Nat.log2 len then some (.error .powerOfTwoLengthRequired)
  else
    let logLen := Nat.log2 len
    if layerDepth > logLen then some (.error .incorrectLayerDepth)
    else if logLen < layerDepth + 1 then none
    else some (.ok (((logLen - layerDepth - 1) * nQueries + 2 ^ layerDepth) * size))

end Verif.Merkle
