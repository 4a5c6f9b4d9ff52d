import Verif.NTT.ModelNtt
import Verif.Math.ModelTensor
import Mathlib.Algebra.Algebra.Defs

/-! Model of FRI folding, crates/ntt/src/fri.rs.  `F` is the field of the NTT, `E` the extension field of the
codeword symbols and challenges, `w` is `P::LOG_WIDTH`, `none` is a panic; the debug assertions and the arithmetic
overflow checks of a debug build are included. -/

namespace Verif.NTT

variable {F E : Type*} [Field F] [Field E] [Algebra F E]

/-- `extrapolate_line_scalar`, crates/math/src/univariate.rs:256-263. -/
def line (x0 x1 z : E) : E := x0 + (x1 - x0) * z

/-- `fold_pair`, crates/ntt/src/fri.rs:96-108. -/
def foldPair (tas : List (TA F)) (round index : Nat) (values : E × E) (r : E) : Option E :=
  (getSubspaceEval tas round index).bind fun t =>
    let u := values.1
    let v := values.2 + u
    let u := u + v * algebraMap F E t
    some (line u v r)

/-- The loop of `fold_chunk` over the remaining challenges, crates/ntt/src/fri.rs:154-173; `log_size` is the number
of remaining challenges. -/
def foldChunkLoop (tas : List (TA F)) (chunkIndex : Nat) : Nat → Slice E → List E → Option E
  | _, values, [] => values.get? 0
  | logLen, values, challenge :: rest =>
    (forRange (2 ^ rest.length) (fun indexOffset values =>
      (values.get? (indexOffset * 2)).bind fun a =>
      (values.get? (indexOffset * 2 + 1)).bind fun b =>
      (foldPair tas logLen ((chunkIndex <<< rest.length) ||| indexOffset) (a, b) challenge).bind fun x =>
        values.set? indexOffset x) values).bind fun values =>
    if logLen = 0 then none else foldChunkLoop tas chunkIndex (logLen - 1) values rest

/-- `fold_chunk`, crates/ntt/src/fri.rs:136-174; `log_domain_size` is the number of twiddle layers. -/
def foldChunk (tas : List (TA F)) (logLen chunkIndex : Nat) (values : Slice E) (challenges : List E) : Option E :=
  if logLen < challenges.length ∨ tas.length < logLen ∨ values.size ≠ 2 ^ challenges.length then none
  else foldChunkLoop tas chunkIndex logLen values challenges

/-- `fold_interleaved_chunk`, crates/ntt/src/fri.rs:200-245.  `tensor` is flattened to scalars.  After the
assertions `values` is a whole number of chunks of `2^(log_batch_size - w)` packed elements, each as long as
`tensor`, so the zip of a chunk with `tensor` has this length. -/
def foldInterleavedChunk (w : Nat) (tas : List (TA F)) (logLen logBatch chunkIndex : Nat) (values : Slice (Lanes E))
    (tensor : Slice E) (foldChallenges : List E) (scratch : Slice E) : Option E :=
  if logLen < foldChallenges.length ∨ tas.length < logLen ∨
      values.size ≠ 2 ^ (foldChallenges.length + logBatch - w) ∨ tensor.size ≠ 2 ^ (logBatch - w) * 2 ^ w ∨
      scratch.size < 2 ^ foldChallenges.length then none
  else
    let len := 2 ^ foldChallenges.length
    if logBatch = 0 then
      foldChunk tas logLen chunkIndex
        ⟨len, fun i => if i < values.size * 2 ^ w then values.val (i / 2 ^ w) (i % 2 ^ w) else scratch.val i⟩
        foldChallenges
    else if logBatch < w then none
    else
      let chunkLen := 2 ^ (logBatch - w)
      foldChunk tas logLen chunkIndex
        ⟨len, fun i => if i < values.size / chunkLen then
            ∑ l ∈ Finset.range (min (2 ^ w) (2 ^ logBatch)), ∑ k ∈ Finset.range chunkLen,
              values.val (i * chunkLen + k) l * tensor.val (k * 2 ^ w + l)
          else scratch.val i⟩ foldChallenges

/-- `fold_interleaved_allocated`, crates/ntt/src/fri.rs:27-69.  Every output is written by one task; a task finds
in its scratch buffer what the earlier tasks of its thread left there: `scratch i` is what the task of output `i`
finds, so a statement for all `scratch` covers every schedule.  After the assertions the codeword is one partial
chunk or a whole number of chunks. -/
def foldInterleavedAllocated (w : Nat) (tas : List (TA F)) (codeword : Slice (Lanes E)) (challenges : List E)
    (logLen logBatch : Nat) (out : Slice E) (scratch : Nat → Nat → E) : Option (Slice E) :=
  if codeword.size ≠ 2 ^ (logLen + logBatch - w) ∨ challenges.length < logBatch ∨
      logLen < challenges.length - logBatch ∨ out.size ≠ 2 ^ (logLen - (challenges.length - logBatch)) then none
  else
    let interleave := challenges.take logBatch
    let fold := challenges.drop logBatch
    (Tensor.Query.expand w interleave).bind fun q => (q.expansion w).bind fun tensor =>
    let chunkSize := 2 ^ (challenges.length - w)
    let nChunks := (codeword.size + chunkSize - 1) / chunkSize
    forRange (min nChunks out.size) (fun i out =>
      (foldInterleavedChunk w tas logLen logBatch i
        ⟨min chunkSize (codeword.size - i * chunkSize), fun k => codeword.val (i * chunkSize + k)⟩ tensor fold
        ⟨2 ^ fold.length, scratch i⟩).bind fun x => out.set? i x) out

/-- `fold_interleaved`, crates/ntt/src/fri.rs:71-88. -/
def foldInterleaved (w : Nat) (tas : List (TA F)) (codeword : Slice (Lanes E)) (challenges : List E)
    (logLen logBatch : Nat) (scratch : Nat → Nat → E) : Option (Slice E) :=
  foldInterleavedAllocated w tas codeword challenges logLen logBatch
    ⟨2 ^ (logLen - (challenges.length - logBatch)), fun _ => 0⟩ scratch

end Verif.NTT
