import Verif.NTT.ModelFri
import Verif.Code.ModelReedSolomon
import Verif.Merkle.ModelMerkle

/-! Model of the FRI protocol, crates/core/src/protocols/fri/{common,prove,verify}.rs.

Simplifications.  `F` is the field of the NTT (`FA` in the code), `E` the extension field of the symbols and challenges
(`F` in the code).  The decommitment is a list of items, field elements and digests, instead of their bytes: the
parameters fix what is read when, so every byte string is such a list or ends too early.  It is not observed by the
challenger, hence the query indices do not depend on it: `queries k` is the `k`-th index sampled.  Device memory is
host memory and there is enough of it.  Tracing is left out.  The outer `none` is a panic. -/

namespace Verif.Fri

open Verif.NTT (TA Lanes)
open Verif.Code (ReedSolomonCode)
open Verif.Merkle (Scheme Tree)

/-- The errors of crates/core/src/protocols/fri/error.rs:7-62 that are returned. -/
inductive Error where
  | invalidArgs
  | invalidFoldAritySequence
  | earlyProverFinish
  | code (e : Verif.Code.Error)
  | ntt (e : Verif.NTT.Error)
  | vectorCommit (e : Verif.Merkle.Error)
  | compute
  | transcript
  | incorrectFold (queryRound index : Nat)
  | incorrectDegree
  deriving DecidableEq

/-- A result or an error; `none` is a panic. -/
abbrev Res (α : Type*) := Option (Except Error α)

/-- `?` -/
def Res.andThen {α β : Type*} : Res α → (α → Res β) → Res β
  | none, _ => none
  | some (.error e), _ => some (.error e)
  | some (.ok a), f => f a

/-- A value or a panic. -/
def orPanic {α : Type*} (o : Option α) : Res α := o.map .ok

/-- `map_err`, or the conversion of the error by `?`. -/
def mapErr {ε α : Type*} (f : ε → Error) : Option (Except ε α) → Res α
  | none => none
  | some (.error e) => some (.error (f e))
  | some (.ok a) => some (.ok a)

/-- `.map_err(|err| Error::VectorCommit(Box::new(err)))` -/
def vcs {α : Type*} (r : Option (Except Verif.Merkle.Error α)) : Res α := mapErr .vectorCommit r

/-- Subtraction of unsigned integers; a debug build panics on underflow. -/
def sub? (a b : Nat) : Res Nat := if a < b then none else some (.ok (a - b))

/-- `slice[i..i + n]` -/
def range? {α : Type*} (l : List α) (i n : Nat) : Res (List α) :=
  if l.length < i + n then none else some (.ok ((l.drop i).take n))

/-- What a decommitment consists of. -/
inductive Item (E D : Type*) where
  | scalar (x : E)
  | digest (d : D)

variable {F E D : Type*}

/-! ### Parameters -/

/-- `FRIParams`, crates/core/src/protocols/fri/common.rs:16-34. -/
structure Params (F : Type*) where
  code : ReedSolomonCode F
  logBatch : Nat
  foldArities : List Nat
  nTestQueries : Nat

/-- `FRIParams::new`, crates/core/src/protocols/fri/common.rs:41-60. -/
def Params.new (code : ReedSolomonCode F) (logBatch : Nat) (foldArities : List Nat) (nTestQueries : Nat) :
    Except Error (Params F) :=
  if foldArities.sum ≥ code.logDimension + logBatch then .error .invalidFoldAritySequence
  else .ok ⟨code, logBatch, foldArities, nTestQueries⟩

/-- `choose_with_constant_fold_arity`, crates/core/src/protocols/fri/common.rs:70-142, from the code it builds and the
number of queries it calculates (with floating-point numbers, not modelled) on; `assert!(arity > 0)` is the panic. -/
def Params.chooseWithConstantFoldArity (code : ReedSolomonCode F) (logMsgLen logInvRate arity nTestQueries : Nat) :
    Res (Params F) :=
  if arity = 0 then none
  else
    let capHeight := Verif.Merkle.minBits (nTestQueries - 1)
    let foldArities := List.replicate ((logMsgLen - (capHeight - logInvRate)) / arity) arity
    some (Params.new code (min logMsgLen arity) foldArities nTestQueries)

/-- The dimension of the code that `choose_with_constant_fold_arity` builds,
crates/core/src/protocols/fri/common.rs:79. -/
def chooseLogDim (logMsgLen arity : Nat) : Nat := logMsgLen - arity

/-- `n_fold_rounds`, crates/core/src/protocols/fri/common.rs:144-146. -/
def Params.nFoldRounds (p : Params F) : Nat := p.code.logDimension + p.logBatch

/-- `n_oracles`, crates/core/src/protocols/fri/common.rs:149-151. -/
def Params.nOracles (p : Params F) : Nat := p.foldArities.length

/-- `log_len`, crates/core/src/protocols/fri/common.rs:172-174. -/
def Params.logLen (p : Params F) : Nat := p.code.logLen + p.logBatch

/-- `index_bits`, crates/core/src/protocols/fri/common.rs:154-160.  The constructor checked that the arities together
are less than the number of fold rounds, so this subtraction and the next two do not underflow. -/
def Params.indexBits (p : Params F) : Nat := (p.foldArities.head?.map (p.logLen - ·)).getD 0

/-- `n_final_challenges`, crates/core/src/protocols/fri/common.rs:163-165. -/
def Params.nFinalChallenges (p : Params F) : Nat := p.nFoldRounds - p.foldArities.sum

/-- `vcs_optimal_layers_depths_iter`, crates/core/src/protocols/fri/common.rs:178-194, from `log_n_cosets` on. -/
def layerDepths (nTestQueries : Nat) : Nat → List Nat → List Nat
  | _, [] => []
  | logNCosets, arity :: rest =>
    Verif.Merkle.optimalVerifyLayer nTestQueries (logNCosets - arity) ::
      layerDepths nTestQueries (logNCosets - arity) rest

/-- `vcs_optimal_layers_depths_iter`, crates/core/src/protocols/fri/common.rs:178-194. -/
def Params.depths (p : Params F) : List Nat := layerDepths p.nTestQueries p.logLen p.foldArities

/-! ### Reading the decommitment -/

/-- `read_scalar_slice`, crates/core/src/transcript/mod.rs:327-340. -/
def readScalars : Nat → List (Item E D) → Res (List E × List (Item E D))
  | 0, items => some (.ok ([], items))
  | n + 1, .scalar x :: items => (readScalars n items).andThen fun r => some (.ok (x :: r.1, r.2))
  | _ + 1, _ => some (.error .transcript)

/-- `read_vec` of digests, crates/core/src/transcript/mod.rs:304-312. -/
def readDigests : Nat → List (Item E D) → Res (List D × List (Item E D))
  | 0, items => some (.ok ([], items))
  | n + 1, .digest d :: items => (readDigests n items).andThen fun r => some (.ok (d :: r.1, r.2))
  | _ + 1, _ => some (.error .transcript)

/-- The digests that can be read next. -/
def leadingDigests : List (Item E D) → List D
  | .digest d :: items => d :: leadingDigests items
  | _ => []

section Verifier
variable [Field F] [DecidableEq F] [Field E] [DecidableEq E] [Algebra F E] [DecidableEq D] [Inhabited D]

/-- `verify_coset_opening`, crates/core/src/protocols/fri/verify.rs:373-403.  The digests of the branch are the next
in the decommitment, and those not read by `verify_opening` remain. -/
def verifyCosetOpening (S : Scheme E D) (cosetIndex logCosetSize optimalLayerDepth treeDepth : Nat)
    (layerDigests : List D) (advice : List (Item E D)) : Res (List E × List (Item E D)) :=
  (readScalars (2 ^ logCosetSize) advice).andThen fun r =>
    let digests := leadingDigests r.2
    (vcs (Verif.Merkle.verifyOpening S cosetIndex r.1 optimalLayerDepth treeDepth layerDigests digests)).andThen
      fun rest => some (.ok (r.1, r.2.drop (digests.length - rest.length)))

/-- `FRIVerifier`, crates/core/src/protocols/fri/verify.rs:28-45. -/
structure Verifier (F E D : Type*) where
  S : Scheme E D
  params : Params F
  codewordCommitment : D
  roundCommitments : List D
  interleaveTensor : Slice E
  foldChallenges : List E

/-- `FRIVerifier::new`, crates/core/src/protocols/fri/verify.rs:53-92; `tensor_product_full_query` is
`eq_ind_partial_eval` (crates/hal/src/cpu.rs:34-39). -/
def Verifier.new (S : Scheme E D) (params : Params F) (codewordCommitment : D) (roundCommitments : List D)
    (challenges : List E) : Res (Verifier F E D) :=
  if roundCommitments.length ≠ params.nOracles then some (.error .invalidArgs)
  else if challenges.length ≠ params.nFoldRounds then some (.error .invalidArgs)
  else
    (orPanic (Tensor.eqIndPartialEval 0 (challenges.take params.logBatch))).andThen fun tensor =>
    some (.ok ⟨S, params, codewordCommitment, roundCommitments, tensor, challenges.drop params.logBatch⟩)

/-- A list of scalars as a slice. -/
def asSlice (l : List E) : Slice E := ⟨l.length, fun i => (l[i]?).getD 0⟩

/-- A list of scalars as a slice of packed elements of width one. -/
def asLanes (l : List E) : Slice (Lanes E) := ⟨l.length, fun i _ => (l[i]?).getD 0⟩

/-- `verify_last_oracle`, crates/core/src/protocols/fri/verify.rs:147-213.  The number of chunks is exact, because
`verify_vector` has checked the length.  `scratch i` is what the scratch buffer holds before chunk `i`. -/
def Verifier.verifyLastOracle (v : Verifier F E D) (tas : List (TA F)) (terminateCodeword : List E)
    (scratch : Nat → Nat → E) : Res E :=
  let nFinal := v.params.nFinalChallenges
  (vcs (Verif.Merkle.verifyVector v.S (v.roundCommitments.getLast?.getD v.codewordCommitment) terminateCodeword
    (2 ^ nFinal))).andThen fun _ =>
  (if v.params.nOracles ≠ 0 then
    (sub? v.foldChallenges.length nFinal).andThen fun nPrior =>
    let finalChallenges := v.foldChallenges.drop nPrior
    orPanic ((List.range (terminateCodeword.length / 2 ^ nFinal)).mapM fun i =>
      Verif.NTT.foldChunk tas (nFinal + v.params.code.logInvRate) i
        (asSlice (Verif.Merkle.chunk terminateCodeword (2 ^ nFinal) i)) finalChallenges)
  else
    let foldArity := v.params.code.logDimension + v.params.logBatch
    orPanic ((List.range (terminateCodeword.length / 2 ^ foldArity)).mapM fun i =>
      Verif.NTT.foldInterleavedChunk 0 tas v.params.code.logLen v.params.logBatch i
        (asLanes (Verif.Merkle.chunk terminateCodeword (2 ^ foldArity) i)) v.interleaveTensor v.foldChallenges
        ⟨2 ^ v.params.code.logDimension, scratch i⟩)).andThen fun repetition =>
  match repetition with
  | [] => none
  | finalValue :: rest =>
    if rest.any (fun entry => decide (entry ≠ finalValue)) then some (.error .incorrectDegree)
    else some (.ok finalValue)

/-- The loop of `verify_query_internal` over the arities after the first,
crates/core/src/protocols/fri/verify.rs:307-345: the final index, value and decommitment. -/
def Verifier.queryLoop (v : Verifier F E D) (tas : List (TA F)) :
    List Nat → List (List D) → List Nat → (i index logNCosets foldRound : Nat) → (nextValue : E) →
    List (Item E D) → Res (Nat × E × List (Item E D))
  | arity :: arities, layer :: layers, depth :: depths, i, index, logNCosets, foldRound, nextValue, advice =>
    let cosetIndex := index >>> arity
    (sub? logNCosets arity).andThen fun logNCosets =>
    (verifyCosetOpening v.S cosetIndex arity depth logNCosets layer advice).andThen fun r =>
    (orPanic (r.1[index % 2 ^ arity]?)).andThen fun value =>
    if nextValue ≠ value then some (.error (.incorrectFold i index))
    else
      (sub? v.params.code.logLen foldRound).andThen fun logLen =>
      (range? v.foldChallenges foldRound arity).andThen fun challenges =>
      (orPanic (Verif.NTT.foldChunk tas logLen cosetIndex (asSlice r.1) challenges)).andThen fun nextValue =>
      v.queryLoop tas arities layers depths (i + 1) cosetIndex logNCosets (foldRound + arity) nextValue r.2
  | _, _, _, _, index, _, _, nextValue, advice => some (.ok (index, nextValue, advice))

/-- The length of the buffer of `create_scratch_buffer`, crates/core/src/protocols/fri/verify.rs:359-369. -/
def Params.scratchLen (p : Params F) : Nat := 2 * 2 ^ (p.foldArities.max?.getD 0)

/-- `verify_query_internal`, crates/core/src/protocols/fri/verify.rs:247-356; `scratch` is what the scratch buffer
holds at the beginning. -/
def Verifier.verifyQuery (v : Verifier F E D) (tas : List (TA F)) (terminateCodeword : List E)
    (layers : List (List D)) (scratch : Nat → E) (index : Nat) (advice : List (Item E D)) :
    Res (List (Item E D)) :=
  match v.params.foldArities with
  | [] => some (.ok advice)
  | firstArity :: arities =>
    match layers, v.params.depths with
    | firstLayer :: layers, firstDepth :: depths =>
      (sub? firstArity v.params.logBatch).andThen fun logCosetSize =>
      (verifyCosetOpening v.S index firstArity firstDepth v.params.indexBits firstLayer advice).andThen fun r =>
      (range? v.foldChallenges 0 logCosetSize).andThen fun challenges =>
      (orPanic (Verif.NTT.foldInterleavedChunk 0 tas v.params.code.logLen v.params.logBatch index (asLanes r.1)
        v.interleaveTensor challenges ⟨v.params.scratchLen, scratch⟩)).andThen fun nextValue =>
      (v.queryLoop tas arities layers depths 0 index v.params.indexBits logCosetSize nextValue r.2).andThen fun s =>
      (orPanic (terminateCodeword[s.1]?)).andThen fun value =>
      if s.2.1 ≠ value then some (.error (.incorrectFold (v.params.nOracles - 1) s.1))
      else some (.ok s.2.2)
    | _, _ => none

/-- Reading the layers, crates/core/src/protocols/fri/verify.rs:119-121. -/
def readLayers : List Nat → List (Item E D) → Res (List (List D) × List (Item E D))
  | [], advice => some (.ok ([], advice))
  | depth :: depths, advice =>
    (readDigests (2 ^ depth) advice).andThen fun r =>
    (readLayers depths r.2).andThen fun s => some (.ok (r.1 :: s.1, s.2))

/-- Verifying the layers, crates/core/src/protocols/fri/verify.rs:122-130. -/
def verifyLayers (S : Scheme E D) : List D → List Nat → List (List D) → Res Unit
  | commitment :: commitments, depth :: depths, layer :: layers =>
    (vcs (Verif.Merkle.verifyLayer S commitment depth layer)).andThen fun _ =>
      verifyLayers S commitments depths layers
  | _, _, _ => some (.ok ())

/-- The loop over the queries, crates/core/src/protocols/fri/verify.rs:135-146: `n` queries, the next being number
`k`. -/
def Verifier.queriesLoop (v : Verifier F E D) (tas : List (TA F)) (terminateCodeword : List E)
    (layers : List (List D)) (queries : Nat → Nat) (scratch : Nat → Nat → E) :
    (n k : Nat) → List (Item E D) → Res (List (Item E D))
  | 0, _, advice => some (.ok advice)
  | n + 1, k, advice =>
    (v.verifyQuery tas terminateCodeword layers (scratch k) (queries k) advice).andThen fun advice =>
      v.queriesLoop tas terminateCodeword layers queries scratch n (k + 1) advice

/-- `FRIVerifier::verify`, crates/core/src/protocols/fri/verify.rs:99-149; the value and what is left of the
decommitment.  What the scratch buffers hold at each use is arbitrary. -/
def Verifier.verify (v : Verifier F E D) (queries : Nat → Nat) (scratch scratch' : Nat → Nat → E)
    (advice : List (Item E D)) : Res (E × List (Item E D)) :=
  (mapErr .ntt (Verif.NTT.withSubspace v.params.code.subspace)).andThen fun tas =>
  (readScalars (2 ^ (v.params.nFinalChallenges + v.params.code.logInvRate)) advice).andThen fun r =>
  (v.verifyLastOracle tas r.1 scratch').andThen fun finalValue =>
  (readLayers v.params.depths r.2).andThen fun s =>
  (verifyLayers v.S (v.codewordCommitment :: v.roundCommitments) v.params.depths s.1).andThen fun _ =>
  (v.queriesLoop tas r.1 s.1 queries scratch v.params.nTestQueries 0 s.2).andThen fun advice =>
  some (.ok (finalValue, advice))

end Verifier

/-! ### The prover -/

section Prover
variable [Field F] [DecidableEq F] [Field E] [Algebra F E]

/-- `log2_strict_usize`, crates/utils/src/checked_arithmetics.rs:58-62. -/
def log2Strict (n : Nat) : Res Nat := if n = 2 ^ Nat.log2 n then some (.ok (Nat.log2 n)) else none

/-- Folding the interleaved values of a chunk, crates/compute/src/cpu/layer.rs:356-367; `len` is the length of
`current_values`. -/
def interleaveLoop : List E → Nat → Slice E → Option (Slice E)
  | [], _, values => some values
  | challenge :: rest, len, values =>
    (forRange (len / 2) (fun i values =>
      (values.get? (i * 2)).bind fun a => (values.get? (i * 2 + 1)).bind fun b =>
        values.set? i (Verif.NTT.line a b challenge)) values).bind fun values =>
    interleaveLoop rest (len / 2) values

/-- `fri_fold` of the CPU compute layer, crates/compute/src/cpu/layer.rs:304-391.  The loop over the fold challenges
(lines 370-386) is, statement by statement, the loop of `fold_chunk`. -/
def cpuFriFold (tas : List (TA F)) (logLen logBatch : Nat) (challenges data : List E) (outLen : Nat) :
    Res (List E) :=
  if data.length ≠ 2 ^ (logLen + logBatch) then some (.error .compute)
  else if challenges.length < logBatch then some (.error .compute)
  else if challenges.length > logBatch + logLen then some (.error .compute)
  else if outLen ≠ 2 ^ (logLen - (challenges.length - logBatch)) then some (.error .compute)
  else
    orPanic ((List.range (min (data.length / 2 ^ challenges.length) outLen)).mapM fun chunkIndex =>
      (interleaveLoop (challenges.take logBatch) (2 ^ challenges.length)
        (asSlice (Verif.Merkle.chunk data (2 ^ challenges.length) chunkIndex))).bind fun values =>
      Verif.NTT.foldChunkLoop tas chunkIndex logLen values (challenges.drop logBatch))

/-- `fri_fold` of the packed compute layer, crates/fast_compute/src/layer.rs:468-513, with packed elements of `2^w`
lanes and outputs that can be seen as scalars. -/
def fastFriFold (w : Nat) (scratch : Nat → Nat → E) (tas : List (TA F)) (logLen logBatch : Nat)
    (challenges data : List E) (outLen : Nat) : Res (List E) :=
  orPanic ((Verif.NTT.foldInterleavedAllocated w tas
    ⟨data.length / 2 ^ w, fun e l => (data[e * 2 ^ w + l]?).getD 0⟩ challenges logLen logBatch
    ⟨outLen, fun _ => 0⟩ scratch).map fun out => (List.range out.size).map out.val)

/-- What `commit_interleaved_with` returns, crates/core/src/protocols/fri/prove.rs:36-41. -/
structure CommitOutput (E D : Type*) where
  commitment : D
  committed : Tree D
  codeword : List E

/-- Element `i` of a slice of elements of the extension field: `2^k` consecutive scalars, the coordinates over a basis
(the layout that `cast_bases` assumes, crates/field/src/packed_extension.rs:38-54). -/
def element (w k : Nat) (basis : Nat → E) (d : Slice (Lanes F)) (i : Nat) : E :=
  ∑ c ∈ Finset.range (2 ^ k), Verif.NTT.flat w d (i * 2 ^ k + c) • basis c

/-- `commit_interleaved_with`, crates/core/src/protocols/fri/prove.rs:119-193, from the buffer with the message
written to it on.  The buffer is seen through `cast_bases_mut`: packed elements of `2^w` scalars of `F`, `2^k` of them
for each element of `E`.  Both ways to iterate over the chunks (lines 169-187) give the consecutive chunks of
`2^coset_log_len` elements, and `commit_iterated` (crates/core/src/merkle_tree/prover.rs:82-106) builds the tree over
their hashes, as `commit` does. -/
def commitInterleaved (S : Scheme E D) (junk : Nat → D) (logDomain w k : Nat) (basis : Nat → E) (tas : List (TA F))
    (p : Params F) (buffer : Slice (Lanes F)) : Res (CommitOutput E D) :=
  let logElems := p.code.logDimension + p.logBatch
  if logElems + k < w then none
  else
    (mapErr .code (Verif.Code.encodeExtBatch logDomain w tas p.code buffer p.logBatch k)).andThen fun encoded =>
    let codeword := (List.range (2 ^ (logElems + p.code.logInvRate))).map (element w k basis encoded)
    let cosetLogLen := p.foldArities.head?.getD logElems
    (vcs (Verif.Merkle.commit S junk codeword (2 ^ cosetLogLen))).andThen fun c =>
    some (.ok ⟨c.1.root, c.2, codeword⟩)

/-- `FRIFolder`, crates/core/src/protocols/fri/prove.rs:217-240, without the constant fields. -/
structure Folder (E D : Type*) where
  roundCommitted : List (List E × Tree D)
  currRound : Nat
  nextCommitRound : Option Nat
  unprocessed : List E

/-- `FRIFolder::new`, crates/core/src/protocols/fri/prove.rs:254-284. -/
def Folder.new (p : Params F) (codeword : List E) : Res (Folder E D) :=
  if codeword.length < 2 ^ p.logLen then some (.error .invalidArgs)
  else some (.ok ⟨[], 0, p.foldArities.head?, []⟩)

/-- `fri_fold` of a compute layer: `log_len`, `log_batch_size`, challenges, input and the length of the output. -/
abbrev FriFold (E : Type*) := Nat → Nat → List E → List E → Nat → Res (List E)

/-- Folding the last committed codeword, crates/core/src/protocols/fri/prove.rs:344-394. -/
def Folder.fold (fold : FriFold E) (p : Params F) (codeword : List E) (f : Folder E D) (unprocessed : List E) :
    Res (List E) :=
  match f.roundCommitted.getLast? with
  | some prev =>
    (log2Strict prev.1.length).andThen fun logLen =>
    fold logLen 0 unprocessed prev.1 (prev.1.length / 2 ^ unprocessed.length)
  | none =>
    (sub? unprocessed.length p.logBatch).andThen fun n =>
    (sub? p.code.logLen n).andThen fun logOut =>
    fold p.code.logLen p.logBatch unprocessed codeword (2 ^ logOut)

/-- `execute_fold_round`, crates/core/src/protocols/fri/prove.rs:314-435.  `junk n` is the uninitialised memory when
oracle `n` is committed. -/
def Folder.executeFoldRound (fold : FriFold E) (S : Scheme E D) (junk : Nat → Nat → D) (p : Params F)
    (codeword : List E) (f : Folder E D) (challenge : E) : Res (Folder E D × Option D) :=
  let unprocessed := f.unprocessed ++ [challenge]
  let currRound := f.currRound + 1
  if f.nextCommitRound ≠ some currRound then some (.ok (⟨f.roundCommitted, currRound, f.nextCommitRound, unprocessed⟩, none))
  else
    (f.fold fold p codeword unprocessed).andThen fun folded =>
    let cosetSize := (p.foldArities[f.roundCommitted.length + 1]?.map (2 ^ ·)).getD (2 ^ p.nFinalChallenges)
    (vcs (Verif.Merkle.commit S (junk f.roundCommitted.length) folded cosetSize)).andThen fun c =>
    let roundCommitted := f.roundCommitted ++ [(folded, c.2)]
    let next := f.nextCommitRound.bind fun r => p.foldArities[roundCommitted.length]?.map (r + ·)
    some (.ok (⟨roundCommitted, currRound, next, []⟩, some c.1.root))

/-- The fold rounds as the prover of the interactive protocol runs them, one challenge after the other, sending each
commitment, crates/core/src/piop/prove.rs:374-392. -/
def Folder.foldRounds (fold : FriFold E) (S : Scheme E D) (junk : Nat → Nat → D) (p : Params F) (codeword : List E) :
    Folder E D → List E → Res (Folder E D × List D)
  | f, [] => some (.ok (f, []))
  | f, r :: rs =>
    (f.executeFoldRound fold S junk p codeword r).andThen fun s =>
    (Folder.foldRounds fold S junk p codeword s.1 rs).andThen fun t =>
    some (.ok (t.1, s.2.toList ++ t.2))

/-- `prove_coset_opening`, crates/core/src/protocols/fri/prove.rs:609-637: what is written. -/
def proveCosetOpening (codeword : List E) (committed : Tree D) (cosetIndex logCosetSize optimalLayerDepth : Nat) :
    Res (List (Item E D)) :=
  (vcs (Verif.Merkle.proveOpening committed optimalLayerDepth cosetIndex [])).andThen fun branch =>
  some (.ok (((codeword.drop (cosetIndex <<< logCosetSize)).take (2 ^ logCosetSize)).map .scalar ++
    branch.map .digest))

/-- The loop of `prove_query`, crates/core/src/protocols/fri/prove.rs:570-584. -/
def proveQueryLoop : List (List E × Tree D) → List Nat → List Nat → Nat → Res (List (Item E D))
  | (codeword, committed) :: rounds, arity :: arities, depth :: depths, index =>
    (proveCosetOpening codeword committed (index >>> arity) arity depth).andThen fun a =>
    (proveQueryLoop rounds arities depths (index >>> arity)).andThen fun b =>
    some (.ok (a ++ b))
  | _, _, _, _ => some (.ok [])

/-- `prove_query`, crates/core/src/protocols/fri/prove.rs:533-587. -/
def proveQuery (p : Params F) (codeword : List E) (committed : Tree D) (rounds : List (List E × Tree D))
    (index : Nat) : Res (List (Item E D)) :=
  match p.foldArities, p.depths with
  | firstArity :: arities, firstDepth :: depths =>
    (proveCosetOpening codeword committed index firstArity firstDepth).andThen fun a =>
    (proveQueryLoop rounds arities depths index).andThen fun b =>
    some (.ok (a ++ b))
  | _, _ => some (.ok [])

/-- `vcs_optimal_layers`, crates/core/src/protocols/fri/prove.rs:589-603, and writing them (490-493). -/
def proveLayers : List (Tree D) → List Nat → Res (List (Item E D))
  | t :: ts, depth :: depths =>
    (vcs (t.layer depth)).andThen fun layer =>
    (proveLayers ts depths).andThen fun rest =>
    some (.ok (layer.map .digest ++ rest))
  | _, _ => some (.ok [])

/-- The loop over the queries, crates/core/src/protocols/fri/prove.rs:497-500. -/
def proveQueries (p : Params F) (codeword : List E) (committed : Tree D) (rounds : List (List E × Tree D))
    (queries : Nat → Nat) : (n k : Nat) → Res (List (Item E D))
  | 0, _ => some (.ok [])
  | n + 1, k =>
    (proveQuery p codeword committed rounds (queries k)).andThen fun a =>
    (proveQueries p codeword committed rounds queries n (k + 1)).andThen fun b =>
    some (.ok (a ++ b))

/-- `finish_proof`, crates/core/src/protocols/fri/prove.rs:480-503, with `finalize` (443-478): the decommitment. -/
def Folder.finishProof (p : Params F) (codeword : List E) (committed : Tree D) (queries : Nat → Nat)
    (f : Folder E D) : Res (List (Item E D)) :=
  if f.currRound ≠ p.nFoldRounds then some (.error .earlyProverFinish)
  else
    let terminateCodeword := (f.roundCommitted.getLast?.map (·.1)).getD codeword
    (proveLayers (committed :: f.roundCommitted.map (·.2)) p.depths).andThen fun layers =>
    (proveQueries p codeword committed f.roundCommitted queries p.nTestQueries 0).andThen fun openings =>
    some (.ok (terminateCodeword.map .scalar ++ layers ++ openings))

end Prover

end Verif.Fri
