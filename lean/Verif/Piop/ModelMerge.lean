import Verif.Piop.ModelPiop
import Verif.Compute.ModelMemory
import Verif.Util.Loop
import Verif.Utils.ModelSorting

/-! Model of the writing of the committed message: `commit` and `merge_multilins`, core/src/piop/prove.rs:49-166.

Slices of packed elements are seen as the flat sequence of their scalars (`Slice`), `2 ^ w` of them in every packed element.
`none` is a panic or an access outside of the collection, which the code makes without a check (prove.rs:63-67). -/

namespace Verif.Piop

open Verif

variable {F : Type}

/-- `usize::reverse_bits`, on 64 bits. -/
def reverseBits64 (x : Nat) : Nat := (List.range 64).foldl (fun acc i => 2 * acc + x / 2 ^ i % 2) 0

/-- `reverse_bits`, core/src/piop/prove.rs:48-52.  `wrapping_shr` takes the shift modulo 64. -/
def reverseBits (x logLen : Nat) : Nat := reverseBits64 x / 2 ^ ((64 - logLen) % 64)

/-- The body of the loop of `reverse_index_bits`, core/src/piop/prove.rs:58-68, on the collection that starts at scalar `off`
of `b`. -/
def swapStep (off logLen i : Nat) (b : Slice F) : Option (Slice F) :=
  let j := reverseBits i logLen
  if i < j then
    (b.get? (off + i)).bind fun tmp => (b.get? (off + j)).bind fun y =>
      (b.set? (off + i) y).bind fun b => b.set? (off + j) tmp
  else some b

/-- `reverse_index_bits`, core/src/piop/prove.rs:56-70, on `len` scalars from `off`; `checked_log_2`,
utils/src/checked_arithmetics.rs:32-34, panics if `len` is not a power of two. -/
def reverseIndexBits (off len : Nat) (b : Slice F) : Option (Slice F) :=
  (Compute.strictLog2 len).bind fun logLen => forRange len (swapStep off logLen) b

/-- `MultilinearExtension` over packed elements, math/src/multilinear_extension.rs: the number of variables and the
scalars of its packed evaluations. -/
structure PackedMle (F : Type) where
  nVars : Nat
  evals : Slice F

/-- The body of the first loop of `merge_multilins` and the work that it queues, core/src/piop/prove.rs:96-105: the chunk is
taken from the buffer, which panics if that is too short, and filled.  The state is the number of scalars taken so far and the
buffer.  Simplification: the chunks are disjoint, so that they are filled one after the other here and in parallel there. -/
def mergeFull (m : PackedMle F) (s : Nat × Slice F) : Option (Nat × Slice F) :=
  if s.1 + m.evals.size ≤ s.2.size then
    (forRange m.evals.size (fun i b => b.set? (s.1 + i) (m.evals.val i)) s.2).bind fun b =>
      (reverseIndexBits s.1 m.evals.size b).bind fun b => some (s.1 + m.evals.size, b)
  else none

/-- The body of the second loop of `merge_multilins`, core/src/piop/prove.rs:111-121: the first packed element must be there,
the range must be in the buffer, and lane `i` must be one of the `2 ^ w` lanes. -/
def mergeSmall (w : Nat) (m : PackedMle F) (s : Nat × Slice F) : Option (Nat × Slice F) :=
  if 2 ^ w ≤ m.evals.size then
    let len := 2 ^ m.nVars
    if s.1 + len ≤ s.2.size then
      (forRange len (fun i b => if i < 2 ^ w then b.set? (s.1 + i) (m.evals.val i) else none) s.2).bind fun b =>
        (reverseIndexBits s.1 len b).bind fun b => some (s.1 + len, b)
    else none
  else none

/-- A loop over the elements of a list, where `none` is a panic. -/
def forEach {A S : Type} (body : A → S → Option S) : List A → S → Option S
  | [], s => some s
  | a :: as, s => (body a s).bind (forEach body as)

/-- `merge_multilins`, core/src/piop/prove.rs:79-122; `peeking_take_while` leaves the first element that fails the condition to
the second loop. -/
def mergeMultilins (w : Nat) (multilins : List (PackedMle F)) (buffer : Slice F) : Option (Slice F) :=
  let large := fun m : PackedMle F => decide (w ≤ m.nVars)
  (forEach mergeFull (multilins.reverse.takeWhile large) (0, buffer)).bind fun s =>
    (forEach (mergeSmall w) (multilins.reverse.dropWhile large) s).map Prod.snd

/-- The errors of `commit`. -/
inductive CommitError where
  | packedEvaluationsMissing (id : Nat)
  | powerOfTwoLengthRequired
  | incorrectNumberOfVariables
  | notSorted
deriving DecidableEq

/-- What `commit` uses of a `MultilinearPoly`: the number of variables, the logarithm of the extension degree, the packed
evaluations if it has them, and the element that `padded_packed_eval`, core/src/piop/prove.rs:487-508, makes of it. -/
structure Multilin (F : Type) where
  nVars : Nat
  kappa : Nat
  packedEvals : Option (Slice F)
  padded : F

/-- `MultilinearExtension::new`, math/src/multilinear_extension.rs: the number of packed evaluations must be a power of two,
and that of the variables. -/
def PackedMle.new (w n : Nat) (evals : Slice F) : Except CommitError (PackedMle F) :=
  match Compute.strictLog2 (evals.size / 2 ^ w) with
  | none => .error .powerOfTwoLengthRequired
  | some l =>
    if n < w then
      if l = 0 then .ok ⟨n, evals⟩ else .error .incorrectNumberOfVariables
    else if w + l = n then .ok ⟨n, evals⟩ else .error .incorrectNumberOfVariables

/-- `packed_committed`, core/src/piop/prove.rs:461-485; `set_single` leaves the other lanes zero. -/
def packedCommitted [Zero F] (w id : Nat) (m : Multilin F) : Except CommitError (PackedMle F) :=
  if m.nVars < m.kappa then
    PackedMle.new w 0 ⟨2 ^ w, fun i => if i = 0 then m.padded else 0⟩
  else
    match m.packedEvals with
    | none => .error (.packedEvaluationsMissing id)
    | some e => PackedMle.new w (m.nVars - m.kappa) e

/-- The conversion of all multilinears, with their indices, up to the first error: core/src/piop/prove.rs:151-157. -/
def packedCommitteds [Zero F] (w : Nat) : Nat → List (Multilin F) → Except CommitError (List (PackedMle F))
  | _, [] => .ok []
  | id, m :: ms =>
    match packedCommitted w id m with
    | .error e => .error e
    | .ok p =>
      match packedCommitteds w (id + 1) ms with
      | .error e => .error e
      | .ok ps => .ok (p :: ps)

/-- `commit`, core/src/piop/prove.rs:135-166, up to the message that `commit_interleaved_with`,
core/src/protocols/fri/prove.rs:120-153, goes on to encode; `logElems` is the logarithm of the length of the message.  The
encoding and the Merkle tree are modelled in Fri/ModelFri. -/
def commitMessage [Zero F] (w logElems : Nat) (multilins : List (Multilin F)) : Option (Except CommitError (Slice F)) :=
  match packedCommitteds w 0 multilins with
  | .error e => some (.error e)
  | .ok ps =>
    if Sorting.isSortedAscending (ps.map PackedMle.nVars) then
      if logElems < w then none
      else (mergeMultilins w ps ⟨2 ^ logElems, fun _ => 0⟩).map .ok
    else some (.error .notSorted)

end Verif.Piop
