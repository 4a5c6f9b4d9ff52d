import Verif.NTT.ModelNtt

/-! Model of crates/core/src/reed_solomon/reed_solomon.rs. -/

namespace Verif.Code

open Verif.NTT (TA Lanes Shape forward)
open Verif.Subspace (BinarySubspace)

variable {F : Type*} [Field F] [DecidableEq F]

/-- The errors of crates/core/src/reed_solomon/error.rs:4-15 that are returned. -/
inductive Error where
  | subspaceDimensionMismatch
  | encoderSubspaceMismatch
  | incorrectBufferLength (expected actual : Nat)
  | ntt (e : Verif.NTT.Error)
  deriving DecidableEq

/-- `ReedSolomonCode`, crates/core/src/reed_solomon/reed_solomon.rs:25-31. -/
structure ReedSolomonCode (F : Type*) where
  subspace : BinarySubspace F
  logDimension : Nat
  logInvRate : Nat

/-- `with_subspace`, crates/core/src/reed_solomon/reed_solomon.rs:51-64. -/
def ReedSolomonCode.withSubspace (s : BinarySubspace F) (logDimension logInvRate : Nat) :
    Except Error (ReedSolomonCode F) :=
  if s.basis.length ≠ logDimension + logInvRate then .error .subspaceDimensionMismatch
  else .ok ⟨s, logDimension, logInvRate⟩

/-- `with_ntt_subspace`, crates/core/src/reed_solomon/reed_solomon.rs:39-49; the NTT is given by its twiddle
accesses (one per dimension of its domain), `none` is the panic of `subspace`. -/
def ReedSolomonCode.withNttSubspace (tas : List (TA F)) (logDimension logInvRate : Nat) :
    Option (Except Error (ReedSolomonCode F)) :=
  if logDimension + logInvRate > tas.length then some (.error .subspaceDimensionMismatch)
  else (Verif.NTT.subspace tas (logDimension + logInvRate)).map fun s =>
    ReedSolomonCode.withSubspace s logDimension logInvRate

/-- `dim`, crates/core/src/reed_solomon/reed_solomon.rs:67-69, 86-88. -/
def ReedSolomonCode.dim (c : ReedSolomonCode F) : Nat := 2 ^ c.logDimension

/-- `log_len`, crates/core/src/reed_solomon/reed_solomon.rs:75-77. -/
def ReedSolomonCode.logLen (c : ReedSolomonCode F) : Nat := c.logDimension + c.logInvRate

/-- Repeating a short message within the first packed element,
crates/core/src/reed_solomon/reed_solomon.rs:134-140: `k` is `log_dim() + log_batch_size`.  The lanes of
`from_scalars(values.take(2^k).cycle())` are the first `2^k` lanes, repeated (`k < w` where it is used). -/
def repeatLanes (k : Nat) (d : Slice (Lanes F)) : Slice (Lanes F) :=
  ⟨d.size, fun e => if e = 0 then fun l => d.val 0 (l % 2 ^ k) else d.val e⟩

/-- Copying the first chunk of `c` packed elements to the others,
crates/core/src/reed_solomon/reed_solomon.rs:143-148; `none` is the panic of `copy_from_slice` on an incomplete
chunk (or of `expect`).  The loop over the chunks is written as its result. -/
def copyChunks (c : Nat) (d : Slice (Lanes F)) : Option (Slice (Lanes F)) :=
  if d.size = 0 ∨ d.size % c ≠ 0 then none else some ⟨d.size, fun e => d.val (e % c)⟩

/-- `encode_batch_inplace`, crates/core/src/reed_solomon/reed_solomon.rs:104-157, with the single-threaded NTT
(the multithreaded one computes the same, C14). -/
def encodeBatch (logDomain w : Nat) (tas : List (TA F)) (c : ReedSolomonCode F)
    (d : Slice (Lanes F)) (logBatch : Nat) : Option (Except Error (Slice (Lanes F))) :=
  (Verif.NTT.subspace tas c.logLen).bind fun s =>
    if s ≠ c.subspace then some (.error .encoderSubspaceMismatch)
    else
      let expected := 2 ^ (c.logLen + logBatch - w)
      if d.size ≠ expected then some (.error (.incorrectBufferLength expected d.size))
      else
        let d := if c.dim + logBatch < w then repeatLanes (c.logDimension + logBatch) d else d
        (copyChunks (2 ^ (c.logDimension + logBatch - w)) d).bind fun d =>
          (forward logDomain w tas d ⟨logBatch, c.logLen, 0⟩ 0 0 c.logInvRate).map fun r =>
            match r with
            | .ok d => .ok d
            | .error e => .error (.ntt e)

/-- `encode_ext_batch_inplace`, crates/core/src/reed_solomon/reed_solomon.rs:172-183, on the buffer seen through
`cast_bases_mut`: each element of the extension of degree `2^logDegree` is that many consecutive scalars. -/
def encodeExtBatch (logDomain w : Nat) (tas : List (TA F)) (c : ReedSolomonCode F)
    (d : Slice (Lanes F)) (logBatch logDegree : Nat) : Option (Except Error (Slice (Lanes F))) :=
  encodeBatch logDomain w tas c d (logBatch + logDegree)

end Verif.Code
