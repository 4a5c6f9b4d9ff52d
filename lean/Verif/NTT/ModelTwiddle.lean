import Verif.Math.ModelSubspace
import Verif.Util.Loop

/-! Model of crates/ntt/src/twiddle.rs. -/

namespace Verif.NTT

open Verif.Subspace (BinarySubspace)

/-- The errors of crates/ntt/src/error.rs:5-29 (payloads left out). -/
inductive Error where
  | domainTooSmall
  | powerOfTwoLengthRequired
  | batchTooLarge
  | cosetIndexOutOfBounds
  | skipRoundsTooLarge
  | domainMustIncludeOne
  deriving DecidableEq

variable {F : Type*} [Field F] [DecidableEq F]

/-- `subset_sum`, crates/ntt/src/twiddle.rs:163-168; `none` is the out-of-bounds panic of `values[b]`. -/
def subsetSum (values : List F) (nBits index : Nat) : Option F :=
  sumRange nBits fun b => if (index >>> b) &&& 1 ≠ 0 then values[b]? else some 0

/-- The two implementations of `TwiddleAccess`: `OnTheFlyTwiddleAccess` (crates/ntt/src/twiddle.rs:93-100)
and `PrecomputedTwiddleAccess` (174-186).  The first field is `log_n`. -/
inductive TA (F : Type*) where
  | onTheFly (logN : Nat) (offset : F) (sEvals : List F)
  | precomputed (logN : Nat) (sEvals : List F)

/-- `TwiddleAccess::log_n`, crates/ntt/src/twiddle.rs:127-129, 201-203. -/
def TA.logN {F : Type*} : TA F → Nat
  | .onTheFly n _ _ => n
  | .precomputed n _ => n

/-- `TwiddleAccess::get`, crates/ntt/src/twiddle.rs:141-143 and 216-218. -/
def TA.get : TA F → Nat → Option F
  | .onTheFly n offset s, i => (subsetSum s n i).map (offset + ·)
  | .precomputed _ s, i => s[i]?

/-- `TwiddleAccess::get_pair`, crates/ntt/src/twiddle.rs:146-149 and 221-223. -/
def TA.getPair : TA F → Nat → Nat → Option (F × F)
  | .onTheFly _ offset s, bits, i =>
    (subsetSum s bits i).bind fun t => s[bits]?.map fun e => (offset + t, offset + t + e)
  | .precomputed _ s, bits, i =>
    s[i]?.bind fun a => s[(1 <<< bits) ||| i]?.map fun b => (a, b)

/-- `TwiddleAccess::coset`, crates/ntt/src/twiddle.rs:152-160 and 226-233; `none` is the panic of the
subtraction or of a slice index. -/
def TA.coset : TA F → Nat → Nat → Option (TA F)
  | .onTheFly n offset s, cosetBits, coset =>
    if cosetBits > n then none
    else if n - cosetBits > s.length then none
    else (subsetSum (s.drop (n - cosetBits)) cosetBits coset).map fun o =>
      .onTheFly (n - cosetBits) (offset + o) (s.take (n - cosetBits))
  | .precomputed n s, cosetBits, coset =>
    if cosetBits > n then none
    else if (coset + 1) <<< (n - cosetBits) > s.length then none
    else some (.precomputed (n - cosetBits)
      ((s.take ((coset + 1) <<< (n - cosetBits))).drop (coset <<< (n - cosetBits))))

/-- `TwiddleAccess::affine_subspace`, crates/ntt/src/twiddle.rs:131-138 and 205-213. -/
def TA.affineSubspace : TA F → Option (BinarySubspace F × F)
  | .onTheFly _ offset s => some (⟨1 :: s⟩, offset)
  | .precomputed n s => s[0]?.bind fun shift =>
      ((List.range n).mapM fun i => s[1 <<< i]?.map (· - shift)).map fun b => (⟨1 :: b⟩, shift)

/-- `subspace_map`, crates/ntt/src/twiddle.rs:311-313. -/
def subspaceMap (elem constant : F) : F := elem ^ 2 + constant * elem

/-- The loop of `precompute_subspace_evals`, crates/ntt/src/twiddle.rs:270-290: from the last normalization
constant and the last evaluations, the `n` further ones; `none` is the panic of `s_prev_evals[0]`. -/
def evalLayers : Nat → F → List F → Option (List (F × List F))
  | 0, _, _ => some []
  | n + 1, norm, s =>
    match s with
    | [] => none
    | e :: rest =>
      let norm' := subspaceMap e norm
      let s' := rest.map (subspaceMap · norm)
      (evalLayers n norm' s').map ((norm', s') :: ·)

/-- `precompute_subspace_evals`, crates/ntt/src/twiddle.rs:244-306; the outer `none` is a panic (a
normalization constant without inverse). -/
def precomputeSubspaceEvals (s : BinarySubspace F) : Option (Except Error (List (List F))) :=
  match s.basis with
  | [] => some (.error .domainTooSmall)
  | b0 :: rest =>
    if b0 ≠ 1 then some (.error .domainMustIncludeOne)
    else
      (evalLayers rest.length 1 rest).bind fun layers =>
        (((1, rest) :: layers).mapM fun p =>
          if p.1 = 0 then none else some (p.2.map (· * p.1⁻¹))).map .ok

/-- `OnTheFlyTwiddleAccess::generate`, crates/ntt/src/twiddle.rs:104-119. -/
def generateOnTheFly (s : BinarySubspace F) : Option (Except Error (List (TA F))) :=
  (precomputeSubspaceEvals s).map fun r => r.map fun evals =>
    evals.zipIdx.map fun p => .onTheFly (s.basis.length - 1 - p.2) 0 p.1

/-- The expansion loop of `expand_subspace_evals`, crates/ntt/src/twiddle.rs:338-344: each evaluation
appends the table shifted by it. -/
def expandEvals (evals : List F) : List F :=
  evals.foldl (fun expanded eval => expanded ++ expanded.map (· + eval)) [0]

/-- `expand_subspace_evals`, crates/ntt/src/twiddle.rs:324-353 (it takes on-the-fly accesses). -/
def expandSubspaceEvals (tas : List (TA F)) : List (TA F) :=
  tas.zipIdx.map fun p =>
    match p.1 with
    | .onTheFly _ _ s => .precomputed (tas.length - 1 - p.2) (expandEvals s)
    | .precomputed n s => .precomputed n s

/-- `PrecomputedTwiddleAccess::generate`, crates/ntt/src/twiddle.rs:189-192. -/
def generatePrecomputed (s : BinarySubspace F) : Option (Except Error (List (TA F))) :=
  (generateOnTheFly s).map fun r => r.map expandSubspaceEvals

end Verif.NTT
