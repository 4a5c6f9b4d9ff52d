import Verif.Oracle.ModelOracle

/-! Model of crates/core/src/piop/commit.rs and of `CommitMeta` and `make_sumcheck_claim_descs`, piop/verify.rs.

`usize` arithmetic is exact (a batch has fewer than `2^64` elements).  `none` is a panic. -/

set_option linter.dupNamespace false

namespace Verif.Piop

open Verif.Oracle (OracleSet Oracle Variant)

/-- `ResizeableIndex::get_mut` and the update of the entry, piop/util.rs:14-19. -/
def incrementAt (l : List Nat) (i : Nat) : List Nat :=
  let l := if i ≥ l.length then l ++ List.replicate (i + 1 - l.length) 0 else l
  l.modify i (· + 1)

/-- `ResizeableIndex::get_mut`, read, piop/util.rs:14-19: the default past the end. -/
def readAt (l : List Nat) (i : Nat) : Nat := match l[i]? with
  | some x => x
  | none => 0

/-- `CommitMeta`, piop/verify.rs:35-45. -/
structure CommitMeta where
  nMultilinsByVars : List Nat
  offsetsByVars : List Nat
  totalVars : Nat
  totalMultilins : Nat

/-- The fold of `CommitMeta::new`, piop/verify.rs:55-62, from `n_vars` on. -/
def metaFold : Nat → List Nat → List Nat × Nat × Nat → List Nat × Nat × Nat
  | _, [], acc => acc
  | nVars, count :: l, (offsets, multilins, elems) =>
    metaFold (nVars + 1) l (offsets ++ [multilins], multilins + count, elems + count * 2 ^ nVars)

/-- `CommitMeta::new`, piop/verify.rs:54-70; `next_power_of_two().ilog2()` is the number of bits of `n - 1`. -/
def CommitMeta.new (counts : List Nat) : CommitMeta :=
  let r := metaFold 0 counts ([], 0, 0)
  ⟨counts, r.1, Nat.size (r.2.2 - 1), r.2.1⟩

/-- `CommitMeta::with_vars`, piop/verify.rs:74-80. -/
def CommitMeta.withVars (nVarss : List Nat) : CommitMeta := CommitMeta.new (nVarss.foldl incrementAt [])

/-- `max_n_vars`, piop/verify.rs:83-85. -/
def CommitMeta.maxNVars (m : CommitMeta) : Nat := m.nMultilinsByVars.length - 1

/-- `range_by_vars`, piop/verify.rs:94-97: the indexing panics. -/
def CommitMeta.rangeByVars (m : CommitMeta) (nVars : Nat) : Option (Nat × Nat) :=
  m.offsetsByVars[nVars]?.bind fun start => m.nMultilinsByVars[nVars]?.map fun n => (start, start + n)

variable {F : Type}

/-- `MultilinearOracleSet::iter`, oracle/multilinear.rs:385-393. -/
def oracleIter (os : OracleSet F) : List (Nat × Oracle F) :=
  (List.range os.oracles.length).filterMap fun i => (os.get i).map fun o => (i, o)

/-- `n_packed_vars_for_committed_oracle`, piop/commit.rs:110-114; `level` is `F::TOWER_LEVEL`. -/
def nPackedVars (level : Nat) (o : Oracle F) : Nat := o.nVars + o.towerLevel - level

/-- `matches!(oracle.variant, Committed)`, piop/commit.rs:45. -/
def isCommitted (o : Oracle F) : Bool := match o.variant with
  | .committed => true
  | _ => false

/-- A `SparseIndex`, crates/utils/src/sparse_index.rs:5-40: what `get` gives. -/
abbrev SparseIndex (A : Type) := Nat → Option A

/-- `SparseIndex::set`, crates/utils/src/sparse_index.rs:35-40. -/
def SparseIndex.set {A : Type} (s : SparseIndex A) (id : Nat) (a : A) : SparseIndex A :=
  fun i => if i = id then some a else s i

/-- One step of the first pass, piop/commit.rs:44-58. -/
def firstStep (level : Nat) (st : SparseIndex (Nat × Nat) × List Nat) (p : Nat × Oracle F) :
    SparseIndex (Nat × Nat) × List Nat :=
  if isCommitted p.2 then
    let n := nPackedVars level p.2
    (SparseIndex.set st.1 p.1 (n, readAt st.2 n), incrementAt st.2 n)
  else st

/-- The second pass, piop/commit.rs:63-73. -/
def secondPass (m : CommitMeta) (first : SparseIndex (Nat × Nat)) : List (Nat × Oracle F) → SparseIndex Nat →
    Option (SparseIndex Nat)
  | [], index => some index
  | p :: l, index =>
    match first p.1 with
    | some (n, i) => (m.rangeByVars n).bind fun r => secondPass m first l (index.set p.1 (r.1 + i))
    | none => secondPass m first l index

/-- `make_oracle_commit_meta`, piop/commit.rs:20-76. -/
def makeOracleCommitMeta (level : Nat) (os : OracleSet F) : Option (CommitMeta × SparseIndex Nat) :=
  let st := (oracleIter os).foldl (firstStep level) (fun _ => none, [])
  let m := CommitMeta.new st.2
  (secondPass m st.1 (oracleIter os) fun _ => none).map fun index => (m, index)

/-- The loop of `collect_committed_witnesses`, piop/commit.rs:99-103: the inner `none` is the error of a missing witness. -/
def collectLoop {W : Type} (index : SparseIndex Nat) (witness : Nat → Option W) :
    List (Nat × Oracle F) → List (Option W) → Option (Option (List (Option W)))
  | [], ws => some (some ws)
  | p :: l, ws =>
    match index p.1 with
    | some i => match witness p.1 with
      | some w => if i < ws.length then collectLoop index witness l (ws.set i (some w)) else none
      | none => some none
    | none => collectLoop index witness l ws

/-- `collect_committed_witnesses`, piop/commit.rs:88-108; `witness` is `get_multilin_poly`. -/
def collectCommittedWitnesses {W : Type} (m : CommitMeta) (index : SparseIndex Nat) (os : OracleSet F)
    (witness : Nat → Option W) : Option (Option (List W)) :=
  match collectLoop index witness (oracleIter os) (List.replicate m.totalMultilins none) with
  | none => none
  | some none => some none
  | some (some ws) => (ws.mapM fun w => w).map some

/-! The sumcheck claims. -/

/-- `Error`, piop/error.rs, the variants returned here. -/
inductive PiopError where
  | transparentsNotSorted
  | sumcheckClaimVariablesMismatch (index : Nat)
  deriving DecidableEq

/-- `PIOPSumcheckClaim`, piop/verify.rs:105-115. -/
structure PiopClaim (F : Type) where
  nVars : Nat
  committed : Nat
  transparent : Nat
  sum : F

/-- `SumcheckClaimDesc`, piop/verify.rs:176-181; a range is its two ends, a composite sum the two indices of its
`IndexComposition` and the claimed sum. -/
structure ClaimDesc (F : Type) where
  committed : Nat × Nat
  transparent : Nat × Nat
  sums : List ((Nat × Nat) × F)

/-- The first loop of `make_sumcheck_claim_descs`, piop/verify.rs:198-216: the descriptions of the sizes that have an entry
in `counts` (there is always at least one description). -/
def committedDescs : Nat → List Nat → List (ClaimDesc F)
  | _, [] => []
  | offset, n :: l => ⟨(offset, offset + n), (0, 0), []⟩ :: committedDescs (offset + n) l

/-- The initial descriptions, piop/verify.rs:198-216. -/
def initialDescs (m : CommitMeta) : List (ClaimDesc F) :=
  match m.nMultilinsByVars with
  | [] => [⟨(0, 0), (0, 0), []⟩]
  | l => committedDescs 0 l

/-- The second loop, piop/verify.rs:220-236. -/
def transparentLoop : List Nat → Nat → List (ClaimDesc F) → Option (Except PiopError (List (ClaimDesc F)))
  | [], _, descs => some (.ok descs)
  | t :: ts, cur, descs =>
    if t < cur then some (.error .transparentsNotSorted)
    else if t > cur then
      descs[cur]?.bind fun d => descs[t]?.bind fun e =>
        transparentLoop ts t (descs.set t { e with transparent := (d.transparent.2, d.transparent.2 + 1) })
    else
      descs[cur]?.bind fun d =>
        transparentLoop ts cur (descs.set cur { d with transparent := (d.transparent.1, d.transparent.2 + 1) })

/-- The third loop, piop/verify.rs:241-269; the `expect` never fails, as the comment says (C53). -/
def claimLoop : Nat → List (PiopClaim F) → List (ClaimDesc F) → Option (Except PiopError (List (ClaimDesc F)))
  | _, [], descs => some (.ok descs)
  | i, c :: cs, descs =>
    descs[c.nVars]?.bind fun d =>
      if ¬ (d.committed.1 ≤ c.committed ∧ c.committed < d.committed.2) then
        some (.error (.sumcheckClaimVariablesMismatch i))
      else if ¬ (d.transparent.1 ≤ c.transparent ∧ c.transparent < d.transparent.2) then
        some (.error (.sumcheckClaimVariablesMismatch i))
      else
        let nCommitted := d.committed.2 - d.committed.1
        let nTransparent := d.transparent.2 - d.transparent.1
        let a := c.committed - d.committed.1
        let b := nCommitted + c.transparent - d.transparent.1
        if a < nCommitted + nTransparent ∧ b < nCommitted + nTransparent then
          claimLoop (i + 1) cs (descs.set c.nVars { d with sums := d.sums ++ [((a, b), c.sum)] })
        else none

/-- `make_sumcheck_claim_descs`, piop/verify.rs:192-271. -/
def makeSumcheckClaimDescs (m : CommitMeta) (transparents : List Nat) (claims : List (PiopClaim F)) :
    Option (Except PiopError (List (ClaimDesc F))) :=
  match transparentLoop transparents 0 (initialDescs m) with
  | none => none
  | some (.error e) => some (.error e)
  | some (.ok descs) => claimLoop 0 claims descs

end Verif.Piop
