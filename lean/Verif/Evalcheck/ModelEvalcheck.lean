import Verif.Oracle.ModelOracle
import Verif.Transparent.ModelTransparent
import Mathlib.Algebra.Field.Defs
import Mathlib.Data.List.Sort

/-! Model of the evalcheck verifier, crates/core/src/protocols/evalcheck/{verify,subclaims,evalcheck}.rs, and of the
construction of the constraint sets it emits, crates/core/src/oracle/constraint.rs.

The prover's messages come from an arbitrary reader: nothing is assumed about what it returns.  Names and labels are left
out, and errors are not told apart except where the code does.  `EvalPoint` is a list of field elements: its range into
a shared array is not modelled.  The recursion follows the references between oracles; `fuel` bounds its depth, and
running out of it stands for a stack that never returns. -/

set_option linter.dupNamespace false

namespace Verif.Evalcheck

open Verif.Oracle (OracleSet Oracle Variant TowerOps)
open Verif.Transparent (Poly ShiftVariant)

/-- The ways not to accept: an error, a panic, or a recursion deeper than the fuel. -/
inductive Fail where
  | err
  | emptyConstraintSet
  | panic
  | diverge
  deriving DecidableEq

/-- `EvalcheckMultilinearClaim`, evalcheck/evalcheck.rs:18-27. -/
structure Claim (F : Type) where
  id : Nat
  point : List F
  eval : F
  deriving DecidableEq

/-- `EvalcheckHint`, evalcheck/evalcheck.rs:53-57. -/
inductive Hint where
  | newClaim
  | duplicateClaim (index : Nat)

/-- `UngroupedConstraint` with the predicate `Sum`, oracle/constraint.rs:70-78. -/
structure Constraint (F : Type) where
  oracleIds : List Nat
  composition : Arith.Circuit F
  sum : F

/-- `SizedConstraintSet` with constraints of predicate `Sum`, oracle/constraint.rs:39-46. -/
structure ConstraintSet (F : Type) where
  nVars : Nat
  oracleIds : List Nat
  constraints : List (Arith.Circuit F × F)

/-- The reading side of the transcript: a `u32` or a scalar, or an error when the proof is too short or malformed. -/
structure Reader (σ F : Type) where
  readU32 : σ → Option (Nat × σ)
  readScalar : σ → Option (F × σ)

/-- What the verifier takes from the field besides its arithmetic: the tower levels and `TowerBasis::new`,
crates/core/src/transparent/tower_basis.rs:40-52. -/
structure Ops (F : Type) extends TowerOps F where
  towerBasis : Nat → Nat → Except Transparent.Error (Poly F)

/-- `EvalcheckVerifier`, evalcheck/verify.rs:35-56, with the state of the transcript. -/
structure State (σ F : Type) where
  oracles : OracleSet F
  committed : List (Claim F)
  sumchecks : List (List (Constraint F))
  mlechecks : List (List F × List (Constraint F))
  roundClaims : List (Claim F)
  tr : σ

/-- `EvalcheckVerifier::new`, evalcheck/verify.rs:62-70. -/
def State.new {σ F : Type} (os : OracleSet F) (tr : σ) : State σ F := ⟨os, [], [], [], [], tr⟩

section
variable {σ F : Type} [Field F] [DecidableEq F]

/-- `deserialize_evalcheck_proof`, evalcheck/evalcheck.rs:86-101 with `EvalcheckNumerics::from`, 59-67. -/
def readHint (rd : Reader σ F) (tr : σ) : Except Fail (Hint × σ) :=
  match rd.readU32 tr with
  | none => .error .err
  | some (1, tr) => .ok (.newClaim, tr)
  | some (2, tr) =>
    match rd.readU32 tr with
    | none => .error .err
    | some (index, tr) => .ok (.duplicateClaim index, tr)
  | some (_, _) => .error .err

/-- The function a recursive call stands for. -/
abbrev Rec (σ F : Type) := Claim F → State σ F → Except Fail (State σ F)

/-- `verify_multilinear`, evalcheck/verify.rs:121-140. -/
def verifyMultilinear (rd : Reader σ F) (rec : Rec σ F) (claim : Claim F) (st : State σ F) :
    Except Fail (State σ F) :=
  match readHint rd st.tr with
  | .error e => .error e
  | .ok (.duplicateClaim index, tr) =>
    match st.roundClaims[index]? with
    | some expected => if expected = claim then .ok { st with tr := tr } else .error .err
    | none => .error .err
  | .ok (.newClaim, tr) => rec claim { st with tr := tr }

/-- `verify_multilinear_subclaim`, evalcheck/verify.rs:319-350: the evaluation and the new state.  The index of a
duplicate is used unchecked. -/
def verifySubclaim (rd : Reader σ F) (rec : Rec σ F) (id : Nat) (point : List F) (st : State σ F) :
    Except Fail (F × State σ F) :=
  match readHint rd st.tr with
  | .error e => .error e
  | .ok (.duplicateClaim index, tr) =>
    match st.roundClaims[index]? with
    | none => .error .panic
    | some c => if c.id ≠ id ∨ c.point ≠ point then .error .err else .ok (c.eval, { st with tr := tr })
  | .ok (.newClaim, tr) =>
    match rd.readScalar tr with
    | none => .error .err
    | some (eval, tr) =>
      match rec ⟨id, point, eval⟩ { st with tr := tr } with
      | .error e => .error e
      | .ok st => .ok (eval, st)

/-- The evaluations of all the subclaims of a linear combination, evalcheck/verify.rs:242-251. -/
def verifySubclaims (rd : Reader σ F) (rec : Rec σ F) (point : List F) :
    List Nat → State σ F → Except Fail (List F × State σ F)
  | [], st => .ok ([], st)
  | id :: ids, st =>
    match verifySubclaim rd rec id point st with
    | .error e => .error e
    | .ok (eval, st) =>
      match verifySubclaims rd rec point ids st with
      | .error e => .error e
      | .ok (evals, st) => .ok (eval :: evals, st)

/-- The result of an addition to the oracle set. -/
def liftAdd (r : Oracle.Res (OracleSet F × Nat)) : Except Fail (OracleSet F × Nat) :=
  match r with
  | none => .error .panic
  | some (.error _) => .error .err
  | some (.ok a) => .ok a

/-- The result of a constructor of a transparent polynomial. -/
def liftPoly (r : Except Transparent.Error (Poly F)) : Except Fail (Poly F) :=
  match r with
  | .error _ => .error .err
  | .ok p => .ok p

/-- `projected_bivariate_meta`, evalcheck/subclaims.rs:225-256: the new set and the identifiers of the two factors
(`ProjectedBivariateMeta::oracle_ids`, 216-221).  `ctr` is the constructor of the multiplier with its tower level. -/
def projectedBivariateMeta (ops : Ops F) (os : OracleSet F) (innerId projectedNVars : Nat) (point : List F)
    (ctr : List F → Except Transparent.Error (Poly F) × Nat) : Except Fail (OracleSet F × Nat × Nat) :=
  match os.get innerId with
  | none => .error .panic
  | some inner =>
    if projectedNVars < inner.nVars then
      if point.length < projectedNVars then .error .panic
      else
        match liftAdd (Oracle.addProjectedLastVars os innerId (point.drop projectedNVars)) with
        | .error e => .error e
        | .ok (os, projectedId) =>
          match liftPoly (ctr (point.take projectedNVars)).1 with
          | .error e => .error e
          | .ok p =>
            match liftAdd (Oracle.addTransparent ops.toTowerOps os p (ctr (point.take projectedNVars)).2) with
            | .error e => .error e
            | .ok (os, multiplierId) => .ok (os, projectedId, multiplierId)
    else
      match liftPoly (ctr point).1 with
      | .error e => .error e
      | .ok p =>
        match liftAdd (Oracle.addTransparent ops.toTowerOps os p (ctr point).2) with
        | .error e => .error e
        | .ok (os, multiplierId) => .ok (os, innerId, multiplierId)

/-- The shift indicator as a polynomial of tower level `F::TOWER_LEVEL`, crates/core/src/transparent/shift_ind.rs. -/
def shiftCtr (ops : Ops F) (offset b : Nat) (v : ShiftVariant) (r : List F) :
    Except Transparent.Error (Poly F) × Nat :=
  (match Transparent.ShiftInd.new b offset v r with
    | .error e => .error e
    | .ok s => .ok ⟨b, s.evaluate⟩, ops.level)

/-- `shifted_sumcheck_meta`, evalcheck/subclaims.rs:51-71. -/
def shiftedSumcheckMeta (ops : Ops F) (os : OracleSet F) (id offset b : Nat) (v : ShiftVariant) (point : List F) :
    Except Fail (OracleSet F × Nat × Nat) :=
  projectedBivariateMeta ops os id b point (shiftCtr ops offset b v)

/-- `packed_sumcheck_meta`, evalcheck/subclaims.rs:112-131. -/
def packedSumcheckMeta (ops : Ops F) (os : OracleSet F) (id k : Nat) (point : List F) :
    Except Fail (OracleSet F × Nat × Nat) :=
  match os.get id with
  | none => .error .panic
  | some inner =>
    if k > inner.nVars then .error .err
    else projectedBivariateMeta ops os id 0 point fun _ => (ops.towerBasis k inner.towerLevel, inner.towerLevel + k)

/-- `add_bivariate_sumcheck_to_constraints`, evalcheck/subclaims.rs:133-144. -/
def addBivariate (ids : Nat × Nat) (builders : List (List (Constraint F))) (nVars : Nat) (eval : F) :
    List (List (Constraint F)) :=
  (builders ++ List.replicate (nVars + 1 - builders.length) []).modify nVars fun b =>
    b ++ [(⟨[ids.1, ids.2], Arith.mul (Arith.var 0) (Arith.var 1), eval⟩ : Constraint F)]

/-- `add_composite_sumcheck_to_constraints`, evalcheck/subclaims.rs:146-167. -/
def addCompositeSumcheck (position : Nat) (point : List F) (builders : List (List F × List (Constraint F)))
    (inner : List Nat) (c : Arith.Circuit F) (eval : F) : List (List F × List (Constraint F)) :=
  if position < builders.length then builders.modify position fun b => (b.1, b.2 ++ [⟨inner, c, eval⟩])
  else builders ++ [(point, [⟨inner, c, eval⟩])]

/-- `Field::invert`. -/
def invert (x : F) : Option F := if x = 0 then none else some x⁻¹

/-- `inner_product_unchecked`, crates/field/src/util.rs: the shorter of the two decides. -/
def innerProduct (a b : List F) : F := ((a.zip b).map fun p => p.1 * p.2).sum

/-- The body of `verify_multilinear_skip_duplicate_check` for each variant, evalcheck/verify.rs:155-316. -/
def verifyVariant (rd : Reader σ F) (ops : Ops F) (rec : Rec σ F) (claim : Claim F) (o : Oracle F)
    (st : State σ F) : Except Fail (State σ F) :=
  match o.variant with
  | .transparent p _ =>
    match p.evaluate claim.point with
    | .error _ => .error .err
    | .ok actual => if actual ≠ claim.eval then .error .err else .ok st
  | .structured c =>
    if Arith.nVars c < claim.point.length then .error .panic
    else
      match Arith.evaluate c (claim.point ++ List.replicate (Arith.nVars c - claim.point.length) 0) with
      | none => .error .err
      | some actual => if actual ≠ claim.eval then .error .err else .ok st
  | .committed => .ok { st with committed := st.committed ++ [claim] }
  | .repeating id logCount =>
    if claim.point.length < logCount then .error .panic
    else verifyMultilinear rd rec ⟨id, claim.point.take (claim.point.length - logCount), claim.eval⟩ st
  | .projected id values start =>
    if claim.point.length < start then .error .panic
    else verifyMultilinear rd rec ⟨id, claim.point.take start ++ values ++ claim.point.drop start, claim.eval⟩ st
  | .shifted id offset b v =>
    match shiftedSumcheckMeta ops st.oracles id offset b v claim.point with
    | .error e => .error e
    | .ok (os, ids) => .ok { st with oracles := os, sumchecks := addBivariate ids st.sumchecks b claim.eval }
  | .packed id k =>
    match packedSumcheckMeta ops st.oracles id k claim.point with
    | .error e => .error e
    | .ok (os, ids) => .ok { st with oracles := os, sumchecks := addBivariate ids st.sumchecks k claim.eval }
  | .linearCombination offset inner =>
    match verifySubclaims rd rec claim.point (inner.map (·.1)) st with
    | .error e => .error e
    | .ok (evals, st) =>
      if offset + innerProduct evals (inner.map (·.2)) ≠ claim.eval then .error .err else .ok st
  | .zeroPadded id k nz start =>
    if claim.point.length < start + k then .error .panic
    else
      match Transparent.selectRowNew k nz with
      | .error _ => .error .err
      | .ok index =>
        match (Transparent.selectRow k index).evaluate ((claim.point.drop start).take k) with
        | .error _ => .error .panic
        | .ok term =>
          match invert term with
          | none => if claim.eval = 0 then .ok st else .error .err
          | some inv =>
            verifyMultilinear rd rec
              ⟨id, claim.point.take start ++ claim.point.drop (start + k), claim.eval * inv⟩ st
  | .composite inner c =>
    match rd.readU32 st.tr with
    | none => .error .err
    | some (position, tr) =>
      if st.mlechecks[position]?.any fun b => b.1 ≠ claim.point then .error .err
      else .ok { st with
        mlechecks := addCompositeSumcheck position claim.point st.mlechecks inner c claim.eval
        tr := tr }

/-- `verify_multilinear_skip_duplicate_check`, evalcheck/verify.rs:142-317. -/
def verifySkipDuplicate (rd : Reader σ F) (ops : Ops F) : Nat → Rec σ F
  | 0, _, _ => .error .diverge
  | fuel + 1, claim, st =>
    match st.oracles.get claim.id with
    | none => .error .panic
    | some o =>
      verifyVariant rd ops (verifySkipDuplicate rd ops fuel) claim o
        { st with roundClaims := st.roundClaims ++ [claim] }

/-- The loop of `verify`, evalcheck/verify.rs:115-118. -/
def verifyAll (rd : Reader σ F) (ops : Ops F) (fuel : Nat) : List (Claim F) → State σ F → Except Fail (State σ F)
  | [], st => .ok st
  | c :: cs, st =>
    match verifyMultilinear rd (verifySkipDuplicate rd ops fuel) c st with
    | .error e => .error e
    | .ok st => verifyAll rd ops fuel cs st

/-- `EvalcheckVerifier::verify`, evalcheck/verify.rs:109-119. -/
def verify (rd : Reader σ F) (ops : Ops F) (fuel : Nat) (claims : List (Claim F)) (st : State σ F) :
    Except Fail (State σ F) :=
  verifyAll rd ops fuel claims { st with roundClaims := [] }

/-- `Vec::dedup` of a sorted vector. -/
def dedupConsecutive : List Nat → List Nat
  | [] => []
  | [a] => [a]
  | a :: b :: l => if a = b then dedupConsecutive (b :: l) else a :: dedupConsecutive (b :: l)

/-- `positions`, oracle/constraint.rs:172-186. -/
def positions (subset superset : List Nat) : Option (List Nat) := subset.mapM fun x => superset.findIdx? (· = x)

/-- The constraints over the common list of oracles, oracle/constraint.rs:145-161: both `expect`s panic. -/
def remapAll (ids : List Nat) : List (Constraint F) → Except Fail (List (Arith.Circuit F × F))
  | [] => .ok []
  | c :: cs =>
    match positions c.oracleIds ids with
    | none => .error .panic
    | some pos =>
      match Arith.remapVars c.composition pos with
      | none => .error .panic
      | some c' =>
        match remapAll ids cs with
        | .error e => .error e
        | .ok l => .ok ((c', c.sum) :: l)

/-- `ConstraintSetBuilder::build_one`, oracle/constraint.rs:110-167. -/
def buildOne (os : OracleSet F) (cs : List (Constraint F)) : Except Fail (ConstraintSet F) :=
  let all := cs.flatMap (·.oracleIds)
  if all = [] then .error .emptyConstraintSet
  else if all.any fun id => ¬ os.isValid id then .error .err
  else
    let ids := dedupConsecutive (all.insertionSort (· ≤ ·))
    match os.getAll ids with
    | none => .error .panic
    | some polys =>
      match polys with
      | [] => .error .panic
      | p :: _ =>
        if polys.any fun q => q.nVars ≠ p.nVars then .error .err
        else
          match remapAll ids cs with
          | .error e => .error e
          | .ok l => .ok ⟨p.nVars, ids, l⟩

/-- `take_new_sumcheck_constraints`, evalcheck/verify.rs:73-81: the sets built from the non-empty builders. -/
def takeSumchecks (os : OracleSet F) : List (List (Constraint F)) → Except Fail (List (ConstraintSet F))
  | [] => .ok []
  | b :: bs =>
    match buildOne os b with
    | .error .emptyConstraintSet => takeSumchecks os bs
    | .error e => .error e
    | .ok s =>
      match takeSumchecks os bs with
      | .error e => .error e
      | .ok l => .ok (s :: l)

/-- `take_new_mlechecks_constraints`, evalcheck/verify.rs:84-100: each set with its evaluation point. -/
def takeMlechecks (os : OracleSet F) : List (List F × List (Constraint F)) →
    Except Fail (List (List F × ConstraintSet F))
  | [] => .ok []
  | (point, b) :: bs =>
    match buildOne os b with
    | .error e => .error e
    | .ok s =>
      match takeMlechecks os bs with
      | .error e => .error e
      | .ok l => .ok ((point, s) :: l)

end
end Verif.Evalcheck
