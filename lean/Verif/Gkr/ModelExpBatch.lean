import Verif.Gkr.ModelExp
import Verif.Gkr.ModelGpa
import Verif.Transparent.ModelTransparent

/-! Model of the batched GKR exponentiation, crates/core/src/protocols/gkr_exp: `batch_verify.rs`, `batch_prove.rs`,
`provers.rs` and `oracles.rs`.

A boxed verifier is the `ExpClaim` it holds: it is static or dynamic according to `static_base` (`make_verifiers`,
batch_verify.rs:253-269, which cannot fail).  The number `checks` says whether overflows panic in `1 << k` (`shl64`); the
subtraction in `is_last_layer` is taken to panic. -/

set_option linter.dupNamespace false

namespace Verif.Gkr

open Verif.Protocol Verif.Sumcheck

variable {F : Type} [Field F] [DecidableEq F]

/-- An option whose absence is a panic. -/
def orPanic {A : Type} : Option A → Except Error A
  | some a => .ok a
  | none => .error .panic

/-- `ExpCompositions` as a `CompositionPoly`, compositions.rs:21-80. -/
def ExpComposition.toComposition (c : ExpComposition F) : Composition F where
  nVars := c.nVars
  degree := c.degree
  evaluate := fun q =>
    match c.evaluate q with
    | .ok v => .ok v
    | .error _ => .error (.incorrectQuerySize c.nVars q.length)

/-- `layer_n_multilinears`, verifiers.rs:157-164 and 283-291, provers.rs:227-234 and 376-384. -/
def layerNMultilinears (c : ExpClaim F) (layerNo : Nat) : Option Nat :=
  (isLastLayer c.exponentBitWidth layerNo).map fun last =>
    match c.staticBase with
    | some _ => if last then 0 else 2
    | none => if last then 2 else 3

/-- `IndexComposition::new` of consecutive multilinears and the claim about it. -/
def indexedSum (nMultilinears : Nat) (indices : List Nat) (c : ExpComposition F) (eval : F) :
    Except Error (Option (CompositeSum F)) :=
  match indexComposition nMultilinears indices c.toComposition with
  | .ok c => .ok (some ⟨c, eval⟩)
  | .error e => .error e

/-- `layer_composite_sum_claim`, verifiers.rs:122-155 and 244-281; the claim in provers.rs:113-166 and 260-323 is the same. -/
def layerCompositeSum (checks : Bool) (c : ExpClaim F) (layerNo nMultilinears index : Nat) :
    Except Error (Option (CompositeSum F)) :=
  match c.staticBase with
  | some g =>
    match staticComposition checks g c.exponentBitWidth layerNo with
    | none => .error .panic
    | some none => .ok none
    | some (some comp) => indexedSum nMultilinears [index, index + 1] comp c.eval
  | none =>
    match isLastLayer c.exponentBitWidth layerNo, dynamicComposition c.exponentBitWidth layerNo with
    | some last, some comp =>
      indexedSum nMultilinears (if last then [index, index + 1] else [index, index + 1, index + 2]) comp c.eval
    | _, _ => .error .panic

/-- The number of multilinears of a group, the `fold` of batch_verify.rs:157-165. -/
def groupNMultilinears (layerNo : Nat) : List (ExpClaim F) → Option Nat
  | [] => some 0
  | c :: cs => (layerNMultilinears c layerNo).bind fun n => (groupNMultilinears layerNo cs).map fun m => n + m

/-- The loop of `build_eval_point_claims`, batch_verify.rs:177-189. -/
def groupSums (checks : Bool) (layerNo nMultilinears : Nat) : List (ExpClaim F) → (index : Nat) →
    Except Error (List (CompositeSum F))
  | [], _ => .ok []
  | c :: cs, index =>
    match layerCompositeSum checks c layerNo nMultilinears index with
    | .error e => .error e
    | .ok s =>
      match layerNMultilinears c layerNo with
      | none => .error .panic
      | some n =>
        match groupSums checks layerNo nMultilinears cs (index + n) with
        | .error e => .error e
        | .ok ss => .ok (s.toList ++ ss)

/-- `build_eval_point_claims`, batch_verify.rs:150-192. -/
def buildEvalPointClaims (checks : Bool) (layerNo : Nat) (group : List (ExpClaim F)) :
    Except Error (Option (EqIndClaim F)) :=
  match groupNMultilinears layerNo group with
  | none => .error .panic
  | some 0 => .ok none
  | some n =>
    match group with
    | [] => .error .panic
    | c :: _ =>
      match groupSums checks layerNo n group 0 with
      | .error e => .error e
      | .ok sums =>
        match EqIndClaim.new c.evalPoint.length n sums with
        | .error e => .error e
        | .ok claim => .ok (some claim)

/-- The loop of `build_layer_eq_ind_sumcheck_claims`, batch_verify.rs:110-139, over the verifiers left; `active` are the
verifiers from `active_index` on. -/
def groupLoop (checks : Bool) (layerNo : Nat) : List (ExpClaim F) → (active : List (ExpClaim F)) →
    (claims : List (EqIndClaim F)) → (points : List (List F)) →
    Except Error (List (EqIndClaim F) × List (List F))
  | [], _, claims, points => .ok (claims, points)
  | v :: rest, active, claims, points =>
    let closed : Except Error (List (ExpClaim F) × List (EqIndClaim F) × List (List F)) :=
      if some v.evalPoint ≠ points.getLast? then
        match buildEvalPointClaims checks layerNo active with
        | .error e => .error e
        | .ok (some claim) => .ok ([], claims ++ [claim], points ++ [v.evalPoint])
        | .ok none => .ok ([], claims, points.dropLast ++ [v.evalPoint])
      else .ok (active, claims, points)
    match closed with
    | .error e => .error e
    | .ok (active, claims, points) =>
      match rest with
      | [] =>
        match buildEvalPointClaims checks layerNo (active ++ [v]) with
        | .error e => .error e
        | .ok (some claim) => .ok (claims ++ [claim], points)
        | .ok none => .ok (claims, points)
      | _ :: _ => groupLoop checks layerNo rest (active ++ [v]) claims points

/-- `build_layer_eq_ind_sumcheck_claims`, batch_verify.rs:95-146: the index of the first verifier panics. -/
def buildLayerClaims (checks : Bool) (layerNo : Nat) (verifiers : List (ExpClaim F)) :
    Except Error (List (EqIndClaim F) × List (List F)) :=
  match verifiers with
  | [] => .error .panic
  | v :: _ => groupLoop checks layerNo verifiers [] [] [v.evalPoint]

/-- The check of the equality indicators, batch_verify.rs:208-232: the evaluations without their last entries.  `zip`
stops at the shorter list; the evaluations after it would keep theirs. -/
def checkEqInds (order : EvaluationOrder) (challenges : List F) : List (List F) → List (List F) →
    Except Error (List (List F))
  | evals :: es, point :: ps =>
    match sliceChallenges (decide (order = .lowToHigh)) point.length challenges with
    | none => .error .panic
    | some evalPoint =>
      match (Transparent.eqInd point).evaluate evalPoint with
      | .error _ => .error (.incorrectQuerySize point.length evalPoint.length)
      | .ok expected =>
        match evals.getLast? with
        | none => .error .panic
        | some x =>
          if expected ≠ x then .error .incorrectEqIndEvaluation
          else match checkEqInds order challenges es ps with
            | .error e => .error e
            | .ok l => .ok (evals.dropLast :: l)
  | es, _ => .ok es

/-- `finish_layer` of a boxed verifier, verifiers.rs:79-120 and 192-242, provers.rs:172-225 and 329-374. -/
def finishLayer (order : EvaluationOrder) (c : ExpClaim F) (layerNo : Nat) (evals r : List F) :
    Option (ExpClaim F × List (ExpLayerClaim F)) :=
  match c.staticBase with
  | some _ => (finishStatic (decide (order = .lowToHigh)) c layerNo evals r).map fun p => (p.1, [p.2])
  | none => (finishDynamic (decide (order = .lowToHigh)) c layerNo evals r).map fun p => (p.1, [p.2.1, p.2.2])

/-- The loop over the verifiers, batch_verify.rs:236-253, batch_prove.rs:270-286: each takes its evaluations off the
front. -/
def finishLoop (order : EvaluationOrder) (layerNo : Nat) (challenges : List F) : List (ExpClaim F) → List F →
    Except Error (List (ExpClaim F) × List (ExpLayerClaim F))
  | [], _ => .ok ([], [])
  | c :: cs, evals =>
    match layerNMultilinears c layerNo with
    | none => .error .panic
    | some n =>
      match finishLayer order c layerNo (evals.take n) challenges with
      | none => .error .panic
      | some (c', out) =>
        match finishLoop order layerNo challenges cs (evals.drop n) with
        | .error e => .error e
        | .ok (cs', outs) => .ok (c' :: cs', out ++ outs)

/-- `build_layer_exponent_bit_claims`, batch_verify.rs:196-256. -/
def buildLayerExponentBitClaims (order : EvaluationOrder) (verifiers : List (ExpClaim F)) (out : Output F)
    (points : List (List F)) (layerNo : Nat) : Except Error (List (ExpClaim F) × List (ExpLayerClaim F)) :=
  match checkEqInds order out.challenges out.multilinearEvals points with
  | .error e => .error e
  | .ok evals => finishLoop order layerNo out.challenges verifiers evals.flatten

/-- `verifiers.retain(|verifier| !verifier.is_last_layer(layer_no))`, batch_verify.rs:80, batch_prove.rs:109. -/
def retainLayer (layerNo : Nat) : List (ExpClaim F) → Except Error (List (ExpClaim F))
  | [] => .ok []
  | c :: cs =>
    match isLastLayer c.exponentBitWidth layerNo with
    | none => .error .panic
    | some last =>
      match retainLayer layerNo cs with
      | .error e => .error e
      | .ok cs => .ok (if last then cs else c :: cs)

/-- The loop of `batch_verify`, batch_verify.rs:60-81, by the number of layers left. -/
def expLayers (checks : Bool) (order : EvaluationOrder) : (left layerNo : Nat) → List (ExpClaim F) →
    (done : List (List (ExpLayerClaim F))) → P F (List (List (ExpLayerClaim F)))
  | 0, _, _, done => .ret done
  | left + 1, layerNo, verifiers, done =>
    (Prog.ofExcept (buildLayerClaims checks layerNo verifiers)).bind fun cp =>
      (Prog.ofExcept (reduceToRegularSumchecks cp.1)).bind fun regular =>
        (batchVerify order regular).bind fun out =>
          (Prog.ofExcept (buildLayerExponentBitClaims order verifiers out cp.2 layerNo)).bind fun vo =>
            (Prog.ofExcept (retainLayer layerNo vo.1)).bind fun vs =>
              expLayers checks order left (layerNo + 1) vs (done ++ [vo.2])

/-- The largest exponent width, batch_verify.rs:54-58. -/
def maxWidth (claims : List (ExpClaim F)) : Nat := ((claims.map fun c => c.exponentBitWidth).max?).getD 0

/-- `batch_verify`, batch_verify.rs:33-84: the claims on exponent bits and bases, layer by layer. -/
def expBatchVerify (checks : Bool) (order : EvaluationOrder) (claims : List (ExpClaim F)) :
    P F (List (List (ExpLayerClaim F))) :=
  match claims with
  | [] => .ret []
  | _ :: _ =>
    if Verif.Sorting.isSortedAscending (claims.map fun c => c.nVars).reverse = false then .fail .claimsOutOfOrder
    else expLayers checks order (maxWidth claims) 0 claims []

/-! ## The prover -/

/-- `BaseExpWitness`, witness.rs:22-30: the columns of exponent bits, the tables of the layers (all in as many variables as
the columns) and the base. -/
structure ExpWitness (F : Type) where
  exponent : List (Column F)
  layers : List (Column F)
  base : Option (Column F)
  staticBase : F

/-- A prover is its witness and its current claim, provers.rs:56-73.  `exponentBitWidth` is the number of columns of the
witness, :75-77, and the base is that of the witness, provers.rs:143-146 and 184-187. -/
structure ExpProver (F : Type) where
  witness : ExpWitness F
  evalPoint : List F
  eval : F
  nVars : Nat

/-- The claim a verifier would hold in the place of a prover. -/
def ExpProver.claim (p : ExpProver F) : ExpClaim F where
  evalPoint := p.evalPoint
  eval := p.eval
  exponentBitWidth := p.witness.exponent.length
  nVars := p.nVars
  staticBase := match p.witness.base with | none => some p.witness.staticBase | some _ => none

/-- `current_layer_single_bit_output_layers_data`, provers.rs:79-86: the subtractions and the index panic. -/
def ExpProver.layerData (p : ExpProver F) (layerNo : Nat) : Option (Column F) :=
  if layerNo + 2 ≤ p.witness.layers.length then p.witness.layers[p.witness.layers.length - layerNo - 2]? else none

/-- The multilinears of `layer_composite_sum_claim`, provers.rs:122-131 and 267-300. -/
def ExpProver.multilinears (p : ExpProver F) (layerNo : Nat) : Option (List (Column F)) :=
  (isLastLayer p.witness.exponent.length layerNo).bind fun last =>
    match p.witness.base with
    | none =>
      if last then some []
      else (p.layerData layerNo).bind fun input =>
        p.witness.exponent[p.witness.exponent.length - 1 - layerNo]?.map fun bit => [input, bit]
    | some base =>
      p.witness.exponent[layerNo]?.bind fun bit =>
        if last then some [base, bit]
        else (p.layerData layerNo).map fun input => [input, bit, base]

/-- Builders of sumcheck provers: `GKRExpProverBuilder::with_switchover` and `build`, `sumcheck/prove/eq_ind.rs`. The
arguments are the multilinears, the point of the equality indicator and the composite sums. -/
abbrev ExpProverBuilder (F : Type) :=
  List (Column F) → List F → List (CompositeSum F) → Except Error (SumcheckProver F)

/-- `build_eval_point_claims`, batch_prove.rs:207-251: the composite sums and the multilinears of a group.  A prover without a
sum has no multilinears. -/
def proverGroup (checks : Bool) (layerNo nMultilinears : Nat) : List (ExpProver F) → (index : Nat) →
    Except Error (List (CompositeSum F) × List (Column F))
  | [], _ => .ok ([], [])
  | p :: ps, index =>
    match layerCompositeSum checks p.claim layerNo nMultilinears index with
    | .error e => .error e
    | .ok s =>
      match p.multilinears layerNo with
      | none => .error .panic
      | some ms =>
        match proverGroup checks layerNo nMultilinears ps (index + ms.length) with
        | .error e => .error e
        | .ok (ss, mss) => .ok (s.toList ++ ss, ms ++ mss)

/-- `build_eval_point_claims` with the number of multilinears it starts by computing, batch_prove.rs:214-223. -/
def proverBuildGroup (checks : Bool) (layerNo : Nat) (group : List (ExpProver F)) :
    Except Error (List (CompositeSum F) × List (Column F)) :=
  match groupNMultilinears layerNo (group.map ExpProver.claim) with
  | none => .error .panic
  | some n => proverGroup checks layerNo n group 0

/-- The loop of `build_layer_gkr_sumcheck_provers`, batch_prove.rs:144-180. -/
def proverGroupLoop (checks : Bool) (layerNo : Nat) : List (ExpProver F) → (active : List (ExpProver F)) →
    (groups : List (List (CompositeSum F) × List (Column F))) → (points : List (List F)) →
    Except Error (List (List (CompositeSum F) × List (Column F)) × List (List F))
  | [], _, groups, points => .ok (groups, points)
  | v :: rest, active, groups, points =>
    let closed : Except Error
        (List (ExpProver F) × List (List (CompositeSum F) × List (Column F)) × List (List F)) :=
      if some v.evalPoint ≠ points.getLast? then
        match proverBuildGroup checks layerNo active with
        | .error e => .error e
        | .ok g =>
          if g.1.isEmpty then .ok ([], groups, points.dropLast ++ [v.evalPoint])
          else .ok ([], groups ++ [g], points ++ [v.evalPoint])
      else .ok (active, groups, points)
    match closed with
    | .error e => .error e
    | .ok (active, groups, points) =>
      match rest with
      | [] =>
        match proverBuildGroup checks layerNo (active ++ [v]) with
        | .error e => .error e
        | .ok g => if g.1.isEmpty then .ok (groups, points) else .ok (groups ++ [g], points)
      | _ :: _ => proverGroupLoop checks layerNo rest (active ++ [v]) groups points

/-- `build_layer_gkr_sumcheck_provers`, batch_prove.rs:118-200: `izip!` stops at the shortest list. -/
def buildLayerProvers (checks : Bool) (build : ExpProverBuilder F) (layerNo : Nat) (provers : List (ExpProver F)) :
    Except Error (List (SumcheckProver F)) :=
  match provers with
  | [] => .error .panic
  | p :: _ =>
    match proverGroupLoop checks layerNo provers [] [] [p.evalPoint] with
    | .error e => .error e
    | .ok (groups, points) => collect ((groups.zip points).map fun g => build g.1.2 g.2 g.1.1)

/-- What a prover keeps of a finished claim, provers.rs:172-225 and 329-374. -/
def ExpProver.withClaim (p : ExpProver F) (c : ExpClaim F) : ExpProver F :=
  { p with evalPoint := c.evalPoint, eval := c.eval }

/-- `build_layer_exponent_bit_claims`, batch_prove.rs:254-290. -/
def proverLayerClaims (order : EvaluationOrder) (provers : List (ExpProver F)) (out : Output F) (layerNo : Nat) :
    Except Error (List (ExpProver F) × List (ExpLayerClaim F)) :=
  match finishLoop order layerNo out.challenges (provers.map ExpProver.claim)
      (out.multilinearEvals.map List.dropLast).flatten with
  | .error e => .error e
  | .ok (cs, outs) => .ok (List.zipWith ExpProver.withClaim provers cs, outs)

/-- `provers.retain(|prover| !prover.is_last_layer(layer_no))`, batch_prove.rs:109. -/
def retainProvers (layerNo : Nat) : List (ExpProver F) → Except Error (List (ExpProver F))
  | [] => .ok []
  | p :: ps =>
    match isLastLayer p.witness.exponent.length layerNo with
    | none => .error .panic
    | some last =>
      match retainProvers layerNo ps with
      | .error e => .error e
      | .ok ps => .ok (if last then ps else p :: ps)

/-- The loop of `batch_prove`, batch_prove.rs:83-110. -/
def expProveLayers (checks : Bool) (order : EvaluationOrder) (build : ExpProverBuilder F) : (left layerNo : Nat) →
    List (ExpProver F) → (done : List (List (ExpLayerClaim F))) → PP F (List (List (ExpLayerClaim F)))
  | 0, _, _, done => .ret done
  | left + 1, layerNo, provers, done =>
    (PProg.ofExcept (buildLayerProvers checks build layerNo provers)).bind fun sps =>
      (batchProve sps).bind fun out =>
        (PProg.ofExcept (proverLayerClaims order provers out layerNo)).bind fun po =>
          (PProg.ofExcept (retainProvers layerNo po.1)).bind fun ps =>
            expProveLayers checks order build left (layerNo + 1) ps (done ++ [po.2])

/-- `make_provers`, batch_prove.rs:293-315: a prover takes the point and the value of its claim. -/
def makeProvers (witnesses : List (ExpWitness F)) (claims : List (ExpClaim F)) : List (ExpProver F) :=
  List.zipWith (fun w c => ⟨w, c.evalPoint, c.eval, c.nVars⟩) witnesses claims

/-- `batch_prove`, batch_prove.rs:49-113. -/
def expBatchProve (checks : Bool) (order : EvaluationOrder) (build : ExpProverBuilder F)
    (witnesses : List (ExpWitness F)) (claims : List (ExpClaim F)) : PP F (List (List (ExpLayerClaim F))) :=
  if witnesses.length ≠ claims.length then .fail .mismatchedWitnessClaimLength
  else match witnesses with
    | [] => .ret []
    | _ :: _ =>
      if Verif.Sorting.isSortedAscending (claims.map fun c => c.nVars).reverse = false then .fail .claimsOutOfOrder
      else
        let provers := makeProvers witnesses claims
        expProveLayers checks order build (maxWidth (provers.map ExpProver.claim)) 0 provers []

/-! ## Claims about oracles -/

/-- `EvalcheckMultilinearClaim`, `protocols/evalcheck/evalcheck.rs:20-27`. -/
structure OracleClaim (F : Type) where
  id : Nat
  evalPoint : List F
  eval : F

/-- `construct_gkr_exp_claims`, oracles.rs:37-69; `nVars` are the numbers of variables of the oracles, the slice of the
point panics, and so does an identifier that is not in the set. -/
def constructExpClaims (nVars : List Nat) (exponents : List (List Nat)) (evals : List F) (bases : List (Option F))
    (point : List F) : Except ExpError (Option (List (ExpClaim F))) :=
  if exponents.any List.isEmpty then .error .emptyExp
  else .ok (((exponents.zip evals).zip bases).mapM fun p =>
    p.1.1.getLast?.bind fun id => nVars[id]?.bind fun n =>
      if n ≤ point.length then some ⟨point.take n, p.1.2, p.1.1.length, n, p.2⟩ else none)

/-- One step of `make_eval_claims`, oracles.rs:83-121, for one exponentiation and one layer: the claims it makes and the
claims of the layer that are left.  The outer option is a panic; the claims of a layer are taken from the end. -/
def evalClaimStep (layerNo : Nat) (ids : List Nat) (base : Option Nat) (layer : List (ExpLayerClaim F)) :
    Option (Except Unit (List (OracleClaim F) × List (ExpLayerClaim F))) :=
  if ids.length = 0 then none
  else if layerNo > ids.length - 1 then some (.ok ([], layer))
  else
    match layer.getLast? with
    | none => some (.error ())
    | some l =>
      match base with
      | some b =>
        match layer.dropLast.getLast? with
        | none => some (.error ())
        | some l' =>
          ids[layerNo]?.map fun id =>
            .ok ([⟨id, l'.evalPoint, l'.eval⟩, ⟨b, l.evalPoint, l.eval⟩], layer.dropLast.dropLast)
      | none => ids[ids.length - 1 - layerNo]?.map fun id => .ok ([⟨id, l.evalPoint, l.eval⟩], layer.dropLast)

/-- The inner loop of `make_eval_claims`, oracles.rs:83-121, over the exponentiations from the last on. -/
def evalClaimLayer (layerNo : Nat) : List (List Nat × Option Nat) → List (ExpLayerClaim F) →
    Option (Except Unit (List (OracleClaim F)))
  | [], _ => some (.ok [])
  | p :: ps, layer =>
    match evalClaimStep layerNo p.1 p.2 layer with
    | none => none
    | some (.error ()) => some (.error ())
    | some (.ok (cs, layer)) =>
      match evalClaimLayer layerNo ps layer with
      | none => none
      | some (.error ()) => some (.error ())
      | some (.ok ds) => some (.ok (cs ++ ds))

/-- The outer loop of `make_eval_claims`, oracles.rs:82-122; the index of the layer panics. -/
def evalClaimLayers (items : List (List Nat × Option Nat)) (layers : List (List (ExpLayerClaim F))) : (left layerNo : Nat) →
    Option (Except Unit (List (OracleClaim F)))
  | 0, _ => some (.ok [])
  | left + 1, layerNo =>
    match layers[layerNo]? with
    | none => if items.all (fun p => decide (layerNo > p.1.length - 1) && decide (p.1.length ≠ 0)) then
        evalClaimLayers items layers left (layerNo + 1) else none
    | some layer =>
      match evalClaimLayer layerNo items layer with
      | none => none
      | some (.error ()) => some (.error ())
      | some (.ok cs) =>
        match evalClaimLayers items layers left (layerNo + 1) with
        | none => none
        | some (.error ()) => some (.error ())
        | some (.ok ds) => some (.ok (cs ++ ds))

/-- `make_eval_claims`, oracles.rs:72-125. -/
def makeEvalClaims (metas : List (List Nat)) (layers : List (List (ExpLayerClaim F))) (bases : List (Option Nat)) :
    Option (Except Unit (List (OracleClaim F))) :=
  evalClaimLayers ((bases.zip metas).map fun p => (p.2, p.1)).reverse layers
    ((metas.map List.length).max?.getD 0) 0

end Verif.Gkr
