import Verif.Sumcheck.ModelEqInd
import Verif.Gkr.ModelGrandProduct
import Verif.Utils.ModelSorting

/-!
# The grand product argument (model)

`crates/core/src/protocols/gkr_gpa/{verify.rs, prove.rs}`, with the compositions it uses,
`crates/core/src/composition/{product_composition.rs, index.rs}`.
-/

set_option linter.dupNamespace false

namespace Verif.Gkr

open Verif.Protocol Verif.Sumcheck

variable {F : Type} [Field F] [DecidableEq F]

/-- `ProductComposition<N>`, `composition/product_composition.rs:10-45`. -/
def productOf (n : Nat) : Composition F where
  nVars := n
  degree := n
  evaluate := fun q => if q.length ≠ n then .error (.incorrectQuerySize n q.length) else .ok q.prod

/-- `IndexComposition::new` and the `CompositionPoly` of the result, `composition/index.rs:26-66`. -/
def indexComposition (nVars : Nat) (indices : List Nat) (c : Composition F) :
    Except Error (Composition F) :=
  if indices.any (fun i => decide (i ≥ nVars)) then .error .indexCompositionIndicesOutOfBounds
  else .ok
    { nVars := nVars
      degree := c.degree
      evaluate := fun q =>
        if q.length ≠ nVars then .error (.incorrectQuerySize nVars q.length)
        else match indices.mapM fun i => q[i]? with
          | some sub => c.evaluate sub
          | none => .error .panic }

/-- `GrandProductClaim`, `gkr_gpa.rs:13-16`. -/
structure GrandProductClaim (F : Type) where
  nVars : Nat
  product : F

/-- `LayerClaim`, `gkr_gpa.rs:118-121`. -/
structure LayerClaim (F : Type) where
  evalPoint : List F
  eval : F

/-- `extrapolate_line_scalar`, `math/src/univariate.rs:255-261`. -/
def extrapolateLineScalar (x0 x1 z : F) : F := x0 + (x1 - x0) * z

/-- `chunks_exact(2)`. -/
def chunks2 {A : Type} : List A → List (A × A)
  | a :: b :: l => (a, b) :: chunks2 l
  | _ => []

/-- The composite sum of the `i`-th claim, `verify.rs:134-145`, `prove.rs:219-224`. -/
def layerSum (nMultilinears i : Nat) (eval : F) : Except Error (CompositeSum F) :=
  match indexComposition nMultilinears [2 * i, 2 * i + 1] (productOf 2) with
  | .ok c => .ok ⟨c, eval⟩
  | .error e => .error e

/-- The composite sums of a layer, `verify.rs:131-147`. -/
def layerSums (nMultilinears : Nat) (evals : List F) : Except Error (List (CompositeSum F)) :=
  collect (evals.zipIdx.map fun p => layerSum nMultilinears p.2 p.1)

/-- `reduce_layer_claim_batch`, `verify.rs:106-188`. -/
def reduceLayerClaimBatch (order : EvaluationOrder) (claims : List (LayerClaim F)) :
    P F (List (LayerClaim F)) :=
  match claims with
  | [] => .ret []
  | first :: _ =>
      let current := first.evalPoint
      if (claims.all fun c => decide (c.evalPoint = current)) = false then
        .fail .mismatchedEvalPointLength
      else
        let nVars := current.length
        let nMultilinears := 2 * claims.length
        (Prog.ofExcept (layerSums nMultilinears (claims.map fun c => c.eval))).bind fun sums =>
          (Prog.ofExcept (EqIndClaim.new nVars nMultilinears sums)).bind fun claim =>
            (eqIndVerify order .descendingVars [claim] current).bind fun out =>
              .sample fun gpaChallenge =>
                let point := out.challenges ++ [gpaChallenge]
                match out.multilinearEvals with
                | [] => .fail .panic
                | evals :: _ => .ret ((chunks2 evals).map fun p =>
                    ⟨point, extrapolateLineScalar p.1 p.2 gpaChallenge⟩)

/-- `process_finished_claims`, `verify.rs:78-97`. The three vectors are given with their last entry
first. An empty `layer_claims` is a panic. -/
def processFinishedClaims (layerNo : Nat) : (sorted : List (GrandProductClaim F)) →
    (layer : List (LayerClaim F)) → (done : List (LayerClaim F)) →
    Except Error (List (GrandProductClaim F) × List (LayerClaim F) × List (LayerClaim F))
  | [], layer, done => .ok ([], layer, done)
  | c :: sorted, layer, done =>
      if c.nVars ≠ layerNo then .ok (c :: sorted, layer, done)
      else match layer with
        | [] => .error .panic
        | l :: layer => processFinishedClaims layerNo sorted layer (l :: done)

/-- The loop over the layers, `verify.rs:52-69`, by the number of layers left; `sorted` and `layer` are
given with their last entry first, and `done`, too. -/
def verifyLayers (order : EvaluationOrder) : (left layerNo : Nat) →
    (sorted : List (GrandProductClaim F)) → (layer done : List (LayerClaim F)) →
    P F (List (LayerClaim F))
  | 0, layerNo, sorted, layer, done =>
      (Prog.ofExcept (processFinishedClaims layerNo sorted layer done)).bind fun q => .ret q.2.2
  | left + 1, layerNo, sorted, layer, done =>
      (Prog.ofExcept (processFinishedClaims layerNo sorted layer done)).bind fun q =>
        (reduceLayerClaimBatch order q.2.1.reverse).bind fun layer =>
          verifyLayers order left (layerNo + 1) q.1 layer.reverse q.2.2

/-- `batch_verify`, `verify.rs:24-76`. `verifyLayers` returns the final claims with the last one pushed
first, which is the order after `reverse()`. -/
def gpaBatchVerify (order : EvaluationOrder) (claims : List (GrandProductClaim F)) :
    P F (List (LayerClaim F)) :=
  let s := Verif.Sorting.stableSort claims (fun c => c.nVars) true
  let maxNVars := match s.2 with | [] => 0 | c :: _ => c.nVars
  let layer := s.2.map fun c => (⟨[], c.product⟩ : LayerClaim F)
  (verifyLayers order maxNVars 0 s.2.reverse layer.reverse []).bind fun done =>
    .ret (Verif.Sorting.unsort s.1 done)

/-! ## The prover -/

/-- `GrandProductProverState`, `prove.rs:171-180`: the layers not used yet, largest first, and the
claimed evaluation. -/
structure ProverState (F : Type) where
  remaining : List (List (Packed F))
  layerEval : F

/-- `GrandProductProverState::new`, `prove.rs:188-208`. -/
def ProverState.new (claim : GrandProductClaim F) (witness : List (List (Packed F))) :
    Except Error (ProverState F) :=
  match grandProductEvaluation witness with
  | none => .error .panic
  | some product =>
      if claim.nVars ≠ witnessNVars witness ∨ product ≠ claim.product then
        .error .proverClaimWitnessMismatch
      else .ok ⟨witness.dropLast, claim.product⟩

/-- The two halves of a layer, `prove.rs:233-253`. -/
def halves (w nVars : Nat) (layer : List (Packed F)) : List (Packed F) × List (Packed F) :=
  if nVars ≥ w ∧ layer.length < 2 ^ (nVars - w) then (layer, [])
  else if nVars ≥ w then (layer.take (2 ^ (nVars - w)), layer.drop (2 ^ (nVars - w)))
  else
    let only : Packed F := match layer with | [] => fun _ => 1 | p :: _ => p
    let copy (shift : Nat) : Packed F :=
      (List.range (2 ^ nVars)).foldl (fun acc i => acc.set i (only (i ||| shift))) fun _ => 0
    ([copy 0], [copy (2 ^ nVars)])

/-- `suffix_len`, `prove.rs:256`. -/
def suffixLen (w nVars : Nat) (multilinear : List (Packed F)) : Nat :=
  2 ^ nVars - multilinear.length * 2 ^ w

/-- `EqIndSumcheckProverBuilder::without_switchover(…).with_const_suffixes(…)?.build(…)`,
`prove.rs:262-269`: it is given the number of variables, the multilinears with the lengths of their
suffixes of ones, the challenges of the equality indicator and the composite claims. What the prover
computes is not modelled here. -/
abbrev ProverBuilder (F : Type) := (nVars : Nat) → (multilinears : List (List (Packed F) × Nat)) →
  (eqIndChallenges : List F) → (claims : List (CompositeSum F)) → Except Error (SumcheckProver F)

/-- The states after their last layer has been taken, with these layers, `prove.rs:226-231`. No layer
left is a panic. -/
def popLayers : List (ProverState F) → Except Error (List (List (Packed F) × ProverState F))
  | [] => .ok []
  | s :: ss =>
      match s.remaining.getLast? with
      | none => .error .panic
      | some layer =>
          match popLayers ss with
          | .ok l => .ok ((layer, { s with remaining := s.remaining.dropLast }) :: l)
          | .error e => .error e

/-- `stage_sumcheck_provers`, `prove.rs:210-272`: the prover, and the states after taking a layer. -/
def stage (w : Nat) (build : ProverBuilder F) (states : List (ProverState F)) (point : List F) :
    Except Error (SumcheckProver F × List (ProverState F)) :=
  match layerSums (2 * states.length) (states.map fun s => s.layerEval) with
  | .error e => .error e
  | .ok sums =>
      match popLayers states with
      | .error e => .error e
      | .ok popped =>
          let multilinears := popped.flatMap fun p =>
            let h := halves w point.length p.1
            [(h.1, suffixLen w point.length h.1), (h.2, suffixLen w point.length h.2)]
          match build point.length multilinears point sums with
          | .ok pr => .ok (pr, popped.map Prod.snd)
          | .error e => .error e

/-- `finalize`, `prove.rs:278-287`. -/
def ProverState.finalize (s : ProverState F) (point : List F) : Except Error (LayerClaim F) :=
  if s.remaining ≠ [] then .error .prematureFinalize else .ok ⟨point, s.layerEval⟩

/-- `process_finished_provers`, `prove.rs:145-163`. `partition_point` on a slice in which the states
with layers left come first is the number of these; the claims pushed are returned with the last one
pushed first. -/
def processFinishedProvers (states : List (ProverState F)) (point : List F) (done : List (LayerClaim F)) :
    Except Error (List (ProverState F) × List (LayerClaim F)) :=
  let live := states.takeWhile fun s => !s.remaining.isEmpty
  match collect ((states.drop live.length).map fun s => s.finalize point) with
  | .ok l => .ok (live, l ++ done)
  | .error e => .error e

/-- The `loop` of `batch_prove`, `prove.rs:70-128`, with `fuel` iterations at most (running out of
them is a panic here). After the loop there are no states left, so the last call of
`process_finished_provers`, 129-133, does nothing. -/
def proveLayers (w : Nat) (order : EvaluationOrder) (build : ProverBuilder F) : (fuel : Nat) →
    (states : List (ProverState F)) → (point : List F) → (done : List (LayerClaim F)) →
    PP F (List (LayerClaim F))
  | 0, _, _, _ => .fail .panic
  | fuel + 1, states, point, done =>
      (PProg.ofExcept (processFinishedProvers states point done)).bind fun q =>
        if q.1.isEmpty then .ret q.2
        else
          (PProg.ofExcept (stage w build q.1 point)).bind fun st =>
            (eqIndProve order [st.1]).bind fun out =>
              .sample fun gpaChallenge =>
                -- `copy_from_slice` panics
                if point.length ≠ out.challenges.length then .fail .panic
                else match out.multilinearEvals with
                  | [] => .fail .panic
                  | evals :: _ =>
                      let updated := List.zipWith (fun (s : ProverState F) (e : F × F) =>
                        { s with layerEval := extrapolateLineScalar e.1 e.2 gpaChallenge }) st.2 (chunks2 evals)
                      -- states beyond the shorter of the two lists keep their evaluation
                      proveLayers w order build fuel (updated ++ st.2.drop (chunks2 evals).length)
                        (out.challenges ++ [gpaChallenge]) q.2

/-- `batch_prove`, `prove.rs:33-143`, on witnesses made by `GrandProductWitness::new`. -/
def gpaBatchProve (w : Nat) (order : EvaluationOrder) (build : ProverBuilder F)
    (witnesses : List (List (List (Packed F)))) (claims : List (GrandProductClaim F)) :
    PP F (List (LayerClaim F)) :=
  if witnesses.length ≠ claims.length then .fail .mismatchedWitnessClaimLength
  else
    (PProg.ofExcept (collect (List.zipWith (fun w c => ProverState.new c w) witnesses claims))).bind fun states =>
      let s := Verif.Sorting.stableSort states (fun s => s.remaining.length) true
      let fuel := (match s.2 with | [] => 0 | c :: _ => c.remaining.length) + 1
      (proveLayers w order build fuel s.2 [] []).bind fun done =>
        .ret (Verif.Sorting.unsort s.1 done)

end Verif.Gkr
