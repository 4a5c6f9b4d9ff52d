import Verif.RingSwitch.ModelTensor
import Verif.Evalcheck.ModelEvalcheck
import Verif.Piop.ModelCommit
import Verif.Protocol.ModelProg
import Verif.Math.ModelFold

/-! Model of crates/core/src/ring_switch: common.rs, eq_ind.rs, verify.rs and prove.rs, and of the two functions of the
CPU compute layer that the prover uses.

A tensor algebra element that the verifier reads is one message.  Tracing is left out. -/

set_option linter.dupNamespace false

namespace Verif.RingSwitch

open Finset Verif.Protocol
open Verif.Oracle (OracleSet)
open Verif.Piop (SparseIndex CommitMeta PiopClaim isCommitted)
open Verif.Evalcheck (Claim)

variable {F : Type}

/-! ## The claims -/

/-- `EvalClaimSuffixDesc`, ring_switch/common.rs:35-38. -/
structure SuffixDesc (F : Type) where
  suffix : List F
  kappa : Nat

/-- `PIOPSumcheckClaimDesc`, ring_switch/common.rs:42-48. -/
structure ClaimDesc (F : Type) where
  committedIdx : Nat
  suffixIdx : Nat
  claim : Claim F

/-- `EvalClaimSystem`, ring_switch/common.rs:55-61; a prefix description is the prefix. -/
structure System (F : Type) where
  commitMeta : CommitMeta
  prefixes : List (List F)
  suffixes : List (SuffixDesc F)
  claims : List (ClaimDesc F)
  toPrefix : List Nat

/-- The sort key, ring_switch/common.rs:81-94: the indexing panics. -/
def sortKey (os : OracleSet F) (c : Claim F) : Option Nat :=
  (os.get c.id).map fun o => if isCommitted o then o.nVars + o.towerLevel else 0

/-- The keys of all claims. -/
def sortKeys (os : OracleSet F) : List (Claim F) → Option (List (Nat × Claim F))
  | [] => some []
  | c :: cs => (sortKey os c).bind fun k => (sortKeys os cs).map fun l => (k, c) :: l

/-- The stable sort, ring_switch/common.rs:80-94. -/
def sortClaims (os : OracleSet F) (claims : List (Claim F)) : Option (List (Claim F)) :=
  (sortKeys os claims).map fun l => (l.mergeSort fun a b => decide (a.1 ≤ b.1)).map Prod.snd

/-- The split of the evaluation point, ring_switch/common.rs:169-178. -/
def splitPoint [Zero F] (kappa : Nat) (point : List F) : List F × List F :=
  if point.length < kappa then (point ++ List.replicate (kappa - point.length) 0, [])
  else (point.take kappa, point.drop kappa)

/-- `position` and, if there is none, `push`, ring_switch/common.rs:180-187, 190-200. -/
def findOrPush {A : Type} (l : List A) (p : A → Bool) (a : A) : Nat × List A :=
  match l.findIdx? p with
  | some i => (i, l)
  | none => (l.length, l ++ [a])

/-- The variables of the loop of `group_claims_by_eval_point`, ring_switch/common.rs:148-151. -/
structure Groups (F : Type) where
  prefixes : List (List F)
  suffixes : List (SuffixDesc F)
  toPrefix : List Nat
  toSuffix : List Nat

/-- One step of the loop of `group_claims_by_eval_point`, ring_switch/common.rs:152-202. -/
def groupStep [Zero F] [DecidableEq F] (os : OracleSet F) (g : Groups F) (c : Claim F) : Except RsError (Groups F) :=
  match os.get c.id with
  | none => .error .panic
  | some o =>
    if isCommitted o = false then .error (.evalcheckClaimForDerivedPoly c.id)
    else if 7 < o.towerLevel then .error (.oracleTowerLevelTooHigh c.id)
    else
      let kappa := 7 - o.towerLevel
      let ps := splitPoint kappa c.point
      let a := findOrPush g.prefixes (fun q => decide (q = ps.1)) ps.1
      let b := findOrPush g.suffixes (fun d => decide (d.suffix = ps.2 ∧ d.kappa = kappa)) ⟨ps.2, kappa⟩
      .ok ⟨a.2, b.2, g.toPrefix ++ [a.1], g.toSuffix ++ [b.1]⟩

/-- The loop of `group_claims_by_eval_point`, ring_switch/common.rs:143-205. -/
def groupLoop [Zero F] [DecidableEq F] (os : OracleSet F) : List (Claim F) → Groups F → Except RsError (Groups F)
  | [], g => .ok g
  | c :: cs, g => match groupStep os g c with
    | .error e => .error e
    | .ok g' => groupLoop os cs g'

/-- The descriptions of the claims, ring_switch/common.rs:103-122, with the suffix indices (the indexing panics). -/
def makeDescs (os : OracleSet F) (index : SparseIndex Nat) :
    List (Claim F) → List Nat → Except RsError (List (ClaimDesc F))
  | [], _ => .ok []
  | c :: cs, idx => match os.get c.id with
    | none => .error .panic
    | some o =>
      if isCommitted o = false then .error (.evalcheckClaimForDerivedPoly c.id)
      else match index c.id with
        | none => .error (.oracleToCommitIndexMissingEntry c.id)
        | some ci => match idx with
          | [] => .error .panic
          | s :: idx => match makeDescs os index cs idx with
            | .error e => .error e
            | .ok ds => .ok (⟨ci, s, c⟩ :: ds)

/-- `EvalClaimSystem::new`, ring_switch/common.rs:72-131. -/
def newSystem [Zero F] [DecidableEq F] (os : OracleSet F) (m : CommitMeta) (index : SparseIndex Nat)
    (claims : List (Claim F)) : Except RsError (System F) :=
  match sortClaims os claims with
  | none => .error .panic
  | some sorted => match groupLoop os sorted ⟨[], [], [], []⟩ with
    | .error e => .error e
    | .ok g => match makeDescs os index sorted g.toSuffix with
      | .error e => .error e
      | .ok ds => .ok ⟨m, g.prefixes, g.suffixes, ds, g.toPrefix⟩

/-- `max_claim_kappa`, ring_switch/common.rs:133-139. -/
def System.maxKappa (sys : System F) : Nat := (sys.prefixes.map List.length).foldl max 0

/-! ## The transparent polynomials -/

/-- `RingSwitchEqInd`, ring_switch/eq_ind.rs:41-47; the level is the type parameter `FSub`. -/
structure EqInd (F : Type) where
  level : Level
  z : List F
  coeffs : List F
  mix : F

section
variable [Field F] [DecidableEq F]

/-- `RingSwitchEqInd::new`, ring_switch/eq_ind.rs:60-79. -/
def EqInd.new (level : Level) (z coeffs : List F) (mix : F) : Except RsError (EqInd F) :=
  if coeffs.length < 2 ^ level.kappa then .error .invalidArgs else .ok ⟨level, z, coeffs, mix⟩

/-- The step of the fold of `evaluate`, ring_switch/eq_ind.rs:173-179. -/
def evalStep (c : Coords F) (kappa : Nat) (t : Nat → F) (zq : F × F) : Nat → F :=
  addElems (addElems t (scaleVertical t zq.1)) (scaleHorizontal c kappa t zq.2)

/-- `RingSwitchEqInd::evaluate`, ring_switch/eq_ind.rs:163-184. -/
def EqInd.evaluate (tw : Tower F) (p : EqInd F) (query : List F) : Except RsError F :=
  if query.length ≠ p.z.length then .error .polynomial
  else .ok (foldVertical (tw p.level) p.level.kappa
    ((p.z.zip query).foldl (evalStep (tw p.level) p.level.kappa) (fromVertical p.mix)) p.coeffs)

/-- The body of the loop of `tensor_expand`, crates/compute/src/cpu/layer.rs:293-299: `n` is `1 << (log_n + i)`. -/
def expandStep (n : Nat) (r : F) (data : List F) : List F :=
  let lhs := data.take n
  let rhs := (data.drop n).take n
  List.zipWith (fun x _ => x - x * r) lhs rhs ++ List.zipWith (fun x y => y + x * r) lhs rhs ++ data.drop (2 * n)

/-- The loop of `tensor_expand`, crates/compute/src/cpu/layer.rs:292-300, from coordinate `i`; `n` is `log_n + i`. -/
def expandLoop : Nat → List F → List F → List F
  | _, [], data => data
  | n, r :: rs, data => expandLoop (n + 1) rs (expandStep (2 ^ n) r data)

/-- `tensor_expand` of the CPU layer, crates/compute/src/cpu/layer.rs:282-302. -/
def tensorExpand (logN : Nat) (coordinates data : List F) : Except RsError (List F) :=
  if data.length ≠ 2 ^ (logN + coordinates.length) then .error .compute
  else .ok (expandLoop logN coordinates data)

/-- `compute_right_fold`, crates/compute/src/cpu/layer.rs:628-675, with `fold_right`, 260-280: `kappa` is
`F::TOWER_LEVEL - tower_level`; the logarithm of zero and the subtraction panic. -/
def rightFold (c : Coords F) (kappa : Nat) (mat query : List F) (outLen : Nat) : Except RsError (List F) :=
  let evals := mat.flatMap fun x => (List.range (2 ^ kappa)).map (c.coord x)
  let logEvals := Nat.log2 mat.length + kappa
  let logQuery := Nat.log2 query.length
  if mat.length = 0 ∨ query.length = 0 ∨ logEvals < logQuery then .error .panic
  else
    let rows := 2 ^ logQuery
    let cols := 2 ^ (logEvals - logQuery)
    if evals.length ≠ cols * rows ∨ query.length ≠ rows ∨ outLen ≠ cols then .error .compute
    else .ok ((List.range cols).map fun i =>
      ∑ j ∈ range rows, query[j]?.getD 0 * evals[i * rows + j]?.getD 0)

/-- `precompute_values`, ring_switch/eq_ind.rs:81-122, and `multilinear_extension`, 124-147, on the CPU layer; `mem` is what
the allocated memory for `evals` holds.  The slice `[0..extension_degree]` panics when there are too few coefficients. -/
def EqInd.multilinearExtension (tw : Tower F) (p : EqInd F) (mem : List F) : Except RsError (List F) :=
  if p.coeffs.length < 2 ^ p.level.kappa then .error .panic
  else if mem.length ≠ 2 ^ p.z.length then .error .compute
  else match tensorExpand 0 p.z (p.mix :: mem.tail) with
    | .error e => .error e
    | .ok evals => rightFold (tw p.level) p.level.kappa evals (p.coeffs.take (2 ^ p.level.kappa)) evals.length

/-! ## The verifier -/

/-- `sample_vec`, crates/core/src/fiat_shamir/mod.rs:14-16. -/
def sampleVec : Nat → Prog F RsError (List F)
  | 0 => .ret []
  | n + 1 => .sample fun x => (sampleVec n).bind fun xs => .ret (x :: xs)

/-- `MultilinearQuery::expand(..).into_expansion()`, ring_switch/verify.rs:43, 53 and prove.rs:79, 99, for the packing of
width one (C17). -/
def expandQuery (challenges : List F) : Except RsError (List F) :=
  match Tensor.eqIndPartialEval 0 challenges with
  | none => .error .panic
  | some s => .ok ((List.range s.size).map s.val)

/-- `log2_ceil_usize` with `min_bits`, crates/utils/src/checked_arithmetics.rs:40-50. -/
def log2Ceil (n : Nat) : Nat := Nat.size (n - 1)

/-- The loop of `accumulate_evaluations_by_prefixes`, ring_switch/verify.rs:157-170: the indexing panics. -/
def accumulate : List F → List Nat → List F → Except RsError (List F)
  | e :: es, j :: js, acc => if j < acc.length then accumulate es js (acc.modify j (· + e)) else .error .panic
  | _, _, acc => .ok acc

/-- `compute_mixed_evaluations`, ring_switch/verify.rs:141-155, on the claims, 109-117. -/
def mixedEvaluations (sys : System F) (mix : List F) : Except RsError (List F) :=
  accumulate (List.zipWith (fun (d : ClaimDesc F) c => d.claim.eval * c) sys.claims mix) sys.toPrefix
    (List.replicate sys.prefixes.length 0)

/-- The evaluation of the tensor element, ring_switch/verify.rs:125-130; both `expect`s panic. -/
def evalElem (t : TElem F) (pre : List F) : Except RsError F :=
  match Tensor.Mlx.new 0 pre.length (⟨2 ^ t.level.kappa, t.elem⟩ : Slice F), Tensor.Query.expand 0 pre with
  | .ok m, some q => match m.evaluate id 0 0 q with
    | some (.ok e) => .ok e
    | _ => .error .panic
  | _, _ => .error .panic

/-- The loop of `verify_receive_tensor_elems`, ring_switch/verify.rs:119-136. -/
def receiveLoop : List (List F × F) → Prog F RsError (List (TElem F))
  | [] => .ret []
  | (pre, expected) :: l => .read (2 ^ pre.length) fun m =>
    (Prog.ofExcept (TElem.new pre.length m)).bind fun t =>
    (Prog.ofExcept (evalElem t pre)).bind fun e =>
    if e ≠ expected then .fail .incorrectEvaluation
    else (receiveLoop l).bind fun ts => .ret (t :: ts)

/-- `verify_receive_tensor_elems`, ring_switch/verify.rs:100-139. -/
def receiveTensorElems (sys : System F) (mix : List F) : Prog F RsError (List (TElem F)) :=
  (Prog.ofExcept (mixedEvaluations sys mix)).bind fun expected => receiveLoop (sys.prefixes.zip expected)

/-- The loop over the row-batched evaluations, ring_switch/verify.rs:68-72. -/
def checkRows (tw : Tower F) (rows : List F) : List (F × TElem F) → Bool
  | [] => true
  | (expected, t) :: l => if t.fold tw rows ≠ expected then false else checkRows tw rows l

/-- `make_ring_switch_eq_ind`, ring_switch/verify.rs:189-235. -/
def makeEqInd (s : SuffixDesc F) (rows : List F) (mix : F) : Except RsError (EqInd F) :=
  match levelOf s.kappa with
  | .error e => .error e
  | .ok l => EqInd.new l s.suffix rows mix

/-- `make_ring_switch_eq_inds`, ring_switch/verify.rs:172-187: the indexing panics. -/
def makeEqInds (suffixes : List (SuffixDesc F)) (rows : List F) :
    List (ClaimDesc F × F) → Except RsError (List (EqInd F))
  | [] => .ok []
  | (d, mix) :: l => match suffixes[d.suffixIdx]? with
    | none => .error .panic
    | some s => match makeEqInd s rows mix with
      | .error e => .error e
      | .ok p => match makeEqInds suffixes rows l with
        | .error e => .error e
        | .ok ps => .ok (p :: ps)

/-- The sumcheck claims, ring_switch/verify.rs:81-92 and prove.rs:127-138, from index `i` on: the indexing panics. -/
def makeClaims (suffixes : List (SuffixDesc F)) : Nat → List (ClaimDesc F × F) → Except RsError (List (PiopClaim F))
  | _, [] => .ok []
  | i, (d, e) :: l => match suffixes[d.suffixIdx]? with
    | none => .error .panic
    | some s => match makeClaims suffixes (i + 1) l with
      | .error e => .error e
      | .ok cs => .ok (⟨s.suffix.length, d.committedIdx, i, e⟩ :: cs)

/-- `ReducedClaim`, ring_switch/verify.rs:26-29. -/
structure Reduced (F : Type) where
  transparents : List (EqInd F)
  claims : List (PiopClaim F)

/-- The end of `verify`, ring_switch/verify.rs:61-97. -/
def finishVerify (tw : Tower F) (sys : System F) (mix rows : List F) (ts : List (TElem F)) (evals : List F) :
    Except RsError (Reduced F) :=
  match accumulate evals sys.toPrefix (List.replicate sys.prefixes.length 0) with
  | .error e => .error e
  | .ok sums =>
    if checkRows tw rows (sums.zip ts) = false then .error .incorrectRowBatchedSum
    else match makeEqInds sys.suffixes rows (sys.claims.zip mix) with
      | .error e => .error e
      | .ok ps => match makeClaims sys.suffixes 0 (sys.claims.zip evals) with
        | .error e => .error e
        | .ok cs => .ok ⟨ps, cs⟩

/-- `verify`, ring_switch/verify.rs:31-98. -/
def verify (tw : Tower F) (sys : System F) : Prog F RsError (Reduced F) :=
  (sampleVec (log2Ceil sys.claims.length)).bind fun r =>
  (Prog.ofExcept (expandQuery r)).bind fun mix =>
  (receiveTensorElems sys mix).bind fun ts =>
  (sampleVec sys.maxKappa).bind fun rho =>
  (Prog.ofExcept (expandQuery rho)).bind fun rows =>
  .read sys.claims.length fun evals =>
  Prog.ofExcept (finishVerify tw sys mix rows ts evals)

/-! ## The prover -/

/-- A multilinear witness: its number of variables and its values on the hypercube, as elements of the top field. -/
structure Witness (F : Type) where
  nVars : Nat
  value : Nat → F

/-- `MultilinearPoly::evaluate_partial_high`, crates/math/src/multilinear_extension.rs:253-279, and the result of
`fold_left` (C18): the values of the partial evaluation. -/
def partialHigh (W : Witness F) (query : List F) : Except RsError (Witness F) :=
  match expandQuery query with
  | .error e => .error e
  | .ok q =>
    if W.nVars < query.length then .error .math
    else .ok ⟨W.nVars - query.length, fun x =>
      ∑ t ∈ range (2 ^ query.length), q[t]?.getD 0 * W.value (t * 2 ^ (W.nVars - query.length) + x)⟩

/-- `take` and `cycle`, ring_switch/prove.rs:179-201: the first `2^kappa` values, repeated if there are fewer. -/
def cycled (kappa : Nat) (W : Witness F) : List F :=
  let n := min (2 ^ kappa) (2 ^ W.nVars)
  if n < 2 ^ kappa then (List.range (2 ^ kappa)).map fun i => W.value (i % n)
  else (List.range n).map W.value

/-- One element of `compute_partial_evals`, ring_switch/prove.rs:169-203; `memo` is `memoized_data.partial_eval`. -/
def partialEval (sys : System F) (witnesses : List (Witness F)) (memo : Nat → List F → Option (Witness F))
    (d : ClaimDesc F) : Except RsError (TElem F) :=
  match sys.suffixes[d.suffixIdx]? with
  | none => .error .panic
  | some s => match memo d.claim.id s.suffix with
    | some W => TElem.new s.kappa (cycled s.kappa W)
    | none => match witnesses[d.committedIdx]? with
      | none => .error .panic
      | some W => match partialHigh W s.suffix with
        | .error e => .error e
        | .ok W' => TElem.new s.kappa (cycled s.kappa W')

/-- A fallible map that stops at the first error. -/
def mapE {A B : Type} (f : A → Except RsError B) : List A → Except RsError (List B)
  | [] => .ok []
  | a :: l => match f a with
    | .error e => .error e
    | .ok b => match mapE f l with
      | .error e => .error e
      | .ok bs => .ok (b :: bs)

/-- The loop of `mix_tensor_elems_for_prefixes`, ring_switch/prove.rs:242-248: the indexing panics. -/
def mixLoop : List (TElem F) → List Nat → List (TElem F) → Except RsError (List (TElem F))
  | t :: ts, j :: js, acc => match acc[j]? with
    | none => .error .panic
    | some u => match u.addAssign t with
      | .error e => .error e
      | .ok u' => mixLoop ts js (acc.set j u')
  | _, _, acc => .ok acc

/-- `mix_tensor_elems_for_prefixes`, ring_switch/prove.rs:227-250. -/
def mixTensors (sys : System F) (ts : List (TElem F)) : Except RsError (List (TElem F)) :=
  if ts.length ≠ sys.toPrefix.length then .error .panic
  else match mapE (fun p => TElem.zero p.length) sys.prefixes with
    | .error e => .error e
    | .ok zs => mixLoop ts sys.toPrefix zs

/-- `compute_partial_evals`, `scale_tensor_elems` and `mix_tensor_elems_for_prefixes`, ring_switch/prove.rs:82-88, 210-225. -/
def proveTensors (sys : System F) (witnesses : List (Witness F)) (memo : Nat → List F → Option (Witness F))
    (mix : List F) : Except RsError (List (TElem F) × List (TElem F)) :=
  match mapE (partialEval sys witnesses memo) sys.claims with
  | .error e => .error e
  | .ok ts =>
    if mix.length < ts.length then .error .panic
    else
      let scaled := List.zipWith (fun (t : TElem F) c => t.scale c) ts mix
      match mixTensors sys scaled with
      | .error e => .error e
      | .ok mixed => .ok (scaled, mixed)

/-- The writes of the mixed elements, ring_switch/prove.rs:91-94. -/
def writeTensors : List (TElem F × List F) → PProg F RsError Unit
  | [] => .ret ()
  | (t, _) :: l => .write t.verticalElems (writeTensors l)

/-- `make_ring_switch_eq_inds`, ring_switch/prove.rs:266-324, and `make_ring_switch_eq_ind`, 326-382; the elements of `mems`
are the memory allocated for each claim. -/
def proveEqInds (tw : Tower F) (suffixes : List (SuffixDesc F)) (rows : List F) :
    List (ClaimDesc F × F) → List (List F) → Except RsError (List (List F))
  | [], _ => .ok []
  | _ :: _, [] => .error .compute
  | (d, mix) :: l, mem :: mems => match suffixes[d.suffixIdx]? with
    | none => .error .panic
    | some s => match makeEqInd s rows mix with
      | .error e => .error e
      | .ok p => match p.multilinearExtension tw mem with
        | .error e => .error e
        | .ok vals => match proveEqInds tw suffixes rows l mems with
          | .error e => .error e
          | .ok r => .ok (vals :: r)

/-- `ReducedWitness`, ring_switch/prove.rs:37-40. -/
structure ReducedWitness (F : Type) where
  transparents : List (List F)
  claims : List (PiopClaim F)

/-- `sample_vec` of the prover, crates/core/src/fiat_shamir/mod.rs:14-16. -/
def pSampleVec : Nat → PProg F RsError (List F)
  | 0 => .ret []
  | n + 1 => .sample fun x => (pSampleVec n).bind fun xs => .ret (x :: xs)

/-- The end of `prove`, ring_switch/prove.rs:116-143. -/
def finishProve (tw : Tower F) (sys : System F) (mix rows evals : List F) (mems : List (List F)) :
    Except RsError (ReducedWitness F) :=
  match proveEqInds tw sys.suffixes rows (sys.claims.zip mix) mems with
  | .error e => .error e
  | .ok ps => match makeClaims sys.suffixes 0 (sys.claims.zip evals) with
    | .error e => .error e
    | .ok cs => .ok ⟨ps, cs⟩

/-- `prove`, ring_switch/prove.rs:42-144. -/
def prove (tw : Tower F) (sys : System F) (witnesses : List (Witness F)) (memo : Nat → List F → Option (Witness F))
    (mems : List (List F)) : PProg F RsError (ReducedWitness F) :=
  if witnesses.length ≠ sys.commitMeta.totalMultilins then .fail .invalidWitness
  else
    (pSampleVec (log2Ceil sys.claims.length)).bind fun r =>
    (PProg.ofExcept (expandQuery r)).bind fun mix =>
    (PProg.ofExcept (proveTensors sys witnesses memo mix)).bind fun ts =>
    (writeTensors (ts.2.zip sys.prefixes)).bind fun _ =>
    (pSampleVec sys.maxKappa).bind fun rho =>
    (PProg.ofExcept (expandQuery rho)).bind fun rows =>
    let evals := ts.1.map fun t => t.fold tw rows
    .write evals (PProg.ofExcept (finishProve tw sys mix rows evals mems))

/-! ## The packed polynomials -/

/-- `packed_committed`, core/src/piop/prove.rs:461-485, with `padded_packed_eval`, 487-508: the values of the packed
polynomial of a witness over a subfield. -/
def packedCommitted (c : Coords F) (kappa : Nat) (W : Witness F) : Nat → F :=
  if W.nVars < kappa then fun _ => ∑ i ∈ range (2 ^ kappa), W.value (i % 2 ^ W.nVars) * c.basis i
  else fun u => ∑ i ∈ range (2 ^ kappa), W.value (u * 2 ^ kappa + i) * c.basis i

end

end Verif.RingSwitch
