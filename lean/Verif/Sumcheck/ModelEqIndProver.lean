import Verif.Sumcheck.ModelProverState
import Verif.Sumcheck.ModelEqInd
import Verif.Transparent.ModelTransparent

/-!
# The sumcheck prover with an equality indicator (model)

`crates/core/src/protocols/sumcheck/prove/{eq_ind.rs, common.rs}`, and the constant suffixes of
`crates/hal/src/sumcheck_multilinear.rs`.  The conventions are those of `ModelProverState`.  `chk` tells whether the code is
compiled with overflow checks.  The validation of the witness behind the feature `debug_validate_sumcheck` is left out.
-/

namespace Verif.Sumcheck

open Verif.Univariate Verif.Tensor Verif.Fold
open Verif.Arith (Circuit)

variable {F D : Type} [Field F] [DecidableEq F] [Field D] [DecidableEq D]

/-! ## The expanded equality indicator -/

/-- `eq_ind_expand`, eq_ind.rs:430-443: the variable of the first round is left out. -/
def eqIndExpand (w : Nat) (order : EvaluationOrder) (challenges : List F) : Option (Slice F) :=
  match order with
  | .lowToHigh => eqIndPartialEval w (challenges.drop (min challenges.length 1))
  | .highToLow => eqIndPartialEval w (challenges.take (challenges.length - 1))

/-- `fold_partial_eq_ind`, common.rs:13-71.  A lane out of range panics. -/
def foldPartialEqInd (w : Nat) (order : EvaluationOrder) (n : Nat) (evals : Slice F) : Option (Slice F) :=
  if n = 0 then some evals
  else if packedLen w evals = 1 then
    if n > w then none
    else some ⟨2 ^ w, fun i => if i < 2 ^ (n - 1) then
      match order with
      | .lowToHigh => evals.val (i <<< 1) + evals.val (i <<< 1 ||| 1)
      | .highToLow => evals.val i + evals.val (i ||| 1 <<< (n - 1)) else 0⟩
  else
    let len := packedLen w evals / 2 * 2 ^ w
    match order with
    | .lowToHigh => some ⟨len, fun i => evals.val (i <<< 1) + evals.val (i <<< 1 ||| 1)⟩
    | .highToLow => some ⟨len, fun i => evals.val i + evals.val (len + i)⟩

/-! ## Constant suffixes -/

/-- `SumcheckMultilinear::const_suffix`, hal/src/sumcheck_multilinear.rs:46-57. -/
def SumMultilin.constSuffix (w n : Nat) : SumMultilin F → F × Nat
  | .transparent _ _ _ suffix => suffix
  | .folded evals sv => (sv, 2 ^ n - packedLen w evals * 2 ^ w)

/-- `SumcheckMultilinear::update_const_suffix`, hal/src/sumcheck_multilinear.rs:59-75; the caller has checked that the suffix is
not longer than the table. -/
def SumMultilin.updateConstSuffix (w n : Nat) (suffix : F × Nat) : SumMultilin F → SumMultilin F
  | .transparent N t so _ => .transparent N t so suffix
  | .folded evals _ => .folded ⟨min (packedLen w evals) (divCeil (2 ^ n - suffix.2) (2 ^ w)) * 2 ^ w, evals.val⟩ suffix.1

/-- `ConstEvalSuffix`, eq_ind.rs:359-364. -/
structure ConstSuffix (F : Type) where
  len : Nat
  value : F
  atInf : F

/-- `ConstEvalSuffix::update`, eq_ind.rs:366-376; the subtractions panic on underflow. -/
def ConstSuffix.update (order : EvaluationOrder) (n : Nat) (c : ConstSuffix F) : Except Error (ConstSuffix F) :=
  if n = 0 ∨ c.len > 2 ^ n then .error .panic
  else
    let p := 2 ^ n - c.len
    .ok { c with len := 2 ^ (n - 1) - match order with
      | .lowToHigh => divCeil p 2
      | .highToLow => min p (2 ^ (n - 1)) }

/-- The inner loop of `determine_const_eval_suffixes`, eq_ind.rs:483-506.  Ill-formed expressions and, with overflow checks,
overflowing exponents panic. -/
def suffixLoop (chk : Bool) (exprVars infVars : List Bool) :
    List ((F × Nat) × Nat) → Circuit F → Circuit F → Option (ConstSuffix F)
  | [], _, _ => some ⟨0, 0, 0⟩
  | ((sv, len), v) :: rest, expr, inf =>
    if infVars[v]? ≠ some true ∨ exprVars[v]? ≠ some true then suffixLoop chk exprVars infVars rest expr inf
    else
      (Arith.optimizeConstants chk (decide ((1 + 1 : F) = 0)) (Arith.constSubst expr v sv)).bind fun expr =>
      (Arith.optimizeConstants chk (decide ((1 + 1 : F) = 0)) (Arith.constSubst inf v (sv + sv))).bind fun inf =>
      (Arith.getConstant expr).bind fun a => (Arith.getConstant inf).bind fun b =>
        match a, b with
        | some value, some atInf => some ⟨len, value, atInf⟩
        | _, _ => suffixLoop chk exprVars infVars rest expr inf

/-- The sorting of `determine_const_eval_suffixes`, eq_ind.rs:465-467: longest suffixes first, a stable sort. -/
def sortSuffixes (suffixes : List (F × Nat)) : List ((F × Nat) × Nat) :=
  suffixes.zipIdx.mergeSort fun a b => decide (b.1.2 ≤ a.1.2)

/-- `determine_const_eval_suffixes` for one claim, eq_ind.rs:469-510. -/
def determineSuffix (chk : Bool) (sorted : List ((F × Nat) × Nat)) (c : Comp F) : Option (ConstSuffix F) :=
  if sorted.length ≠ c.nVars then none
  else (Arith.leadingTerm c.expr).bind fun inf =>
    suffixLoop chk (Arith.varsUsage c.expr) (Arith.varsUsage inf) sorted c.expr inf

/-- A value that a panic replaces. -/
def orPanic {A : Type} : Option A → Except Error A
  | none => .error .panic
  | some a => .ok a

/-! ## The builder -/

/-- `EqIndSumcheckProverBuilder`, eq_ind.rs:146-156. -/
structure EqBuilder (F : Type) where
  nVars : Nat
  partialEvals : Option (Slice F)
  ones : Option (List F)
  multilins : List (SumMultilin F)

/-- `without_switchover`, eq_ind.rs:165-182. -/
def EqBuilder.withoutSwitchover (n : Nat) (multilins : List (Slice F)) : EqBuilder F :=
  ⟨n, none, none, multilins.map fun m => .folded m 0⟩

/-- `with_switchover`, eq_ind.rs:192-211; a multilinear comes with its number of variables and its switchover round. -/
def EqBuilder.withSwitchover (multilins : List (Nat × (Nat → F) × Nat)) : Except Error (EqBuilder F) :=
  (equalNVars (multilins.map Prod.fst)).bind fun n =>
    .ok ⟨n, none, none, multilins.map fun m => .transparent m.1 m.2.1 m.2.2 (0, 0)⟩

/-- `with_eq_ind_partial_evals`, eq_ind.rs:214-217. -/
def EqBuilder.withPartialEvals (b : EqBuilder F) (evals : Slice F) : EqBuilder F := { b with partialEvals := some evals }

/-- `with_first_round_eval_1s`, eq_ind.rs:224-227. -/
def EqBuilder.withOnes (b : EqBuilder F) (ones : List F) : EqBuilder F := { b with ones := some ones }

/-- `with_const_suffixes`, eq_ind.rs:233-249. -/
def EqBuilder.withConstSuffixes (w : Nat) (b : EqBuilder F) (suffixes : List (F × Nat)) : Except Error (EqBuilder F) :=
  if suffixes.length ≠ b.multilins.length then .error .incorrectConstSuffixes
  else if suffixes.any fun s => s.2 > 2 ^ b.nVars then .error .incorrectConstSuffixes
  else .ok { b with multilins := List.zipWith (fun m s => SumMultilin.updateConstSuffix w b.nVars s m) b.multilins suffixes }

/-- `EqIndSumcheckProver`, eq_ind.rs:377-394. -/
structure EqProver (D F : Type) where
  nVars : Nat
  state : ProverState D F
  prefixEval : F
  partialEvals : Slice F
  challenges : List F
  comps : List (Comp F × ConstSuffix F)
  domains : List (IDomain D)
  ones : Option (List F)

/-- The expanded equality indicator that `build` uses, eq_ind.rs:291-299. -/
def EqBuilder.evals (w : Nat) (order : EvaluationOrder) (challenges : List F) (b : EqBuilder F) : Except Error (Slice F) :=
  match b.partialEvals with
  | some e => if packedLen w e ≠ 2 ^ (b.nVars - (w + 1)) then .error .incorrectEqIndPartialEvalsSize else .ok e
  | none => orPanic (eqIndExpand w order challenges)

/-- `build`, eq_ind.rs:251-357. -/
def EqBuilder.build (chk : Bool) (w : Nat) (create : Nat → Except Univariate.Error (Domain D)) (order : EvaluationOrder)
    (challenges : List F) (claims : List (Comp F × F)) (b : EqBuilder F) : Except Error (EqProver D F) :=
  if challenges.length ≠ b.nVars then .error .incorrectEqIndChallenges
  else
    (b.evals w order challenges).bind fun evals =>
    if b.ones.any fun l => l.length ≠ claims.length then .error .incorrectFirstRoundEvalOnesLength
    else
      match claims.find? fun c => c.1.nVars != b.multilins.length with
      | some c => .error (.invalidComposition c.1.nVars b.multilins.length)
      | none =>
        (collect (claims.map fun c => orPanic (determineSuffix chk
          (sortSuffixes (b.multilins.map (SumMultilin.constSuffix w b.nVars))) c.1))).bind fun suffixes =>
        (domainsFor create (claims.map fun c => c.1.degree)).bind fun domains =>
        (nontrivialPoints domains).bind fun points =>
        (ProverState.new w order b.nVars b.multilins (claims.map Prod.snd) points).bind fun state =>
          .ok ⟨b.nVars, state, 1, evals, challenges, (claims.map Prod.fst).zip suffixes, domains, b.ones⟩

/-! ## The rounds -/

/-- `eq_ind_round_challenge`, eq_ind.rs:415-422. -/
def EqProver.alpha (s : EqProver D F) : Except Error F :=
  let round := s.nVars - s.state.nVars
  match s.state.order with
  | .lowToHigh => orPanic s.challenges[round]?
  | .highToLow => if round < s.challenges.length then orPanic s.challenges[s.challenges.length - 1 - round]? else .error .panic

/-- The challenges of the later rounds, eq_ind.rs:544-549. -/
def EqProver.later (s : EqProver D F) : List F :=
  let round := s.nVars - s.state.nVars
  match s.state.order with
  | .lowToHigh => s.challenges.drop (min s.nVars (round + 1))
  | .highToLow => s.challenges.take (s.nVars - (round + 1))

/-- `Evaluator`, eq_ind.rs:646-733: as in the regular prover, but the values are weighted with the equality indicator and
summed up at once where they are constant; `n` is `n_rounds_remaining`. -/
def eqEvaluator (n : Nat) (later : List F) (evals : Slice F) (haveOnes : Bool) (c : Comp F) (k : ConstSuffix F) :
    Evaluator F where
  start := if haveOnes then 2 else 1
  stop := c.degree + 1
  uses := Arith.varsUsage c.expr
  compose := fun inf vals =>
    if inf then (Arith.leadingTerm c.expr).bind fun lt => Arith.evaluate lt vals else c.evaluate vals
  weight := evals.get?
  suffix := k.len
  constant := fun len inf =>
    if len > 2 ^ n ∨ 2 ^ n - len > 2 ^ later.length then .error .panic
    else match (Transparent.stepUp later.length (2 ^ n - len)).evaluate later with
      | .error _ => .error .panic
      | .ok sum => .ok (sum * if inf then k.atInf else k.value)

/-- `round_evals_to_coeffs`, eq_ind.rs:753-779, after the insertion of the value at one if it is known: the value at zero is
computed from the sum, dividing by `1 - α` (`invert_or_zero`). -/
def eqCoeffs (emb : D → F) (dom : IDomain D) (α sum : F) : List F → Except Error (List F)
  | [] => .error .panic
  | y :: ys => match dom.interpolate emb (reorderEvals ((sum - y * α) * (1 - α)⁻¹ :: y :: ys)) with
    | none => .error .panic
    | some (.error _) => .error .math
    | some (.ok cs) => .ok cs

/-- The interpolators of `execute`, eq_ind.rs:572-582. -/
def eqInterpolator (emb : D → F) (α : F) (ones : Option (List F)) (p : IDomain D × Nat) (sum : F) (evals : List F) :
    Except Error (List F) :=
  match ones with
  | none => eqCoeffs emb p.1 α sum evals
  | some l => match l[p.2]? with
    | none => .error .panic
    | some y => eqCoeffs emb p.1 α sum (y :: evals)

/-- The product with the equality indicator, eq_ind.rs:593-607. -/
def timesEq (α pre : F) (cs : List F) : List F :=
  scaleCoeffs (addCoeffs (scaleCoeffs cs (if (1 + 1 : F) = 0 then 1 + α else 1 - α))
    (0 :: if (1 + 1 : F) = 0 then cs else scaleCoeffs cs (α + α - 1))) pre

/-- `execute`, eq_ind.rs:534-610. -/
def EqProver.execute (emb : D → F) (w bits : Nat) (stale : Nat → Nat → Nat → F) (s : EqProver D F) (coeff : F) :
    Except Error (List F × EqProver D F) :=
  s.alpha.bind fun α =>
  (collect (s.comps.map fun c => (c.2.update s.state.order s.state.nVars).bind fun k => .ok (c.1, k))).bind fun comps =>
  (calcRoundEvals emb w bits s.state.order s.state.nVars s.state.query s.state.multilins
    (comps.map fun c => eqEvaluator s.state.nVars s.later s.partialEvals s.ones.isSome c.1 c.2) s.state.points stale).bind
      fun evals =>
  (s.state.roundCoeffs (s.domains.zipIdx.map (eqInterpolator emb α s.ones)) coeff evals).bind fun r =>
    .ok (timesEq α s.prefixEval r.1, { s with state := r.2, comps := comps, ones := none })

/-- `fold`, eq_ind.rs:612-637. -/
def EqProver.fold (w bits : Nat) (s : EqProver D F) (challenge : F) : Except Error (EqProver D F) :=
  s.alpha.bind fun α =>
  if s.state.nVars = 0 then .error .panic
  else
    (orPanic (foldPartialEqInd w s.state.order (s.state.nVars - 1) s.partialEvals)).bind fun evals =>
    (s.state.fold w bits challenge).bind fun st =>
      .ok { s with state := st, prefixEval := s.prefixEval * eqFn α challenge, partialEvals := evals }

/-- `finish`, eq_ind.rs:639-643. -/
def EqProver.finish (w : Nat) (s : EqProver D F) : Except Error (List F) :=
  (s.state.finish w).bind fun evals => .ok (evals ++ [s.prefixEval])

/-- The calls that a batch prover makes: `execute` and `fold` in turn, with the same batching coefficient. -/
def EqProver.rounds (emb : D → F) (w bits : Nat) (stale : Nat → Nat → Nat → F) (coeff : F) :
    EqProver D F → (challenges : List F) → Except Error (EqProver D F)
  | s, [] => .ok s
  | s, r :: rs => (s.execute emb w bits stale coeff).bind fun p => (p.2.fold w bits r).bind fun s =>
      EqProver.rounds emb w bits stale coeff s rs

/-- The prover as the batch provers see it: what `execute` and `finish` give after the rounds with these challenges. -/
def EqProver.toProver (emb : D → F) (w bits : Nat) (stale : Nat → Nat → Nat → F) (s : EqProver D F) : SumcheckProver F where
  nVars := s.nVars
  evaluationOrder := s.state.order
  execute := fun folded coeff => (s.rounds emb w bits stale coeff folded).bind fun s =>
    (s.execute emb w bits stale coeff).bind fun p => .ok p.1
  finish := fun folded => (s.rounds emb w bits stale 0 folded).bind fun s => s.finish w

end Verif.Sumcheck
