import Verif.Channel.ModelChannel
import Verif.Oracle.ModelOracle
import Mathlib.Data.Nat.Size
import Mathlib.Data.List.Sort

/-! Model of how the verifier checks the channels, crates/core/src/constraint_system/verify.rs: the preparation of the
flushes, the step-down selectors, the oracles whose grand products are claimed, and the comparison of the products.

`none` is a panic.  `usize` arithmetic is exact. -/

set_option linter.dupNamespace false

namespace Verif.Balance

open Verif.Channel (Flush Boundary Direction OracleOrConst oracleIds)
open Verif.Oracle (OracleSet TowerOps)

/-- The errors of crates/core/src/constraint_system/error.rs that these functions return. -/
inductive Error where
  | tableSizesLenMismatch
  | tableSizePowerOfTwoRequired (table : Nat)
  | tableSizeFixedRequired (table : Nat)
  | emptyFlushOracles
  | flushSelectorTowerLevel
  | channelFlushNvarsMismatch
  | oracle (e : Oracle.Error)
  | polynomial (e : Transparent.Error)
  | incorrectNumberOfFlushProducts
  | channelUnbalanced (id : Nat)

/-- A panic, an error or a value. -/
abbrev Res (A : Type) := Option (Except Error A)

/-- The `?` operator and sequencing. -/
def Res.andThen {A B : Type} (x : Res A) (f : A → Res B) : Res B :=
  match x with
  | none => none
  | some (.error e) => some (.error e)
  | some (.ok a) => f a

/-- An addition to the oracle set, with its error converted. -/
def liftOracle {A : Type} (x : Oracle.Res A) : Res A :=
  match x with
  | none => none
  | some (.error e) => some (.error (.oracle e))
  | some (.ok a) => some (.ok a)

/-- `TableSizeSpec`, constraint_system/mod.rs:115-122. -/
inductive SizeSpec where
  | arbitrary
  | powerOfTwo
  | fixed (logSize : Nat)

/-- One size against its specification, constraint_system/mod.rs:72-90; `is_power_of_two` is false of 0. -/
def checkTableSize (table size : Nat) : SizeSpec → Except Error Unit
  | .arbitrary => .ok ()
  | .powerOfTwo => if ∃ k < 64, size = 2 ^ k then .ok () else .error (.tableSizePowerOfTwoRequired table)
  | .fixed k => if size ≠ 2 ^ k then .error (.tableSizeFixedRequired table) else .ok ()

/-- The loop of `check_table_sizes`, constraint_system/mod.rs:67-91. -/
def checkTableSizesFrom (table : Nat) : List Nat → List SizeSpec → Except Error Unit
  | size :: sizes, spec :: specs =>
    match checkTableSize table size spec with
    | .error e => .error e
    | .ok () => checkTableSizesFrom (table + 1) sizes specs
  | _, _ => .ok ()

/-- `ConstraintSystem::check_table_sizes`, constraint_system/mod.rs:60-93. -/
def checkTableSizes (sizes : List Nat) (specs : List SizeSpec) : Except Error Unit :=
  if sizes.length ≠ specs.length then .error .tableSizesLenMismatch else checkTableSizesFrom 0 sizes specs

/-- `log2_ceil_usize` with `min_bits`, crates/utils/src/checked_arithmetics.rs:40-50. -/
def log2Ceil (n : Nat) : Nat := Nat.size (n - 1)

section
variable {F : Type}

/-- `flushes.retain(|flush| table_sizes[flush.table_id] > 0)`, verify.rs:102 and 174: the index panics. -/
def retain (tableSizes : List Nat) : List (Flush F) → Option (List (Flush F))
  | [] => some []
  | f :: fs =>
    tableSizes[f.tableId]?.bind fun size =>
      (retain tableSizes fs).map fun l => if size > 0 then f :: l else l

/-- `retain` and the stable `sort_by_key`, verify.rs:102-103 and again 174-175. -/
def prepare (tableSizes : List Nat) (flushes : List (Flush F)) : Option (List (Flush F)) :=
  (retain tableSizes flushes).map fun l => l.insertionSort fun a b => a.channelId ≤ b.channelId

variable [Field F] [DecidableEq F]

/-- The oracles created so far for a pair of a table and a number of values per row. -/
abbrev StepMap := List ((Nat × Nat) × Nat)

/-- The first pass of `augment_flush_po2_step_down`, verify.rs:399-426: the set and the map.  A step-down polynomial has
tower level 0. -/
def stepDownPass (ops : TowerOps F) (specs : List SizeSpec) (tableSizes : List Nat) :
    List (Flush F) → OracleSet F × StepMap → Res (OracleSet F × StepMap)
  | [], st => some (.ok st)
  | f :: fs, st =>
    tableSizes[f.tableId]?.bind fun size =>
      specs[f.tableId]?.bind fun spec =>
        match spec with
        | .arbitrary =>
          if (st.2.lookup (f.tableId, f.logValuesPerRow)).isSome then stepDownPass ops specs tableSizes fs st
          else
            let nVars := log2Ceil size + f.logValuesPerRow
            match Transparent.stepNew nVars (size * 2 ^ f.logValuesPerRow) with
            | .error e => some (.error (.polynomial e))
            | .ok index =>
              Res.andThen (liftOracle (Oracle.addTransparent ops st.1 (Transparent.stepDown nVars index) 0)) fun r =>
                stepDownPass ops specs tableSizes fs (r.1, st.2 ++ [((f.tableId, f.logValuesPerRow), r.2)])
        | _ => stepDownPass ops specs tableSizes fs st

/-- The second pass, verify.rs:428-439. -/
def addSelectors (specs : List SizeSpec) (m : StepMap) : List (Flush F) → Option (List (Flush F))
  | [] => some []
  | f :: fs =>
    specs[f.tableId]?.bind fun spec =>
      (addSelectors specs m fs).map fun l =>
        match spec with
        | .arbitrary =>
          match m.lookup (f.tableId, f.logValuesPerRow) with
          | some id => { f with selectors := f.selectors ++ [id] } :: l
          | none => f :: l
        | _ => f :: l

/-- `augment_flush_po2_step_down`, verify.rs:384-442: the new set and the new flushes. -/
def augment (ops : TowerOps F) (os : OracleSet F) (flushes : List (Flush F)) (specs : List SizeSpec)
    (tableSizes : List Nat) : Res (OracleSet F × List (Flush F)) :=
  Res.andThen (stepDownPass ops specs tableSizes flushes (os, [])) fun st =>
    (addSelectors specs st.2 flushes).map fun l => .ok (st.1, l)

/-- The tower level of every selector is 0, verify.rs:472-480. -/
def checkSelectors (os : OracleSet F) : List Nat → Res Unit
  | [] => some (.ok ())
  | id :: ids => (os.get id).bind fun o =>
    if o.towerLevel ≠ 0 then some (.error .flushSelectorTowerLevel) else checkSelectors os ids

/-- Every other oracle has as many variables as the first, verify.rs:482-490. -/
def checkNVars (os : OracleSet F) (nVars : Nat) : List Nat → Res Unit
  | [] => some (.ok ())
  | id :: ids => (os.get id).bind fun o =>
    if o.nVars ≠ nVars then some (.error .channelFlushNvarsMismatch) else checkNVars os nVars ids

/-- The loop that extends the powers of the mixing challenge `k` times, verify.rs:493-500; the vector is never empty. -/
def growPowers (s : F) : Nat → List F → Option (List F)
  | 0, powers => some powers
  | k + 1, powers => powers.getLast?.bind fun last => growPowers s k (powers ++ [last * s])

/-- `const_linear_combination`, verify.rs:502-511. -/
def constSum (oracles : List (OracleOrConst F)) (powers : List F) : F :=
  ((oracles.zip powers).filterMap fun p => match p.1 with
    | .const base => some (base * p.2)
    | .oracle _ => none).sum

/-- The oracles with their powers, verify.rs:519-528 and 534-542. -/
def oracleTerms (oracles : List (OracleOrConst F)) (powers : List F) : List (Nat × F) :=
  (oracles.zip powers).filterMap fun p => match p.1 with
    | .const _ => none
    | .oracle id => some (id, p.2)

/-- The linear combination of the variables from `v` on, verify.rs:545-551.  The conversion of an `ArithExpr` without
shared nodes lists the steps of the left operand, then those of the right one, then the operation, as `Arith.add` and
`Arith.mul` do. -/
def linearExpr (v : Nat) (acc : Arith.Circuit F) : List F → Arith.Circuit F
  | [] => acc
  | c :: cs => linearExpr (v + 1) (Arith.add acc (Arith.mul (Arith.var v) (Arith.constant c))) cs

/-- The product of the variables `0, …, n - 1`, verify.rs:553-555, with `Product`, arith_expr.rs:193-197. -/
def selectorExpr : Nat → Arith.Circuit F
  | 0 => Arith.constant 1
  | 1 => Arith.var 0
  | n + 2 => Arith.mul (selectorExpr (n + 1)) (Arith.var (n + 1))

/-- One flush of `make_flush_oracles`, verify.rs:462-569, with the challenge `r` of its channel: the identifier or the
error, with the set and the powers afterwards. -/
def makeFlushOracle (ops : TowerOps F) (s r : F) (f : Flush F) (st : OracleSet F × List F) :
    Option (Except Error Nat × OracleSet F × List F) :=
  match oracleIds f.oracles with
  | [] => some (.error .emptyFlushOracles, st)
  | first :: rest =>
    (st.1.get first).bind fun o =>
      match Res.andThen (checkSelectors st.1 f.selectors) fun _ => checkNVars st.1 o.nVars rest with
      | none => none
      | some (.error e) => some (.error e, st)
      | some (.ok ()) =>
        (growPowers s (f.oracles.length - st.2.length) st.2).bind fun powers =>
          let terms := oracleTerms f.oracles powers
          let added :=
            if f.selectors.isEmpty then
              Oracle.addLinearCombination ops st.1 o.nVars (r + constSum f.oracles powers) terms
            else
              Oracle.addComposite st.1 o.nVars (f.selectors ++ terms.map (·.1))
                (Arith.add (Arith.constant 1) (Arith.mul (selectorExpr f.selectors.length)
                  (linearExpr f.selectors.length (Arith.constant (r + constSum f.oracles powers + 1))
                    (terms.map (·.2)))))
          match added with
          | none => none
          | some (.error e) => some (.error (.oracle e), st.1, powers)
          | some (.ok (os, id)) => some (.ok id, os, powers)

/-- The flushes of one channel, verify.rs:458-571: all are visited, even after an error. -/
def makeGroup (ops : TowerOps F) (s r : F) : List (Flush F) → OracleSet F × List F →
    Option (List (Except Error Nat) × OracleSet F × List F)
  | [], st => some ([], st)
  | f :: fs, st =>
    (makeFlushOracle ops s r f st).bind fun x =>
      (makeGroup ops s r fs x.2).map fun y => (x.1 :: y.1, y.2)

/-- `collect::<Result<Vec<_>, _>>` of results at hand. -/
def collect : List (Except Error Nat) → Except Error (List Nat)
  | [] => .ok []
  | .error e :: _ => .error e
  | .ok id :: l =>
    match collect l with
    | .error e => .error e
    | .ok ids => .ok (id :: ids)

/-- The channels from `c` on, verify.rs:454-572: `peeking_take_while` takes the flushes of the channel from the front of
those that are left. -/
def makeFrom (ops : TowerOps F) (s : F) (c : Nat) : List F → List (Flush F) → OracleSet F × List F →
    Res (OracleSet F × List Nat)
  | [], _, st => some (.ok (st.1, []))
  | r :: rs, fs, st =>
    (makeGroup ops s r (fs.takeWhile fun f => f.channelId = c) st).bind fun x =>
      match collect x.1 with
      | .error e => some (.error e)
      | .ok ids =>
        Res.andThen (makeFrom ops s (c + 1) rs (fs.dropWhile fun f => f.channelId = c) x.2) fun y =>
          some (.ok (y.1, ids ++ y.2))

/-- `make_flush_oracles`, verify.rs:444-573: the new set and the identifiers. -/
def makeFlushOracles (ops : TowerOps F) (os : OracleSet F) (flushes : List (Flush F)) (s : F) (rs : List F) :
    Res (OracleSet F × List Nat) := makeFrom ops s 0 rs flushes (os, [1])

/-- The value of a tuple, verify.rs:338-343. -/
def mixValues (s : F) (acc : F × F) : List F → F
  | [] => acc.1
  | v :: vs => mixValues s (acc.1 + acc.2 * v, acc.2 * s) vs

/-- A factor goes to the product of its direction, verify.rs:348-355 and 366-373. -/
def multiply (p : F × F) (x : F) : Direction → F × F
  | .pull => (p.1 * x, p.2)
  | .push => (p.1, p.2 * x)

/-- The pull and push products of the boundaries of a channel, verify.rs:325-360; the index panics. -/
def boundaryProducts (s : F) (rs : List F) (c : Nat) : List (Boundary F) → F × F → Option (F × F)
  | [], p => some p
  | b :: bs, p =>
    if b.channelId = c then
      rs[c]?.bind fun r =>
        boundaryProducts s rs c bs (multiply p (mixValues s (r, 1) b.values ^ b.multiplicity) b.direction)
    else boundaryProducts s rs c bs p

/-- The loop over the flushes of channel `c` with products `p`, and then over those of the following channels,
verify.rs:322-378. -/
def balanceLoop (boundaries : List (Boundary F)) (s : F) (rs : List F) (c : Nat) (p : F × F) :
    List (Flush F × F) → Res Unit
  | [] => if p.1 ≠ p.2 then some (.error (.channelUnbalanced c)) else some (.ok ())
  | (f, x) :: l =>
    if f.channelId = c then
      balanceLoop boundaries s rs c (multiply p (x ^ f.multiplicity) f.direction) l
    else if p.1 ≠ p.2 then some (.error (.channelUnbalanced c))
    else
      (boundaryProducts s rs f.channelId boundaries (1, 1)).bind fun q =>
        balanceLoop boundaries s rs f.channelId (multiply q (x ^ f.multiplicity) f.direction) l

/-- `verify_channels_balance`, verify.rs:308-381. -/
def verifyChannelsBalance (flushes : List (Flush F)) (products : List F) (boundaries : List (Boundary F)) (s : F)
    (rs : List F) : Res Unit :=
  if products.length ≠ flushes.length then some (.error .incorrectNumberOfFlushProducts)
  else
    match flushes.zip products with
    | [] => some (.ok ())
    | (f, x) :: l =>
      (boundaryProducts s rs f.channelId boundaries (1, 1)).bind fun q =>
        balanceLoop boundaries s rs f.channelId (multiply q (x ^ f.multiplicity) f.direction) l

end
end Verif.Balance
