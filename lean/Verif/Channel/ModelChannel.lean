import Mathlib.Data.Int.Order.Basic
import Mathlib.Data.List.Basic

/-! Model of the channel validation, crates/core/src/constraint_system/channel.rs.

`none` is a panic and `Except` carries the returned error. -/

set_option linter.dupNamespace false

namespace Verif.Channel

/-- The errors of crates/core/src/constraint_system/error.rs that `validate_witness` returns. -/
inductive Error where
  | channelIdOutOfRange
  | witnessMissing
  | channelFlushNvarsMismatch
  | incompatibleFlushSelector
  | channelFlushWidthMismatch
  | evaluation
  | channelUnbalanced (id : Nat)
  deriving DecidableEq

/-- `OracleOrConst`, channel.rs:62-66; the tower level of a constant plays no role here. -/
inductive OracleOrConst (F : Type) where
  | oracle (id : Nat)
  | const (base : F)

/-- `FlushDirection`, channel.rs:86-90. -/
inductive Direction where
  | push
  | pull
  deriving DecidableEq

/-- `Flush`, channel.rs:67-76. -/
structure Flush (F : Type) where
  tableId : Nat
  logValuesPerRow : Nat
  oracles : List (OracleOrConst F)
  channelId : Nat
  direction : Direction
  selectors : List Nat
  multiplicity : Nat

/-- `Boundary`, channel.rs:78-84. -/
structure Boundary (F : Type) where
  values : List F
  channelId : Nat
  direction : Direction
  multiplicity : Nat

/-- A multilinear of the witness: its number of variables and its values on the hypercube. -/
structure Poly (F : Type) where
  nVars : Nat
  val : Nat → F

/-- `evaluate_on_hypercube`, crates/math/src/multilinear_extension.rs:141-155. -/
def Poly.evaluateOnHypercube {F : Type} (p : Poly F) (i : Nat) : Except Error F :=
  if i < 2 ^ p.nVars then .ok (p.val i) else .error .evaluation

/-- The witness: `get_multilin_poly` returns an error for an oracle without a multilinear,
crates/core/src/witness.rs:70-80. -/
abbrev Witness (F : Type) := Nat → Option (Poly F)

/-- `Channel`, channel.rs:240-244.  The hash map is an association list: only whether all its values are zero is
observed, which does not depend on the iteration order. -/
structure Channel (F : Type) where
  width : Option Nat
  multiplicities : List (List F × Int)

/-- `Channel::new`, channel.rs:247-249. -/
def Channel.new {F : Type} : Channel F := ⟨none, []⟩

/-- The wrap-around of a 64-bit signed integer. -/
def wrapI64 (x : Int) : Int := (x + 2 ^ 63) % 2 ^ 64 - 2 ^ 63

/-- The result of a 64-bit signed operation with exact value `x`: out of range it panics when overflow checks are on
(`checks`, the debug profile) and wraps otherwise. -/
def i64 (checks : Bool) (x : Int) : Option Int :=
  if -2 ^ 63 ≤ x ∧ x < 2 ^ 63 then some x else if checks then none else some (wrapI64 x)

/-- The factor of a direction, channel.rs:277-280. -/
def Direction.sign : Direction → Int
  | .push => 1
  | .pull => -1

/-- `*map.entry(key).or_default() += delta`, channel.rs:276. -/
def entryAdd {F : Type} [DecidableEq F] (checks : Bool) (key : List F) (delta : Int) :
    List (List F × Int) → Option (List (List F × Int))
  | [] => (i64 checks (0 + delta)).map fun v => [(key, v)]
  | (k, v) :: rest =>
    if k = key then (i64 checks (v + delta)).map fun v' => (k, v') :: rest
    else (entryAdd checks key delta rest).map ((k, v) :: ·)

/-- `Channel::flush`, channel.rs:259-282.  `multiplicity as i64` wraps. -/
def Channel.flush {F : Type} [DecidableEq F] (checks : Bool) (c : Channel F) (d : Direction) (multiplicity : Nat)
    (values : List F) : Option (Except Error (Channel F)) :=
  let width := match c.width with
    | none => values.length
    | some w => w
  if width ≠ values.length then some (.error .channelFlushWidthMismatch)
  else
    (i64 checks (wrapI64 multiplicity * d.sign)).bind fun delta =>
      (entryAdd checks values delta c.multiplicities).map fun m => .ok ⟨some width, m⟩

/-- `Channel::is_balanced`, channel.rs:284-286. -/
def Channel.isBalanced {F : Type} (c : Channel F) : Bool := c.multiplicities.all fun e => e.2 = 0

/-- The vector of channels. -/
abbrev Channels (F : Type) := Nat → Channel F

/-- The result of a step: a panic, an error or a new state. -/
abbrev Step (S : Type) := Option (Except Error S)

/-- The `?` operator and sequencing. -/
def Step.andThen {S T : Type} (x : Step S) (f : S → Step T) : Step T :=
  match x with
  | none => none
  | some (.error e) => some (.error e)
  | some (.ok s) => f s

/-- A `for` loop over a list, left by the first error. -/
def forEach {A S : Type} (f : A → S → Step S) : List A → S → Step S
  | [], s => some (.ok s)
  | a :: as, s => (f a s).andThen (forEach f as)

section
variable {F : Type} [DecidableEq F] (checks : Bool)

/-- `channels[channel_id].flush(..)?`, channel.rs:122 and 219: the index panics past the end. -/
def flushChannel (count id : Nat) (d : Direction) (m : Nat) (values : List F) (cs : Channels F) : Step (Channels F) :=
  if id < count then
    ((cs id).flush checks d m values).map fun r =>
      match r with
      | .error e => .error e
      | .ok c => .ok fun j => if j = id then c else cs j
  else none

/-- The body of the loop over the boundaries, channel.rs:107-123. -/
def boundaryStep (count : Nat) (b : Boundary F) (cs : Channels F) : Step (Channels F) :=
  if b.channelId > count - 1 then some (.error .channelIdOutOfRange)
  else flushChannel checks count b.channelId b.direction b.multiplicity b.values cs

/-- `iter().map(get_multilin_poly).collect::<Result<_, _>>()?`, channel.rs:150-161. -/
def collectPolys (witness : Witness F) : List Nat → Except Error (List (Poly F))
  | [] => .ok []
  | id :: ids =>
    match witness id with
    | none => .error .witnessMissing
    | some p =>
      match collectPolys witness ids with
      | .error e => .error e
      | .ok ps => .ok (p :: ps)

/-- The identifiers of the entries that are oracles, channel.rs:152-155. -/
def oracleIds {F : Type} (l : List (OracleOrConst F)) : List Nat :=
  l.filterMap fun o => match o with
    | .oracle id => some id
    | .const _ => none

/-- Whether some selector is zero in row `i`; the `expect` panics, channel.rs:190-200. -/
def selectorOff [Zero F] (i : Nat) : List (Poly F) → Option Bool
  | [] => some false
  | p :: ps =>
    match p.evaluateOnHypercube i with
    | .error _ => none
    | .ok v => if v = 0 then some true else selectorOff i ps

/-- The values of row `i`, channel.rs:206-218: the first error ends it, a missing witness panics. -/
def rowValues (witness : Witness F) (i : Nat) : List (OracleOrConst F) → Option (Except Error (List F))
  | [] => some (.ok [])
  | .const b :: os => Step.andThen (rowValues witness i os) fun l => some (.ok (b :: l))
  | .oracle id :: os =>
    (witness id).bind fun p =>
      match p.evaluateOnHypercube i with
      | .error e => some (.error e)
      | .ok v => Step.andThen (rowValues witness i os) fun l => some (.ok (v :: l))

/-- One row of a flush, channel.rs:189-220. -/
def rowStep [Zero F] (witness : Witness F) (count : Nat) (f : Flush F) (selectors : List (Poly F)) (i : Nat)
    (cs : Channels F) : Step (Channels F) :=
  (selectorOff i selectors).bind fun off =>
    if off then some (.ok cs)
    else
      Step.andThen (rowValues witness i f.oracles) fun values =>
        flushChannel checks count f.channelId f.direction f.multiplicity values cs

/-- The number of variables of the first polynomial, or 0, channel.rs:161-164. -/
def firstNVars : List (Poly F) → Nat
  | [] => 0
  | p :: _ => p.nVars

/-- The body of the loop over the flushes after the table size is known to be positive, channel.rs:149-220. -/
def flushRows [Zero F] (witness : Witness F) (count tableSize : Nat) (f : Flush F) (cs : Channels F) :
    Step (Channels F) :=
  match collectPolys witness (oracleIds f.oracles) with
  | .error e => some (.error e)
  | .ok polys =>
    match collectPolys witness f.selectors with
    | .error e => some (.error e)
    | .ok selectors =>
      let nVars := firstNVars polys
      if polys.any fun p => p.nVars ≠ nVars then some (.error .channelFlushNvarsMismatch)
      else if selectors.any fun p => p.nVars ≠ nVars then
        -- the error names the first oracle; `expect` panics when there is none
        if (oracleIds f.oracles).isEmpty then none else some (.error .incompatibleFlushSelector)
      else if 2 ^ nVars < tableSize * 2 ^ f.logValuesPerRow then none
      else forEach (rowStep checks witness count f selectors) (List.range (tableSize * 2 ^ f.logValuesPerRow)) cs

/-- The body of the loop over the flushes, channel.rs:125-221: the index into the table sizes panics. -/
def flushStep [Zero F] (witness : Witness F) (tableSizes : List Nat) (count : Nat) (f : Flush F) (cs : Channels F) :
    Step (Channels F) :=
  if f.channelId > count - 1 then some (.error .channelIdOutOfRange)
  else
    tableSizes[f.tableId]?.bind fun tableSize =>
      if tableSize = 0 then some (.ok cs) else flushRows checks witness count tableSize f cs

/-- The final loop over the channels, channel.rs:223-235. -/
def checkBalanced (cs : Channels F) : List Nat → Except Error Unit
  | [] => .ok ()
  | id :: ids => if (cs id).isBalanced then checkBalanced cs ids else .error (.channelUnbalanced id)

/-- `validate_witness`, channel.rs:92-238. -/
def validateWitness [Zero F] (witness : Witness F) (flushes : List (Flush F)) (boundaries : List (Boundary F))
    (tableSizes : List Nat) (channelCount : Nat) : Step Unit :=
  Step.andThen (forEach (boundaryStep checks channelCount) boundaries fun _ => Channel.new) fun cs =>
    Step.andThen (forEach (flushStep checks witness tableSizes channelCount) flushes cs) fun cs =>
      some (checkBalanced cs (List.range channelCount))

end
end Verif.Channel
