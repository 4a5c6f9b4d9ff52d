import Verif.Channel.ModelChannel

/-! Specification of channel balance: the tuples that the boundaries and the selected rows of the flushes send, and
their counts. -/

set_option linter.dupNamespace false

namespace Verif.Channel

variable {F : Type} [DecidableEq F] [Zero F]

/-- A tuple sent to a channel, a number of times. -/
structure Event (F : Type) where
  channel : Nat
  direction : Direction
  multiplicity : Nat
  tuple : List F

/-- The value of an entry of a flush in row `i`. -/
def entryAt (witness : Witness F) (i : Nat) : OracleOrConst F → F
  | .const b => b
  | .oracle id => match witness id with
    | some p => p.val i
    | none => 0

/-- Row `i` is selected: no selector is zero there. -/
def Selected (witness : Witness F) (f : Flush F) (i : Nat) : Bool :=
  f.selectors.all fun id => match witness id with
    | some p => p.val i ≠ 0
    | none => true

/-- The tuples sent by a flush over a table with `rows` rows of `2^log_values_per_row` values. -/
def flushEvents (witness : Witness F) (rows : Nat) (f : Flush F) : List (Event F) :=
  ((List.range (rows * 2 ^ f.logValuesPerRow)).filter (Selected witness f)).map fun i =>
    ⟨f.channelId, f.direction, f.multiplicity, f.oracles.map (entryAt witness i)⟩

/-- All tuples sent. -/
def events (witness : Witness F) (flushes : List (Flush F)) (boundaries : List (Boundary F))
    (tableSizes : List Nat) : List (Event F) :=
  boundaries.map (fun b => ⟨b.channelId, b.direction, b.multiplicity, b.values⟩) ++
    flushes.flatMap fun f => flushEvents witness (tableSizes.getD f.tableId 0) f

/-- How many times the tuple `t` is sent to the channel `c` in the direction `d`. -/
def count (es : List (Event F)) (d : Direction) (c : Nat) (t : List F) : Nat :=
  ((es.filter fun e => e.direction = d ∧ e.channel = c ∧ e.tuple = t).map (·.multiplicity)).sum

/-- Every tuple is pushed to every channel as often as it is pulled. -/
def Balanced (es : List (Event F)) : Prop := ∀ c t, count es .push c t = count es .pull c t

/-- The tuples of a channel have the same width. -/
def SameWidth (es : List (Event F)) : Prop :=
  ∀ e ∈ es, ∀ e' ∈ es, e.channel = e'.channel → e.tuple.length = e'.tuple.length

/-- A flush fits a table of `rows` rows: all its oracles and selectors have a multilinear in the witness, of the same
number of variables (0 if there is no oracle), which has room for all the rows. -/
def Fits (witness : Witness F) (rows : Nat) (f : Flush F) : Prop :=
  ∃ n, (∀ id, .oracle id ∈ f.oracles ∨ id ∈ f.selectors → ∃ p, witness id = some p ∧ p.nVars = n) ∧
    ((∀ id, .oracle id ∉ f.oracles) → n = 0) ∧ rows * 2 ^ f.logValuesPerRow ≤ 2 ^ n

/-- The parameters that do not depend on the values in the witness are consistent. -/
structure WellFormed (witness : Witness F) (flushes : List (Flush F)) (boundaries : List (Boundary F))
    (tableSizes : List Nat) (channelCount : Nat) : Prop where
  boundary : ∀ b ∈ boundaries, b.channelId < channelCount
  channel : ∀ f ∈ flushes, f.channelId < channelCount ∨ channelCount = 0 ∧ f.channelId = 0 ∧
    flushEvents witness (tableSizes.getD f.tableId 0) f = []
  table : ∀ f ∈ flushes, f.tableId < tableSizes.length
  fits : ∀ f ∈ flushes, tableSizes.getD f.tableId 0 ≠ 0 → Fits witness (tableSizes.getD f.tableId 0) f

end Verif.Channel
