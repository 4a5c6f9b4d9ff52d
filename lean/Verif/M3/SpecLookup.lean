import Verif.M3.ModelLookup
import Verif.Channel.SpecChannel

/-! Specification of indexed lookups: the tuples that tables send to channels. -/

set_option linter.dupNamespace false

namespace Verif.M3

open Verif.Field Verif.Arith

/-- The tuples that a flush of a table of `size` rows sends: one for each value, if no selector is zero there. -/
def tableFlushEvents (size : Nat) (W : Nat → Nat → Nat → B128) (f : TableFlush) : List (Channel.Event B128) :=
  ((List.range (size * 2 ^ f.lv)).filter fun i => f.selectors.all fun s => flatGet W f.lv s i ≠ 0).map fun i =>
    ⟨f.channel, f.direction, f.multiplicity, f.columns.map fun c => flatGet W f.lv c i⟩

/-- The tuples that a table sends. -/
def tableEvents (fs : List TableFlush) (size : Nat) (W : Nat → Nat → Nat → B128) : List (Channel.Event B128) :=
  fs.flatMap (tableFlushEvents size W)

/-- The tuples that the tables and the boundaries send. -/
def readEvents (tables : List TallyTable) (boundaries : List (Channel.Boundary B128)) : List (Channel.Event B128) :=
  tables.flatMap (fun t => match t.witness with | some (size, W) => tableEvents t.flushes size W | none => []) ++
    boundaries.map fun b => ⟨b.channelId, b.direction, b.multiplicity, b.values⟩

/-- The bits of a number, as elements of the field. -/
def indexBits (n i : Nat) : List B128 := (List.range n).map fun k => if i.testBit k then 1 else 0

/-- What the compiled constraint system says of a lookup table that is not said by its flushes: the fixed column has the
values of its circuit at the bits of the index of the row, and multiplicity bits are bits. -/
structure LookupTable.Holds (l : LookupTable) (k : IndexedLookup) (W : Nat → Nat → Nat → B128) : Prop where
  fixed : ∀ r < 2 ^ k.logSize, evaluate k.circuit (indexBits k.logSize r) = some (W r l.ordered 0)
  bits : ∀ r < 2 ^ k.logSize, ∀ c ∈ l.bits, W r c 0 = 0 ∨ W r c 0 = 1

/-- The entries of a lookup and its indices belong together, and the circuit of the fixed column gives the entries. -/
structure IndexedLookup.Correct (k : IndexedLookup) : Prop where
  entry : ∀ i < 2 ^ k.logSize, k.indexToEntry i < 2 ^ 32
  index : ∀ i < 2 ^ k.logSize, k.entryToIndex (k.indexToEntry i) = i
  range : ∀ e, k.entryToIndex e < 2 ^ k.logSize
  circuit : ∀ i < 2 ^ k.logSize, evaluate k.circuit (indexBits k.logSize i) = some (ofVal 7 (k.indexToEntry i))

/-- How many of the tuples are pulled from the channel and belong to the index. -/
def reads (k : IndexedLookup) (chan : Nat) (es : List (Channel.Event B128)) (i : Nat) : Nat :=
  (es.filter fun e => e.channel = chan ∧ e.direction = .pull ∧ k.index e.tuple = some i).length

/-- The reads of the tables and the boundaries can be counted: no flush that reads from the channel has a selector, and
every tuple that is read has an index in range. -/
structure Countable (k : IndexedLookup) (chan : Nat) (tables : List TallyTable) (boundaries : List (Channel.Boundary B128)) : Prop where
  selectors : ∀ t ∈ tables, t.witness.isSome → ∀ f ∈ t.flushes, f.channel = chan → f.direction = .pull → f.selectors = []
  range : ∀ e ∈ readEvents tables boundaries, e.channel = chan → e.direction = .pull →
    ∃ i < 2 ^ k.logSize, k.index e.tuple = some i

/-- The rows are the counts with their indices, in some order. -/
def Lists (rows : List (Nat × Nat)) (counts : List Nat) : Prop := rows.Perm (counts.zipIdx.map fun p => (p.2, p.1))

end Verif.M3
