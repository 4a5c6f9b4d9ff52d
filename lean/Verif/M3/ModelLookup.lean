import Verif.M3.SpecVal
import Verif.M3.ModelTable
import Verif.Channel.ModelChannel

/-! Model of the indexed lookups of the arithmetization crate: crates/m3/src/builder/indexed_lookup.rs,
crates/m3/src/gadgets/lookup.rs and crates/m3/src/gadgets/indexed_lookup.

Elements of the field of 128 bits are built from and read as numbers by `ofVal` and `toVal`.  The witness of a table is a
function from the number of a row, the number of a column and the position in the cell to the value.  Tables are filled as
one segment; column borrowing and missing columns are left out.  `none` is a panic, or an error where it says so. -/

set_option linter.dupNamespace false

namespace Verif.M3

open Verif.Field Verif.Arith

/-- The field of 128 bits. -/
abbrev B128 := T 7

/-- `Flush`, crates/m3/src/builder/channel.rs:10-20, of the partition of the columns with `2^lv` values per row. -/
structure TableFlush where
  lv : Nat
  columns : List Nat
  channel : Nat
  direction : Channel.Direction
  multiplicity : Nat
  selectors : List Nat

/-- The `i`-th value of a column with `2^lv` values per row: `col.get(i)`. -/
def flatGet (W : Nat → Nat → Nat → B128) (lv col i : Nat) : B128 := W (i / 2 ^ lv) col (i % 2 ^ lv)

/-! ### The table of bitwise AND -/

/-- `merge_bitand_vals`, crates/m3/src/gadgets/indexed_lookup/and.rs:114-116, of bytes. -/
def mergeBitandVals (inA inB output : Nat) : Nat := inA ||| (inB <<< 8) ||| (output <<< 16)

/-- `IndexedLookup`, crates/m3/src/builder/indexed_lookup.rs:24-33, for entries of one element, given as numbers, and the
circuit that the fixed column of the lookup table is made of.  `entry[0].val() as u32` is the value modulo `2^32`. -/
structure IndexedLookup where
  logSize : Nat
  entryToIndex : Nat → Nat
  indexToEntry : Nat → Nat
  circuit : Circuit B128

/-- `bitand_circuit`, crates/m3/src/gadgets/indexed_lookup/and.rs:120-133.  The expression is given as the circuit it is
converted to, and its constants of 32 bits as their values in the field of 128 bits. -/
def bitandCircuit : Circuit B128 :=
  (List.range 8).foldl (fun c i =>
    add (add (add c (mul (var i) (constant (ofVal 7 (1 <<< i)))))
      (mul (var (i + 8)) (constant (ofVal 7 (1 <<< (i + 8))))))
      (mul (mul (var i) (var (i + 8))) (constant (ofVal 7 (1 <<< (i + 16)))))) (constant 0)

/-- `BitAndIndexedLookup`, crates/m3/src/gadgets/indexed_lookup/and.rs:213-237. -/
def bitandLookup : IndexedLookup where
  logSize := 16
  entryToIndex e := (e % 2 ^ 32) &&& 0xFFFF
  indexToEntry index :=
    let inA := index &&& 0xFF
    let inB := (index >>> 8) &&& 0xFF
    let output := inA &&& inB
    mergeBitandVals (inA % 256) (inB % 256) (output % 256)
  circuit := bitandCircuit

/-- `BitAnd`, crates/m3/src/gadgets/indexed_lookup/and.rs:34-43. -/
structure BitAnd where
  inA : Col
  inB : Col
  output : Col
  merged : Col

/-- `merge_and_columns`, crates/m3/src/gadgets/indexed_lookup/and.rs:99-111; `ext_basis::<B32, B8>(i)` is the element with
only the bit `8 i` set. -/
def mergeAndColumns (t : Table B128) (lv : Nat) (inA inB output : Col) : Option (Col × Table B128) :=
  t.addComputed 5 lv (add (add inA.expr (mul inB.expr (constant (ofVal 7 (1 <<< 8)))))
    (mul output.expr (constant (ofVal 7 (1 <<< 16)))))

/-- `TableBuilder::read`, crates/m3/src/builder/table.rs:637-661. -/
def readFlush (lv chan : Nat) (cols : List Col) : TableFlush := ⟨lv, cols.map (·.idx), chan, .pull, 1, []⟩

/-- `BitAnd::new`, crates/m3/src/gadgets/indexed_lookup/and.rs:55-70, with the flush it adds. -/
def BitAnd.new (t : Table B128) (lv chan : Nat) (inA inB : Col) : Option (BitAnd × Table B128 × TableFlush) :=
  (t.addCommitted 3 lv).bind fun p => (mergeAndColumns p.2 lv inA inB p.1).bind fun q =>
    some (⟨inA, inB, p.1, q.1⟩, q.2, readFlush lv chan [q.1])

/-- `BitAnd::populate`, crates/m3/src/gadgets/indexed_lookup/and.rs:79-95, for a segment of `size` rows.  The loop runs
over `size` values of the columns, and not over `size * V`. -/
def BitAnd.populate (g : BitAnd) (lv size : Nat) (W : Nat → Nat → Nat → B128) : Nat → Nat → Nat → B128 :=
  fun r c pos =>
    let i := r * 2 ^ lv + pos
    if pos < 2 ^ lv ∧ i < size then
      let inA := toVal 7 (flatGet W lv g.inA.idx i)
      let inB := toVal 7 (flatGet W lv g.inB.idx i)
      let output := inA &&& inB
      if c = g.output.idx then ofVal 7 output
      else if c = g.merged.idx then ofVal 7 (mergeBitandVals inA inB output)
      else W r c pos
    else W r c pos

/-! ### The table of increments -/

/-- `u8::overflowing_add`. -/
def overflowingAdd8 (a b : Nat) : Nat × Bool := ((a + b) % 256, decide (256 ≤ a + b))

/-- `merge_incr_vals`, crates/m3/src/gadgets/indexed_lookup/incr.rs:321-323. -/
def mergeIncrVals (input : Nat) (carryIn : Bool) (output : Nat) (carryOut : Bool) : Nat :=
  (carryOut.toNat <<< 17) ||| (carryIn.toNat <<< 16) ||| (output <<< 8) ||| input

/-- `carry_in_circuit`, crates/m3/src/gadgets/indexed_lookup/incr.rs:272-280. -/
def carryInCircuit (i : Nat) : Circuit B128 := (List.range i).foldl (fun c v => mul c (var v)) (var 8)

/-- `incr_circuit`, crates/m3/src/gadgets/indexed_lookup/incr.rs:284-298. -/
def incrCircuit : Circuit B128 :=
  add (add ((List.range 8).foldl (fun c i =>
      add (add c (mul (var i) (constant (ofVal 7 (1 <<< i)))))
        (mul (add (var i) (carryInCircuit i)) (constant (ofVal 7 (1 <<< (i + 8)))))) (constant 0))
    (mul (var 8) (constant (ofVal 7 (1 <<< 16)))))
    (mul (carryInCircuit 8) (constant (ofVal 7 (1 <<< 17))))

/-- `IncrIndexedLookup`, crates/m3/src/gadgets/indexed_lookup/incr.rs:241-268. -/
def incrLookup : IndexedLookup where
  logSize := 8 + 1
  entryToIndex e :=
    let merged := e % 2 ^ 32
    let input := merged &&& 0xFF
    let carryIn := decide ((merged >>> 16) &&& 1 = 1)
    (carryIn.toNat <<< 8) ||| input
  indexToEntry index :=
    let input := index % (1 <<< 8) % 256
    let carryIn := decide ((index >>> 8) &&& 1 = 1)
    let (output, carryOut) := overflowingAdd8 input carryIn.toNat
    mergeIncrVals input carryIn output carryOut
  circuit := incrCircuit

/-- `Incr`, crates/m3/src/gadgets/indexed_lookup/incr.rs:35-41. -/
structure ByteIncr where
  input : Col
  carryIn : Col
  output : Col
  carryOut : Col
  merged : Col

/-- `merge_incr_cols`, crates/m3/src/gadgets/indexed_lookup/incr.rs:301-318. -/
def mergeIncrCols (t : Table B128) (input carryIn output carryOut : Col) : Option (Col × Table B128) :=
  let beta1 := ofVal 7 (1 <<< 8)
  let beta20 := ofVal 7 (1 <<< 16)
  let beta21 := beta20 * ofVal 7 (1 <<< 1)
  t.addComputed 5 0 (add (add (add input.expr (mul output.expr (constant beta1)))
    (mul carryIn.expr (constant beta20))) (mul carryOut.expr (constant beta21)))

/-- `Incr::new`, crates/m3/src/gadgets/indexed_lookup/incr.rs:54-74, with the flush it adds. -/
def ByteIncr.new (t : Table B128) (chan : Nat) (input carryIn : Col) : Option (ByteIncr × Table B128 × TableFlush) :=
  (t.addCommitted 3 0).bind fun p => (p.2.addCommitted 0 0).bind fun q =>
    (mergeIncrCols q.2 input carryIn p.1 q.1).bind fun s =>
      some (⟨input, carryIn, p.1, q.1, s.1⟩, s.2, ⟨0, [s.1.idx], chan, .pull, 1, []⟩)

/-- `Incr::populate`, crates/m3/src/gadgets/indexed_lookup/incr.rs:82-110, for a segment of `size` rows. -/
def ByteIncr.populate (g : ByteIncr) (size : Nat) (W : Nat → Nat → Nat → B128) : Nat → Nat → Nat → B128 :=
  fun r c pos =>
    if pos = 0 ∧ r < size then
      let input := toVal 7 (W r g.input.idx 0)
      let carryIn := decide (toVal 7 (W r g.carryIn.idx 0) = 1)
      let (output, carryOut) := overflowingAdd8 input carryIn.toNat
      if c = g.output.idx then ofVal 7 output
      else if c = g.carryOut.idx then ofVal 7 carryOut.toNat
      else if c = g.merged.idx then
        ofVal 7 ((carryOut.toNat <<< 17) ||| (carryIn.toNat <<< 16) ||| (output <<< 8) ||| input)
      else W r c pos
    else W r c pos

/-! ### The lookup table -/

/-- `BitAndLookup` and `IncrLookup`, crates/m3/src/gadgets/indexed_lookup/and.rs:26-32 and incr.rs:159-164, with the
columns of their `LookupProducer`, crates/m3/src/gadgets/lookup.rs:16-18; by the indices of the columns. -/
structure LookupTable where
  ordered : Nat
  sorted : Nat
  bits : List Nat

/-- `BitAndLookup::new` and `IncrLookup::new`, crates/m3/src/gadgets/indexed_lookup/and.rs:143-167 and incr.rs:176-200, and
`LookupProducer::new`, crates/m3/src/gadgets/lookup.rs:21-48: the columns, of a table that has `base` columns already, and
the flushes.  The sorted entries and the multiplicity bits are committed; that the fixed column is given by the circuit of
the lookup is said by the specification.  The multiplicity `1 << i` is a `u32`, so that at most 32 bits make sense. -/
def LookupTable.new (base chan permutationChan nMultiplicityBits : Nat) : LookupTable × List TableFlush :=
  let ordered := base
  let sorted := base + 1
  let bits := (List.range nMultiplicityBits).map (base + 2 + ·)
  (⟨ordered, sorted, bits⟩,
    [⟨0, [ordered], permutationChan, .push, 1, []⟩, ⟨0, [sorted], permutationChan, .pull, 1, []⟩] ++
      bits.zipIdx.map fun p => ⟨0, [sorted], chan, .push, 1 <<< p.2, [p.1]⟩)

/-- `LookupProducer::populate`, crates/m3/src/gadgets/lookup.rs:54-88.  `none` is the error for a count that is too
large. -/
def LookupTable.populateBits (l : LookupTable) (counts : List Nat) (W : Nat → Nat → Nat → B128) :
    Option (Nat → Nat → Nat → B128) :=
  if l.bits.length < 32 ∧ counts.any (fun c => 1 <<< l.bits.length ≤ c) then none
  else some (((l.bits.zipIdx).take 32).foldl (fun W p => fun r c pos =>
    if c = p.1 ∧ pos = 0 then
      match counts[r]? with
      | some count => if (count >>> p.2) &&& 1 = 1 then 1 else 0
      | none => W r c pos
    else W r c pos) W)

/-- `TableFiller::fill`, crates/m3/src/gadgets/indexed_lookup/and.rs:248-274 and incr.rs:212-238, of the whole table as one
segment.  Converting an entry to 32 bits panics if it does not fit. -/
def LookupTable.fill (l : LookupTable) (k : IndexedLookup) (rows : List (Nat × Nat)) (W : Nat → Nat → Nat → B128) :
    Option (Nat → Nat → Nat → B128) :=
  if (List.range (2 ^ k.logSize)).all (fun i => k.indexToEntry i < 2 ^ 32) ∧
      (rows.take (2 ^ k.logSize)).all (fun p => k.indexToEntry p.1 < 2 ^ 32) then
    let W1 := fun r c pos => if c = l.ordered ∧ pos = 0 ∧ r < 2 ^ k.logSize then ofVal 7 (k.indexToEntry r) else W r c pos
    let W2 := fun r c pos =>
      if c = l.sorted ∧ pos = 0 ∧ r < 2 ^ k.logSize then
        match rows[r]? with
        | some p => ofVal 7 (k.indexToEntry p.1)
        | none => W1 r c pos
      else W1 r c pos
    l.populateBits (rows.map (·.2)) W2
  else none

/-! ### Counting the reads -/

/-- A table as `tally` sees it: its flushes by partition, and its witness if it has one. -/
structure TallyTable where
  flushes : List TableFlush
  witness : Option (Nat × (Nat → Nat → Nat → B128))

/-- `counts[index] += 1`, which panics out of range.  Overflow of `u32` is left out. -/
def bump (counts : List Nat) (index : Nat) : Option (List Nat) :=
  counts[index]?.bind fun c => some (counts.set index (c + 1))

/-- `entry_to_index` of a tuple: it reads the first element (`entry[0]`); in debug builds the length is asserted to be
one. -/
def IndexedLookup.index (k : IndexedLookup) (entry : List B128) : Option Nat :=
  entry[0]?.bind fun e => some (k.entryToIndex (toVal 7 e))

/-- The loop over the values of one flush, crates/m3/src/builder/indexed_lookup.rs:100-107, from the value `i` on. -/
def tallyValues (k : IndexedLookup) (W : Nat → Nat → Nat → B128) (f : TableFlush) : Nat → Nat → List Nat → Option (List Nat)
  | _, 0, counts => some counts
  | i, n + 1, counts => (k.index (f.columns.map fun c => flatGet W f.lv c i)).bind fun j =>
      (bump counts j).bind fun counts => tallyValues k W f (i + 1) n counts

/-- The loop over the flushes of a table, crates/m3/src/builder/indexed_lookup.rs:77-111. -/
def tallyFlushes (k : IndexedLookup) (chan size : Nat) (W : Nat → Nat → Nat → B128) :
    List TableFlush → List Nat → Option (List Nat)
  | [], counts => some counts
  | f :: fs, counts =>
      (if f.channel = chan ∧ f.direction = .pull then
        if f.selectors ≠ [] then none else tallyValues k W f 0 (size * 2 ^ f.lv) counts
      else some counts).bind fun counts => tallyFlushes k chan size W fs counts

/-- The loop over the tables, crates/m3/src/builder/indexed_lookup.rs:74-113. -/
def tallyTables (k : IndexedLookup) (chan : Nat) : List TallyTable → List Nat → Option (List Nat)
  | [], counts => some counts
  | t :: ts, counts =>
      (match t.witness with
      | some (size, W) => tallyFlushes k chan size W t.flushes counts
      | none => some counts).bind fun counts => tallyTables k chan ts counts

/-- The loop over the boundaries, crates/m3/src/builder/indexed_lookup.rs:116-121. -/
def tallyBoundaries (k : IndexedLookup) (chan : Nat) : List (Channel.Boundary B128) → List Nat → Option (List Nat)
  | [], counts => some counts
  | b :: bs, counts =>
      (if b.channelId = chan ∧ b.direction = .pull then (k.index b.values).bind fun j => bump counts j
      else some counts).bind fun counts => tallyBoundaries k chan bs counts

/-- `tally`, crates/m3/src/builder/indexed_lookup.rs:53-124. -/
def tally (k : IndexedLookup) (chan : Nat) (tables : List TallyTable) (boundaries : List (Channel.Boundary B128)) :
    Option (List Nat) :=
  (tallyTables k chan tables (List.replicate (2 ^ k.logSize) 0)).bind fun counts =>
    tallyBoundaries k chan boundaries counts

end Verif.M3
