import Verif.Math.ModelArith
import Verif.Transparent.ModelShift

/-! Model of the table builder of the arithmetization crate (crates/m3/src/builder/table.rs, column.rs, expr.rs).

The type parameters of a column, its field and its number `V` of values per row, are arguments here: `level` is
`FSub::TOWER_LEVEL` and `lv` is `log2_strict_usize(V)` (so that `V` is a power of two).  Column and constraint names,
namespaces and table identifiers are left out, and so are the checks that two columns belong to one table.  Flushes and
structured columns are left out.  `none` is a panic (a failed assertion). -/

set_option linter.dupNamespace false

namespace Verif.M3

open Verif.Arith

/-- `Col`, crates/m3/src/builder/column.rs:26-63: the index of the column in the table and its index in the partition
of the columns with as many values per row.  `upcast_col` (column.rs:66-85) is the identity on these. -/
structure Col where
  idx : Nat
  part : Nat
  deriving DecidableEq

/-- `ColumnDef`, crates/m3/src/builder/column.rs:125-178, without the structured columns.  Columns are referred to by
their index in the table. -/
inductive ColumnDef (F : Type) where
  | committed (towerLevel : Nat)
  | selected (col index indexBits : Nat)
  | projected (col startIndex querySize queryBits : Nat)
  | zeroPadded (col nPadVars startIndex nonzeroIndex : Nat)
  | shifted (col offset logBlockSize : Nat) (variant : Transparent.ShiftVariant)
  | packed (col logDegree : Nat)
  | computed (cols : List Nat) (expr : Circuit F)
  | constant (data : List F)
  | staticExp (bitCols : List Nat) (base : F) (baseTowerLevel : Nat)
  | dynamicExp (bitCols : List Nat) (base : Nat) (baseTowerLevel : Nat)

/-- `ColumnInfo` with its `ColumnShape`, crates/m3/src/builder/column.rs:88-107. -/
structure ColumnInfo (F : Type) where
  defn : ColumnDef F
  towerHeight : Nat
  logValuesPerRow : Nat
  isNonzero : Bool

/-- `TablePartition`, crates/m3/src/builder/table.rs:694-701: the columns of the partition (their indices in the table)
and its zero constraints.  Flushes are left out. -/
structure Partition (F : Type) where
  columns : List Nat
  zeros : List (Circuit F)

/-- `Table`, crates/m3/src/builder/table.rs:660-688.  The sparse index of the partitions, by the logarithm of the number
of values per row, is a function: a partition that is not there is empty. -/
structure Table (F : Type) where
  columns : List (ColumnInfo F)
  partitions : Nat → Partition F

/-- `Table::new`, crates/m3/src/builder/table.rs:761-769. -/
def Table.new (F : Type) : Table F := ⟨[], fun _ => ⟨[], []⟩⟩

variable {F : Type} [Field F] [DecidableEq F]

/-- `Table::new_column`, crates/m3/src/builder/table.rs:775-807. -/
def Table.newColumn (t : Table F) (level lv : Nat) (d : ColumnDef F) : Col × Table F :=
  (⟨t.columns.length, (t.partitions lv).columns.length⟩,
    { columns := t.columns ++ [⟨d, level, lv, false⟩]
      partitions := fun k =>
        if k = lv then { t.partitions k with columns := (t.partitions k).columns ++ [t.columns.length] }
        else t.partitions k })

/-- The expression that is a column, crates/m3/src/builder/expr.rs:43-50. -/
def Col.expr (c : Col) : Circuit F := var c.part

/-- `TableBuilder::add_committed`, crates/m3/src/builder/table.rs:116-130. -/
def Table.addCommitted (t : Table F) (level lv : Nat) : Option (Col × Table F) :=
  some (t.newColumn level lv (.committed level))

/-- `std::array::from_fn` with a builder: `f` is called on `i, i + 1, …`, `n` times in all. -/
def fromFn {α : Type} (f : Nat → Table F → Option (α × Table F)) : Nat → Nat → Table F → Option (List α × Table F)
  | _, 0, t => some ([], t)
  | i, n + 1, t => (f i t).bind fun p => (fromFn f (i + 1) n p.2).bind fun q => some (p.1 :: q.1, q.2)

/-- A `for` loop over `i, i + 1, …`, `n` times in all, that only adds to the table. -/
def forEach (f : Nat → Table F → Option (Table F)) : Nat → Nat → Table F → Option (Table F)
  | _, 0, t => some t
  | i, n + 1, t => (f i t).bind fun t => forEach f (i + 1) n t

/-- `TableBuilder::add_committed_multiple`, crates/m3/src/builder/table.rs:132-141. -/
def Table.addCommittedMultiple (t : Table F) (level lv n : Nat) : Option (List Col × Table F) :=
  fromFn (fun _ t => t.addCommitted level lv) 0 n t

/-- `TableBuilder::add_shifted`, crates/m3/src/builder/table.rs:143-166. -/
def Table.addShifted (t : Table F) (level lv : Nat) (c : Col) (logBlockSize offset : Nat)
    (v : Transparent.ShiftVariant) : Option (Col × Table F) :=
  if logBlockSize ≤ lv ∧ offset ≤ 2 ^ logBlockSize then
    some (t.newColumn level lv (.shifted c.idx offset logBlockSize v))
  else none

/-- `TableBuilder::add_packed`, crates/m3/src/builder/table.rs:168-191, of a column of level `levelSub` with `2^lvSub`
values per row as one of level `level` with `2^lv` values per row. -/
def Table.addPacked (t : Table F) (levelSub lvSub level lv : Nat) (c : Col) : Option (Col × Table F) :=
  if levelSub < level ∧ lv < lvSub ∧ level + lv = levelSub + lvSub then
    some (t.newColumn level lv (.packed c.idx (level - levelSub)))
  else none

/-- `TableBuilder::assert_zero`, crates/m3/src/builder/table.rs:547-556 and 713-727. -/
def Table.assertZero (t : Table F) (lv : Nat) (e : Circuit F) : Option (Table F) :=
  some { t with partitions := fun k =>
    if k = lv then { t.partitions k with zeros := (t.partitions k).zeros ++ [e] } else t.partitions k }

/-- The numbers `i` of the entries of `l` that are set. -/
def usedIndices (l : List Bool) : List Nat := (List.range l.length).filter fun i => l[i]? == some true

/-- `indices.iter().map(|&i| partition.columns[i]).collect()`, where indexing out of range panics. -/
def lookupAll (cols : List Nat) : List Nat → Option (List Nat)
  | [] => some []
  | i :: is => cols[i]?.bind fun c => (lookupAll cols is).bind fun cs => some (c :: cs)

/-- The loop that fills `var_remapping`, crates/m3/src/builder/table.rs:225-228: `n` is the new index of the first of
the old indices. -/
def fillRemapping : List Nat → Nat → List Nat → List Nat
  | [], _, v => v
  | old :: rest, n, v => fillRemapping rest (n + 1) (v.set old n)

/-- `TableBuilder::add_computed`, crates/m3/src/builder/table.rs:200-246.  The expression is given as the circuit it is
converted to. -/
def Table.addComputed (t : Table F) (level lv : Nat) (e : Circuit F) : Option (Col × Table F) :=
  (degree e).bind fun d =>
    if d ≤ 1 then
      let indices := usedIndices (varsUsage e)
      (lookupAll (t.partitions lv).columns indices).bind fun cols =>
        (remapVars e (fillRemapping indices 0 (List.replicate (nVars e) 0))).bind fun expr =>
          some (t.newColumn level lv (.computed cols expr))
    else
      (t.addCommitted level lv).bind fun p =>
        (p.2.assertZero lv (sub e p.1.expr)).bind fun t => some (p.1, t)

/-- `TableBuilder::add_selected`, crates/m3/src/builder/table.rs:254-273. -/
def Table.addSelected (t : Table F) (level lvSub : Nat) (c : Col) (index : Nat) : Option (Col × Table F) :=
  if index < 2 ^ lvSub then some (t.newColumn level 0 (.selected c.idx index lvSub)) else none

/-- `TableBuilder::add_selected_block`, crates/m3/src/builder/table.rs:281-310. -/
def Table.addSelectedBlock (t : Table F) (level lvSub lv : Nat) (c : Col) (index : Nat) : Option (Col × Table F) :=
  if lv < lvSub then some (t.newColumn level lv (.projected c.idx lv (lvSub - lv) index)) else none

/-- `TableBuilder::add_zero_pad_upcast`, crates/m3/src/builder/table.rs:315-340. -/
def Table.addZeroPadUpcast (t : Table F) (level lvSub lv : Nat) (c : Col) : Option (Col × Table F) :=
  if lvSub < lv then some (t.newColumn level lv (.zeroPadded c.idx (lv - lvSub) lvSub (2 ^ (lv - lvSub) - 1)))
  else none

/-- `TableBuilder::add_zero_pad`, crates/m3/src/builder/table.rs:346-373. -/
def Table.addZeroPad (t : Table F) (level lvSub lv : Nat) (c : Col) (nonzeroIndex : Nat) : Option (Col × Table F) :=
  if lvSub < lv ∧ nonzeroIndex < 2 ^ (lv - lvSub) then
    some (t.newColumn level lv (.zeroPadded c.idx (lv - lvSub) lvSub nonzeroIndex))
  else none

/-- `TableBuilder::add_constant`, crates/m3/src/builder/table.rs:379-405; the array has `2^lv` entries. -/
def Table.addConstant (t : Table F) (level lv : Nat) (constants : List F) : Option (Col × Table F) :=
  if constants.length = 2 ^ lv then some (t.newColumn level lv (.constant constants)) else none

/-- `WitnessIndex::fill_constant_cols`, crates/m3/src/builder/witness.rs:270-285, on one row of a table: the cells of the
constant columns. -/
def Table.fillConstants (t : Table F) (w : Nat → Nat → F) : Nat → Nat → F := fun i pos =>
  match t.columns[i]? with
  | none => w i pos
  | some c =>
    match c.defn with
    | .constant data => data[pos]?.getD (w i pos)
    | _ => w i pos

/-- `TableBuilder::add_static_exp`, crates/m3/src/builder/table.rs:419-453. -/
def Table.addStaticExp (t : Table F) (level : Nat) (powBits : List Col) (base : F) : Option (Col × Table F) :=
  if powBits.length ≤ 2 ^ level then some (t.newColumn level 0 (.staticExp (powBits.map Col.idx) base level))
  else none

/-- `TableBuilder::add_dynamic_exp`, crates/m3/src/builder/table.rs:468-502. -/
def Table.addDynamicExp (t : Table F) (level : Nat) (powBits : List Col) (base : Col) : Option (Col × Table F) :=
  if powBits.length ≤ 2 ^ level then some (t.newColumn level 0 (.dynamicExp (powBits.map Col.idx) base.idx level))
  else none

/-- `TableBuilder::assert_nonzero`, crates/m3/src/builder/table.rs:559-568. -/
def Table.assertNonzero (t : Table F) (c : Col) : Option (Table F) :=
  match t.columns[c.idx]? with
  | none => none
  | some i => some { t with columns := t.columns.set c.idx { i with isNonzero := true } }

end Verif.M3
