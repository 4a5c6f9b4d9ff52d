import Verif.M3.ModelTable
import Verif.Transparent.SpecShift
import Mathlib.Algebra.BigOperators.Fin
import Mathlib.Algebra.Field.Defs
import Mathlib.Algebra.CharP.Two
import Mathlib.GroupTheory.OrderOfElement

/-! Specification of tables: what it means for a row of values to satisfy the column definitions and constraints of a
table.  This is the meaning that the oracles and constraints give to a table when it is compiled
(crates/m3/src/builder/constraint_system.rs:356-569); all of it is row by row. -/

set_option linter.dupNamespace false

namespace Verif.M3

open Finset Verif.Arith

/-- A field that contains the binary tower: its subfields by tower level, its basis over the field with two elements
(the elements of the subfield of level `l` are the sums of the first `2^l` basis elements), and a multiplicative
generator of each subfield. -/
structure Tower (F : Type) [Field F] where
  sub : Nat → F → Prop
  basis : Nat → F
  gen : Nat → F
  height : Nat
  sub_zero : ∀ x, sub 0 x ↔ x = 0 ∨ x = 1
  sub_mono : ∀ l x, sub l x → sub (l + 1) x
  sub_add : ∀ l x y, sub l x → sub l y → sub l (x + y)
  sub_mul : ∀ l x y, sub l x → sub l y → sub l (x * y)
  basis_sub : ∀ l ≤ height, ∀ k < 2 ^ l, sub l (basis k)
  indep : ∀ a : Nat → F, (∀ k, a k = 0 ∨ a k = 1) → ∑ k ∈ range (2 ^ height), a k * basis k = 0 →
    ∀ k < 2 ^ height, a k = 0
  gen_sub : ∀ l ≤ height, sub l (gen l)
  gen_order : ∀ l ≤ height, orderOf (gen l) = 2 ^ 2 ^ l - 1

variable {F : Type} [Field F] [DecidableEq F]

/-- The values of one row of a table, by column and by position within the cell. -/
abbrev Row (F : Type) := Nat → Nat → F

/-- The number that a bit stands for. -/
def bit (x : F) : Nat := if x = 1 then 1 else 0

/-- The number with the given bits, least significant first. -/
def num : List F → Nat
  | [] => 0
  | x :: xs => bit x + 2 * num xs

/-- The number in the cell of a column of `n` bits. -/
def word (w : Row F) (c : Col) (n : Nat) : Nat := num ((List.range n).map (w c.idx))

/-- The `k`-th number of 32 bits in the cell of a column of bits. -/
def wordAt (w : Row F) (c : Col) (k : Nat) : Nat := num ((List.range 32).map fun j => w c.idx (32 * k + j))

/-- The number whose bits are in the given columns of one bit, least significant first. -/
def wide (w : Row F) (cs : List Col) : Nat := num (cs.map fun c => w c.idx 0)

/-- The values of the columns of the partition `lv` at one position of the cells. -/
def Table.query (t : Table F) (lv : Nat) (w : Row F) (pos : Nat) : List F :=
  (t.partitions lv).columns.map fun i => w i pos

/-- The cell `f` of a column with `2^lv` values in a row, of the level `level`, is what the definition says. -/
def Defines (Tw : Tower F) (w : Row F) (level lv : Nat) (f : Nat → F) : ColumnDef F → Prop
  | .committed _ => True
  | .selected c index bits => ∀ pos < 2 ^ lv, f pos = w c (index % 2 ^ bits + 2 ^ bits * pos)
  | .projected c s k q => ∀ pos < 2 ^ lv, f pos = w c (pos % 2 ^ s + 2 ^ s * (q % 2 ^ k + 2 ^ k * (pos / 2 ^ s)))
  | .zeroPadded c k s nz => ∀ pos < 2 ^ lv,
      f pos = if pos / 2 ^ s % 2 ^ k = nz then w c (pos % 2 ^ s + 2 ^ s * (pos / 2 ^ s / 2 ^ k)) else 0
  | .shifted c o b v => ∀ pos < 2 ^ lv,
      f pos = Transparent.shifted v b o (fun x => w c (x + 2 ^ b * (pos / 2 ^ b))) (pos % 2 ^ b)
  | .packed c k => ∀ pos < 2 ^ lv,
      f pos = ∑ e ∈ range (2 ^ k), w c (e + 2 ^ k * pos) * Tw.basis (e * 2 ^ (level - k))
  | .computed cols e => ∀ pos < 2 ^ lv, evaluate e (cols.map fun i => w i pos) = some (f pos)
  | .constant data => ∀ pos < 2 ^ lv, data[pos]? = some (f pos)
  | .staticExp bits base _ => ∀ pos < 2 ^ lv,
      f pos = base ^ num (bits.map fun i => w i pos)
  | .dynamicExp bits base _ => ∀ pos < 2 ^ lv,
      f pos = w base pos ^ num (bits.map fun i => w i pos)

/-- The row satisfies everything the table says about the column number `i`. -/
def ColumnHolds (Tw : Tower F) (w : Row F) (i : Nat) (c : ColumnInfo F) : Prop :=
  (∀ pos < 2 ^ c.logValuesPerRow, Tw.sub c.towerHeight (w i pos)) ∧
    Defines Tw w c.towerHeight c.logValuesPerRow (w i) c.defn ∧
    (c.isNonzero = true → ∀ pos < 2 ^ c.logValuesPerRow, w i pos ≠ 0)

/-- The row satisfies the column definitions and the constraints of the table: the values are in the fields of the
columns, derived columns have the values they are defined to have, columns asserted to be non-zero are, and every zero
constraint evaluates to zero at every position of the cells. -/
def RowHolds (Tw : Tower F) (t : Table F) (w : Row F) : Prop :=
  (∀ i c, t.columns[i]? = some c → ColumnHolds Tw w i c) ∧
    ∀ lv, ∀ e ∈ (t.partitions lv).zeros, ∀ pos < 2 ^ lv, evaluate e (t.query lv w pos) = some 0

/-- `c` is a column of the table, of the given level and number of values per row, as the type of a column promises. -/
def Table.Has (t : Table F) (c : Col) (level lv : Nat) : Prop :=
  (∃ i, t.columns[c.idx]? = some i ∧ i.towerHeight = level ∧ i.logValuesPerRow = lv) ∧
    (t.partitions lv).columns[c.part]? = some c.idx

/-- The columns that a definition refers to. -/
def ColumnDef.refs : ColumnDef F → List Nat
  | .committed _ => []
  | .selected c _ _ => [c]
  | .projected c _ _ _ => [c]
  | .zeroPadded c _ _ _ => [c]
  | .shifted c _ _ _ => [c]
  | .packed c _ => [c]
  | .computed cols _ => cols
  | .constant _ => []
  | .staticExp bits _ _ => bits
  | .dynamicExp bits base _ => base :: bits

/-- What holds of the tables that the builder makes: definitions and partitions refer to columns of the table, and zero
constraints to columns of their partition. -/
structure WellFormed (t : Table F) : Prop where
  refs : ∀ (i : Nat) (c : ColumnInfo F), t.columns[i]? = some c → ∀ j ∈ c.defn.refs, j < t.columns.length
  parts : ∀ lv, ∀ i ∈ (t.partitions lv).columns, i < t.columns.length
  zeros : ∀ lv, ∀ e ∈ (t.partitions lv).zeros, ∀ q : List F, q.length = (t.partitions lv).columns.length →
    ∃ a, evaluate e q = some a

end Verif.M3
