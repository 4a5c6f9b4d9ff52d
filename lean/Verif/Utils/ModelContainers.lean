import Verif.Utils.SpecContainers

/-! Model of the sparse index, crates/utils/src/sparse_index.rs, of two-dimensional arrays, crates/utils/src/array_2d.rs, and of
subranges of sequences, crates/utils/src/random_access_sequence.rs.  A panic is `none`.  Simplified: numbers do not overflow. -/

namespace Verif.Containers

/-! ### The sparse index -/

/-- `SparseIndex`, crates/utils/src/sparse_index.rs:3-7. -/
structure SparseIndex (T : Type) where
  entries : List (Option T)

variable {T : Type}

/-- `new`, `default` and `with_capacity`, crates/utils/src/sparse_index.rs:10-18, 82-88. -/
def SparseIndex.new : SparseIndex T := ⟨[]⟩
def SparseIndex.withCapacity (n : Nat) : SparseIndex T := ⟨List.replicate n none⟩

/-- `if self.entries.len() <= id { self.entries.resize_with(id + 1, || None) }`, crates/utils/src/sparse_index.rs:21-23,
36-38. -/
def resized (l : List (Option T)) (id : Nat) : List (Option T) :=
  if l.length ≤ id then l ++ List.replicate (id + 1 - l.length) none else l

/-- `entry(id).or_insert(v)`, crates/utils/src/sparse_index.rs:20-25, 131-135. -/
def SparseIndex.orInsert (s : SparseIndex T) (id : Nat) (v : T) : SparseIndex T :=
  let l := resized s.entries id
  ⟨l.set id (some (((l[id]?).getD none).getD v))⟩

/-- `get`, crates/utils/src/sparse_index.rs:27-29. -/
def SparseIndex.get (s : SparseIndex T) (id : Nat) : Option T := s.entries[id]?.bind fun v => v

/-- A write through `get_mut`, crates/utils/src/sparse_index.rs:31-33. -/
def SparseIndex.modify (s : SparseIndex T) (id : Nat) (f : T → T) : SparseIndex T :=
  match s.entries[id]?.bind fun v => v with
  | some v => ⟨s.entries.set id (some (f v))⟩
  | none => s

/-- `set`, crates/utils/src/sparse_index.rs:35-40. -/
def SparseIndex.set (s : SparseIndex T) (id : Nat) (v : T) : SparseIndex T := ⟨(resized s.entries id).set id (some v)⟩

/-- `contains_key`, crates/utils/src/sparse_index.rs:42-44. -/
def SparseIndex.containsKey (s : SparseIndex T) (id : Nat) : Bool := (s.entries[id]?.map Option.isSome).getD false

/-- `is_empty`, `len`, `iter`, `keys` and `values`, crates/utils/src/sparse_index.rs:46-75; `into_iter`, 97-102, is as `iter`. -/
def SparseIndex.isEmpty (s : SparseIndex T) : Bool := s.entries.all Option.isNone
def SparseIndex.len (s : SparseIndex T) : Nat := (s.entries.filterMap fun v => v).length
def SparseIndex.iter (s : SparseIndex T) : List (Nat × T) := s.entries.zipIdx.filterMap fun p => p.1.map fun v => (p.2, v)
def SparseIndex.keys (s : SparseIndex T) : List Nat := s.entries.zipIdx.filterMap fun p => p.1.map fun _ => p.2
def SparseIndex.values (s : SparseIndex T) : List T := s.entries.filterMap fun v => v

/-- `from_iter`, crates/utils/src/sparse_index.rs:105-113. -/
def SparseIndex.fromIter (l : List (Nat × T)) : SparseIndex T := l.foldl (fun s p => s.set p.1 p.2) .new

/-- An operation of a caller. -/
def SparseIndex.run (s : SparseIndex T) : Op T → SparseIndex T
  | .set id v => s.set id v
  | .orInsert id v => s.orInsert id v
  | .modify id f => s.modify id f

/-! ### Arrays with two dimensions -/

/-- `Array2D`, crates/utils/src/array_2d.rs:8-13. -/
structure Array2D (T : Type) where
  data : List T
  rows : Nat
  cols : Nat

/-- All arrays have as many elements as their shape says: `new` and `reshape` make no others. -/
def Array2D.WF (a : Array2D T) : Prop := a.data.length = a.rows * a.cols

/-- `new`, crates/utils/src/array_2d.rs:17-23. -/
def Array2D.new (default : T) (rows cols : Nat) : Array2D T := ⟨List.replicate (rows * cols) default, rows, cols⟩

/-- `rows`, crates/utils/src/array_2d.rs:40-42. -/
def Array2D.numRows (a : Array2D T) : Option Nat := if a.cols = 0 then none else some (a.data.length / a.cols)

/-- `get_row`, crates/utils/src/array_2d.rs:50-53. -/
def Array2D.getRow (a : Array2D T) (i : Nat) : Option (List T) :=
  let start := i * a.cols
  if start + a.cols ≤ a.data.length then some ((a.data.drop start).take a.cols) else none

/-- `iter_rows`, crates/utils/src/array_2d.rs:56-58, to its end. -/
def Array2D.iterRows (a : Array2D T) : Option (List (List T)) := (List.range a.rows).mapM a.getRow

/-- `reshape`, crates/utils/src/array_2d.rs:69-79; the outer `Option` is its own. -/
def Array2D.reshape (a : Array2D T) (rows cols : Nat) : Option (Array2D T) :=
  if rows * cols ≠ a.data.length then none else some ⟨a.data, rows, cols⟩

/-- `index`, crates/utils/src/array_2d.rs:113-115, and a write through `index_mut`, 119-121. -/
def Array2D.index (a : Array2D T) (i j : Nat) : Option T := a.data[i * a.cols + j]?
def Array2D.write (a : Array2D T) (i j : Nat) (v : T) : Option (Array2D T) :=
  if i * a.cols + j < a.data.length then some { a with data := a.data.set (i * a.cols + j) v } else none

/-- `sum_rows`, crates/utils/src/array_2d.rs:127-137; `sum[i] += elem` for the elements of a row, which has as many as the
sum. -/
def Array2D.sumRows [Add T] [Zero T] (a : Array2D T) : Option (List T) :=
  a.iterRows.map fun rows => rows.foldl (fun sum row => List.zipWith (· + ·) sum row) (List.replicate a.cols 0)

/-! ### Subranges -/

/-- A sequence that can be read and written by index; the accesses without a check are the first two functions, with `len` the
number of elements. -/
structure Seq (S T : Type) where
  len : S → Nat
  getUnchecked : S → Nat → Option T
  setUnchecked : S → Nat → T → Option S

/-- `&mut [T]`, crates/utils/src/random_access_sequence.rs:59-90; what is undefined behaviour in Rust is `none`. -/
def sliceSeq : Seq (List T) T where
  len := List.length
  getUnchecked s i := s[i]?
  setUnchecked s i v := if i < s.length then some (s.set i v) else none

variable {S : Type}

/-- `get` and `set`, crates/utils/src/random_access_sequence.rs:13-17, 29-33. -/
def Seq.get (q : Seq S T) (s : S) (i : Nat) : Option T := if i < q.len s then q.getUnchecked s i else none
def Seq.set (q : Seq S T) (s : S) (i : Nat) (v : T) : Option S := if i < q.len s then q.setUnchecked s i v else none

/-- `SequenceSubrangeMut`, crates/utils/src/random_access_sequence.rs:133-170, and `SequenceSubrange`, 92-130, as a way to read
and write what it borrows; `new` panics if it is out of range. -/
def Seq.subrange (q : Seq S T) (s : S) (offset len : Nat) : Option (Seq S T) :=
  if offset + len ≤ q.len s then
    some
      { len := fun _ => len
        getUnchecked := fun s i => q.getUnchecked s (i + offset)
        setUnchecked := fun s i v => q.setUnchecked s (i + offset) v }
  else none

end Verif.Containers
