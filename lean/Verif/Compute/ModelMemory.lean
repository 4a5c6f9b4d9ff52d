import Mathlib.Data.List.Basic
import Mathlib.Logic.Function.Basic

/-! Model of the memory handles and the bump allocator: crates/compute/src/memory.rs, crates/compute/src/alloc.rs,
crates/compute/src/cpu/memory.rs and crates/fast_compute/src/memory.rs.

`w` is the base-2 logarithm of `ALIGNMENT`: zero for `CpuMemory`, `P::LOG_WIDTH` for `PackedMemory<P>`.  Addresses and
lengths count scalars.  `none` is a panic.  Sizes are natural numbers: overflow of `usize` is left out. -/

namespace Verif.Compute

/-- `strict_log_2`, crates/utils/src/checked_arithmetics.rs:16-27. -/
def strictLog2 (n : Nat) : Option Nat := if n = 2 ^ Nat.log2 n then some (Nat.log2 n) else none

/-- A mutable or immutable slice handle: `PackedMemorySliceMut`, crates/fast_compute/src/memory.rs:387-393, or
`PackedMemorySlice`, 296-302, or a slice of host memory.  A `single` handle is one for less than a packed element; here
only the part of the memory it stands for is kept. -/
inductive Handle where
  | slice (start len : Nat)
  | single (start len : Nat)
deriving DecidableEq

/-- `SizedSlice::len`, crates/fast_compute/src/memory.rs:487-493. -/
def Handle.len : Handle → Nat
  | .slice _ l => l
  | .single _ l => l

/-- The first address of a handle. -/
def Handle.start : Handle → Nat
  | .slice s _ => s
  | .single s _ => s

/-- `ComputeMemory::split_at_mut`, crates/fast_compute/src/memory.rs:65-82 and crates/compute/src/cpu/memory.rs:59-64. -/
def splitAtMut (w : Nat) (h : Handle) (mid : Nat) : Option (Handle × Handle) :=
  if mid % 2 ^ w ≠ 0 then none
  else match h with
    | .slice s l => if mid / 2 ^ w ≤ l / 2 ^ w then some (.slice s mid, .slice (s + mid) (l - mid)) else none
    | .single _ _ => none

/-- `ComputeMemory::split_half_mut`, crates/fast_compute/src/memory.rs:164-226 and, for `w = 0`,
crates/compute/src/memory.rs:187-197. -/
def splitHalfMut (w : Nat) (h : Handle) : Option (Handle × Handle) :=
  if (strictLog2 h.len).isSome ∧ 1 < h.len then
    match h with
    | .slice s l =>
      if 1 < l / 2 ^ w then
        let mid := l / 2 ^ w / 2 * 2 ^ w
        some (.slice s mid, .slice (s + mid) (l - mid))
      else if l / 2 ^ w = 1 then
        some (.single s (2 ^ w / 2), .single (s + 2 ^ w / 2) (2 ^ w / 2))
      else none
    | .single s l => some (.single s (l / 2), .single (s + l / 2) (l - l / 2))
  else none

/-- A loop `for _ in 0..n { (lhs, _) = split_half_mut(lhs) }`. -/
def halve (w : Nat) : Nat → Handle → Option Handle
  | 0, h => some h
  | n + 1, h => (splitHalfMut w h).bind fun p => halve w n p.1

/-- The outcome of an allocation: the slice and the remaining buffer, or an error that leaves the buffer as it is, or a
panic. -/
inductive AllocResult where
  | ok (slice rest : Handle)
  | outOfMemory
  | panic

/-- `BumpAllocator::alloc`, crates/compute/src/alloc.rs:68-91. -/
def alloc (w : Nat) (buffer : Handle) (n : Nat) : AllocResult :=
  if buffer.len < n then .outOfMemory
  else
    match splitAtMut w buffer (max n (2 ^ w)) with
    | none => .panic
    | some (lhs, rhs) =>
      if n < 2 ^ w then
        match strictLog2 n with
        | none => .panic
        | some k =>
          match halve w (w - k) lhs with
          | none => .panic
          | some lhs => .ok lhs rhs
      else .ok lhs rhs

/-- One allocator: the buffer that remains, and the slices it has handed out. -/
structure Scope where
  buffer : Handle
  live : List Handle

/-- What a program does with an allocator: allocate, open a scope with `subscope_allocator`
(crates/compute/src/alloc.rs:102-104, which reborrows what remains, 53-61), or end the innermost scope, which ends the
lifetime of its slices.  `alloc` takes the mutex of the buffer, so that calls from several threads are in some order. -/
inductive Op where
  | alloc (n : Nat)
  | enter
  | leave

/-- One operation on the allocators, innermost first. -/
def step (w : Nat) : List Scope → Op → Option (List Scope)
  | [], _ => none
  | s :: ss, .alloc n =>
    match alloc w s.buffer n with
    | .ok l r => some (⟨r, l :: s.live⟩ :: ss)
    | .outOfMemory => some (s :: ss)
    | .panic => none
  | s :: ss, .enter => some (⟨s.buffer, []⟩ :: s :: ss)
  | [_], .leave => none
  | _ :: s :: ss, .leave => some (s :: ss)

/-- A history of operations. -/
def run (w : Nat) : List Scope → List Op → Option (List Scope)
  | s, [] => some s
  | s, op :: ops => (step w s op).bind fun s => run w s ops

/-! ### Ranges -/

/-- `std::ops::Bound`. -/
inductive Bnd where
  | included (n : Nat)
  | excluded (n : Nat)
  | unbounded

/-- `PackedMemory::to_packed_range`, crates/fast_compute/src/memory.rs:229-256. -/
def toPackedRange (w len : Nat) (a b : Bnd) : Option (Nat × Nat) :=
  let start := match a with
    | .included n => n
    | .excluded n => n + 2 ^ w
    | .unbounded => 0
  let stop := match b with
    | .included n => n + 2 ^ w
    | .excluded n => n
    | .unbounded => len
  if start = 0 ∧ stop = len then some (0, len)
  else if start % 2 ^ w ≠ 0 ∨ stop % 2 ^ w ≠ 0 then none
  else some (start / 2 ^ w, stop / 2 ^ w)

/-- `PackedMemory::slice` and `slice_mut`, crates/fast_compute/src/memory.rs:38-63. -/
def slicePacked (w : Nat) (h : Handle) (a b : Bnd) : Option Handle :=
  (toPackedRange w h.len a b).bind fun (start, stop) =>
    if start = 0 ∧ stop = h.len then some h
    else match h with
      | .slice s l =>
        if start ≤ stop ∧ stop ≤ l / 2 ^ w then some (.slice (s + start * 2 ^ w) ((stop - start) * 2 ^ w)) else none
      | .single _ _ => none

/-- `CpuMemory::slice` and `slice_mut`, crates/compute/src/cpu/memory.rs:31-57. -/
def sliceCpu (s l : Nat) (a b : Bnd) : Option Handle :=
  let start := match a with
    | .included n => n
    | .excluded n => n + 1
    | .unbounded => 0
  let stop := match b with
    | .included n => n + 1
    | .excluded n => n
    | .unbounded => l
  if start ≤ stop ∧ stop ≤ l then some (.slice (s + start) (stop - start)) else none

/-- `ComputeMemory::slice_power_of_two_mut`, crates/compute/src/memory.rs:214-236. -/
def slicePowerOfTwoMut (w : Nat) (h : Handle) (n : Nat) : Option Handle :=
  if h.len ≤ n then some h
  else
    (if 2 ^ w < n then slicePacked w h .unbounded (.excluded n) else some h).bind fun r =>
      (strictLog2 n).bind fun a => (strictLog2 r.len).bind fun b => halve w (b - a) r

/-- `PackedMemory::slice_chunks_mut`, crates/fast_compute/src/memory.rs:106-131. -/
def sliceChunksMut (w : Nat) (h : Handle) (c : Nat) : Option (List Handle) :=
  if c = h.len then some [h]
  else if c % 2 ^ w ≠ 0 ∨ c = 0 ∨ h.len % c ≠ 0 then none
  else match h with
    | .slice s l => some ((List.range (l / c)).map fun i => .slice (s + i * c) c)
    | .single _ _ => none

/-! ### The contents of packed memory -/

variable {F : Type} [Zero F]

/-- `PackedMemorySliceMut`, crates/fast_compute/src/memory.rs:387-393, with its contents: a slice of the memory, or a copy
of part of a packed element.  `elem` is the address of the first scalar of the packed element. -/
inductive View (F : Type) where
  | slice (start len : Nat)
  | single (owned : Nat → F) (len elem offset : Nat)

/-- What the handle stands for. -/
def View.handle : View F → Handle
  | .slice s l => .slice s l
  | .single _ l e o => .single (e + o) l

/-- The loop of `apply_changes_to_original`, crates/fast_compute/src/memory.rs:434-436, from `i` on: setting an element
that the packed field does not have panics. -/
def copyBack (w : Nat) (owned : Nat → F) (elem offset : Nat) : Nat → Nat → (Nat → F) → Option (Nat → F)
  | _, 0, m => some m
  | i, n + 1, m =>
    if i + offset < 2 ^ w then copyBack w owned elem offset (i + 1) n (Function.update m (elem + (i + offset)) (owned i))
    else none

/-- `apply_changes_to_original`, crates/fast_compute/src/memory.rs:427-441. -/
def applyChanges (w : Nat) (m : Nat → F) : View F → Option (Nat → F)
  | .slice _ _ => some m
  | .single owned len elem offset => copyBack w owned elem offset 0 len m

/-- `SmallOwnedChunk::new_from_slice`, crates/fast_compute/src/memory.rs:261-268, of the packed element at `elem`. -/
def newFromSlice (m : Nat → F) (elem offset len : Nat) : Nat → F := fun i => if i < len then m (elem + offset + i) else 0

/-- `SmallOwnedChunk::subrange`, crates/fast_compute/src/memory.rs:270-284; the assertion on the end holds where it is
used. -/
def subrange (owned : Nat → F) (start stop : Nat) : Nat → F :=
  if start = 0 then owned else fun i => if i < stop - start then owned (start + i) else 0

/-- `split_half_mut` with contents, crates/fast_compute/src/memory.rs:164-226. -/
def splitHalfView (w : Nat) (m : Nat → F) (v : View F) : Option ((Nat → F) × View F × View F) :=
  if (strictLog2 v.handle.len).isSome ∧ 1 < v.handle.len then
    (applyChanges w m v).bind fun m =>
      match v with
      | .slice s l =>
        if 1 < l / 2 ^ w then
          let mid := l / 2 ^ w / 2 * 2 ^ w
          some (m, .slice s mid, .slice (s + mid) (l - mid))
        else if l / 2 ^ w = 1 then
          some (m, .single (newFromSlice m s 0 (2 ^ w / 2)) (2 ^ w / 2) s 0,
            .single (newFromSlice m s (2 ^ w / 2) (2 ^ w / 2)) (2 ^ w / 2) s (2 ^ w / 2))
        else none
      | .single owned len elem offset =>
        some (m, .single (subrange owned 0 (len / 2)) (len / 2) elem offset,
          .single (subrange owned (len / 2) len) (len - len / 2) elem (offset + len / 2))
  else none

/-- Reading the element `i` of a handle, crates/fast_compute/src/memory.rs:410-415. -/
def readView (m : Nat → F) (v : View F) (i : Nat) : F :=
  match v with
  | .slice s _ => m (s + i)
  | .single owned _ _ _ => owned i

/-- Writing the element `i` of a handle, crates/fast_compute/src/memory.rs:418-423. -/
def writeView (m : Nat → F) (v : View F) (i : Nat) (x : F) : (Nat → F) × View F :=
  match v with
  | .slice s l => (Function.update m (s + i) x, .slice s l)
  | .single owned len elem offset => (m, .single (Function.update owned i x) len elem offset)

/-- What a program does with the handles of a buffer: split one, write through one, or drop one. -/
inductive ViewOp (F : Type) where
  | splitHalf (k : Nat)
  | write (k i : Nat) (x : F)
  | drop (k : Nat)

/-- One operation on the memory and the handles that are alive, crates/fast_compute/src/memory.rs:164-226, 418-423 and
495-499; `none` is a panic, or an operation on a handle that is not there. -/
def stepView (w : Nat) (m : Nat → F) (vs : List (View F)) : ViewOp F → Option ((Nat → F) × List (View F))
  | .splitHalf k => vs[k]?.bind fun v => (splitHalfView w m v).bind fun p =>
      some (p.1, vs.take k ++ p.2.1 :: p.2.2 :: vs.drop (k + 1))
  | .write k i x => vs[k]?.bind fun v =>
      if i < v.handle.len then
        let p := writeView m v i x
        some (p.1, vs.take k ++ p.2 :: vs.drop (k + 1))
      else none
  | .drop k => vs[k]?.bind fun v => (applyChanges w m v).bind fun m => some (m, vs.take k ++ vs.drop (k + 1))

/-- A history of operations on handles. -/
def runView (w : Nat) : (Nat → F) → List (View F) → List (ViewOp F) → Option ((Nat → F) × List (View F))
  | m, vs, [] => some (m, vs)
  | m, vs, op :: ops => (stepView w m vs op).bind fun p => runView w p.1 p.2 ops

/-- `to_owned_mut`, crates/fast_compute/src/memory.rs:94-104, one write through the new handle, and its end
(crates/fast_compute/src/memory.rs:495-499): the original data of the new handle is the copy in the old one. -/
def reborrowWrite (w : Nat) (m : Nat → F) (v : View F) (i : Nat) (x : F) : Option ((Nat → F) × View F) :=
  match v with
  | .slice s l => some (Function.update m (s + i) x, .slice s l)
  | .single owned len elem offset =>
    (copyBack w (Function.update owned i x) 0 offset 0 len owned).bind fun owned => some (m, .single owned len elem offset)

end Verif.Compute
