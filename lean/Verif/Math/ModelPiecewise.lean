import Verif.Util.Loop

/-! Model of crates/math/src/piecewise_multilinear.rs.  The arithmetic on `usize` is exact. -/

namespace Verif.Piecewise

/-- The errors of `evaluate_piecewise_multilinear`. -/
inductive Error where
  | tooLong
  | incompatibleEvals
  deriving DecidableEq

variable {F : Type*} [CommRing F]

/-- `extrapolate_line_scalar`, crates/math/src/univariate.rs:256-263. -/
def line (x0 x1 z : F) : F := x0 + (x1 - x0) * z

/-- `fold_segment` on the segment of `len` entries starting at `base`,
crates/math/src/piecewise_multilinear.rs:107-116. -/
def foldSegment (base len : Nat) (z : F) (ev : Slice F) : Option (Slice F) :=
  (forRange (len / 2) (fun i ev =>
    (ev.get? (base + 2 * i)).bind fun a => (ev.get? (base + (2 * i + 1))).bind fun b =>
      ev.set? (base + i) (line a b z)) ev).bind fun ev =>
    if len % 2 = 1 then
      (ev.get? (base + 2 * (len / 2))).bind fun a => ev.set? (base + len / 2) (line a 0 z)
    else some ev

/-- The main loop, crates/math/src/piecewise_multilinear.rs:91-98: `i` is the position of the next
coordinate; the slice `[index - n_to_fold .. index]` panics on underflow. -/
def pwLoop (counts : List Nat) : Nat → List F → Nat → Nat → Slice F → Option (Slice F)
  | _, [], _, _, ev => some ev
  | i, r :: rs, index, nFold, ev =>
    let nf := nFold + counts.getD i 0
    if index < nf then none
    else (foldSegment (index - nf) nf r ev).bind
      (pwLoop counts (i + 1) rs (index - nf / 2) (nf - nf / 2))

/-- The number of table entries of all pieces, crates/math/src/piecewise_multilinear.rs:57-61. -/
def totalLength : Nat → List Nat → Nat
  | _, [] => 0
  | i, n :: ns => n <<< i + totalLength (i + 1) ns

/-- `evaluate_piecewise_multilinear`, crates/math/src/piecewise_multilinear.rs:46-101. -/
def evaluate (point : List F) (counts : List Nat) (ev : Slice F) : Option (Except Error F) :=
  if totalLength 0 counts > 2 ^ point.length then some (.error .tooLong)
  else if ev.size ≠ counts.sum then some (.error .incompatibleEvals)
  else (pwLoop counts 0 point ev.size 0 ev).bind fun ev => (ev.get? 0).map .ok

end Verif.Piecewise
