import Verif.M3.ModelAdd
import Verif.M3.SpecBarrel

/-! Model of the barrel shifter, crates/m3/src/gadgets/barrel_shifter.rs. -/

set_option linter.dupNamespace false

namespace Verif.M3

open Finset Verif.Arith

variable {F : Type} [Field F] [DecidableEq F]

/-- The columns of one step of the barrel shifter: the bit of the shift amount, the shifted column, the partial shift
and the packed views of the partial shift, the shifted column and the column before. -/
structure BarrelStep where
  bit : Col
  shifted : Col
  partialShift : Col
  partialPacked : Col
  shiftedPacked : Col
  currentPacked : Col

/-- `BarrelShifter`, crates/m3/src/gadgets/barrel_shifter.rs:19-46.  The vectors of columns are one list of steps here,
and the packed columns, which the struct does not keep, are kept. -/
structure BarrelShifter where
  input : Col
  shiftAmount : Col
  steps : List BarrelStep
  output : Col
  variant : Transparent.ShiftVariant

/-- The body of the loop of `BarrelShifter::new`, crates/m3/src/gadgets/barrel_shifter.rs:77-93. -/
def BarrelShifter.step (t : Table F) (v : Transparent.ShiftVariant) (i : Nat) (current p b : Col) :
    Option (BarrelStep × Table F) :=
  (t.addShifted 0 5 current 5 (2 ^ i) v).bind fun s =>
    (s.2.addPacked 0 5 5 0 p).bind fun pp =>
      (pp.2.addPacked 0 5 5 0 s.1).bind fun sp =>
        (sp.2.addPacked 0 5 5 0 current).bind fun cp =>
          (cp.2.assertZero 0 (sub pp.1.expr (add (mul sp.1.expr b.expr)
              (mul cp.1.expr (add b.expr (constant 1)))))).bind fun t =>
            some (⟨b, s.1, p, pp.1, sp.1, cp.1⟩, t)

/-- The loop of `BarrelShifter::new`, crates/m3/src/gadgets/barrel_shifter.rs:74-95, from `i` on, over the remaining
partial shifts and bits; the result is the steps and the last partial shift. -/
def BarrelShifter.loop (v : Transparent.ShiftVariant) : List Col → List Col → Nat → Col → Table F →
    Option (List BarrelStep × Col × Table F)
  | p :: ps, b :: bs, i, current, t =>
    (BarrelShifter.step t v i current p b).bind fun s =>
      (BarrelShifter.loop v ps bs (i + 1) p s.2).bind fun r => some (s.1 :: r.1, r.2.1, r.2.2)
  | _, _, _, current, t => some ([], current, t)

/-- `BarrelShifter::new`, crates/m3/src/gadgets/barrel_shifter.rs:63-106. -/
def BarrelShifter.new (t : Table F) (input shiftAmount : Col) (v : Transparent.ShiftVariant) :
    Option (BarrelShifter × Table F) :=
  (t.addCommittedMultiple 0 5 5).bind fun p =>
    (fromFn (fun i t => t.addSelected 0 4 shiftAmount i) 0 5 p.2).bind fun b =>
      (BarrelShifter.loop v p.1 b.1 0 input b.2).bind fun r =>
        some (⟨input, shiftAmount, r.1, r.2.1, v⟩, r.2.2)

/-- The shifts of a `u32` in `BarrelShifter::populate`, crates/m3/src/gadgets/barrel_shifter.rs:134-140. -/
def barrelShift : Transparent.ShiftVariant → Nat → Nat → Nat
  | .logicalLeft, k, x => (x <<< k) % 2 ^ 32
  | .logicalRight, k, x => x >>> k
  | .circularLeft, k, x => ((x <<< k) % 2 ^ 32) ||| (x >>> (32 - k))

/-- The element of the field of 32 bits with the given bits: what a packed column of one value holds, since its memory is
that of the column of bits it is made from (crates/m3/src/builder/witness.rs:428-430). -/
def packWord (basis : Nat → F) (x : Nat) : F := ∑ e ∈ range 32, ofBit (x.testBit e) * basis e

/-- The loop over the steps of `BarrelShifter::populate`, crates/m3/src/gadgets/barrel_shifter.rs:131-145, on one row:
`amount` is the shift amount, `current` the word so far, and the row so far is changed. -/
def BarrelShifter.fill (basis : Nat → F) (v : Transparent.ShiftVariant) (amount : Nat) :
    List BarrelStep → Nat → Nat → Row F → Row F
  | [], _, _, w => w
  | s :: ss, j, current, w =>
    let b := decide ((amount >>> j) % 2 = 1)
    let sh := barrelShift v (2 ^ j) current
    let next := if b then sh else current
    let w := setWords (setWords (setBit w s.bit (ofBit b)) s.shifted 1 fun _ => sh) s.partialShift 1 fun _ => next
    let w := setBit (setBit (setBit w s.partialPacked (packWord basis next)) s.shiftedPacked (packWord basis sh))
      s.currentPacked (packWord basis current)
    fill basis v amount ss (j + 1) next w

/-- `BarrelShifter::populate`, crates/m3/src/gadgets/barrel_shifter.rs:117-147, on one row. -/
def BarrelShifter.populate (g : BarrelShifter) (basis : Nat → F) (w : Row F) : Row F :=
  BarrelShifter.fill basis g.variant (num ((List.range 16).map (w g.shiftAmount.idx))) g.steps 0 (getWord w g.input 0) w

end Verif.M3
