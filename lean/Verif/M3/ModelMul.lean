import Verif.M3.ModelAdd
import Verif.M3.SpecMul

/-! Model of the gadgets that multiply unsigned numbers, crates/m3/src/gadgets/mul.rs:1-407. -/

set_option linter.dupNamespace false

namespace Verif.M3

open Finset Verif.Arith

variable {F : Type} [Field F] [DecidableEq F]

/-- The sum of the products of bits and basis elements, added from the left. -/
def packFpFrom (basis : Nat → F) : Nat → Circuit F → List Col → Circuit F
  | _, acc, [] => acc
  | i, acc, c :: cs => packFpFrom basis (i + 1) (add acc (mul c.expr (constant (basis i)))) cs

/-- `pack_fp`, crates/m3/src/gadgets/util.rs:9-22, without the check of the number of bits: it panics without bits. -/
def packFp (basis : Nat → F) : List Col → Option (Circuit F)
  | [] => none
  | c :: cs => some (packFpFrom basis 1 (mul c.expr (constant (basis 0))) cs)

/-- `UnsignedMulPrimitives::shifted_generator`, crates/m3/src/gadgets/mul.rs:58-64 and 83-89: `n` squarings. -/
def shiftedGenerator (gen : F) : Nat → F
  | 0 => gen
  | n + 1 => shiftedGenerator gen n * shiftedGenerator gen n

/-- `Mul`, crates/m3/src/gadgets/mul.rs:94-107.  The struct does not keep the columns of the powers; they are kept here
to say what the prover puts in them.  `MulUU32` and `MulUU64` (crates/m3/src/gadgets/mul.rs:261-270 and 335-344) are
this struct with the public columns copied, for the levels 5 and 6. -/
structure Mul where
  xInBits : List Col
  yInBits : List Col
  outHighBits : List Col
  outLowBits : List Col
  xin : Col
  yin : Col
  outHigh : Col
  outLow : Col
  gX : Col
  gXY : Col
  gLow : Col
  gHigh : Col

/-- A computed column with the bits packed, crates/m3/src/gadgets/mul.rs:138-139 and 149-150. -/
def packColumn (basis : Nat → F) (t : Table F) (level : Nat) (bits : List Col) : Option (Col × Table F) :=
  (packFp basis bits).bind fun e => t.addComputed level 0 e

/-- `Mul::with_inputs`, crates/m3/src/gadgets/mul.rs:126-175, for numbers of `2^level` bits: the field of the numbers has
the tower level `level` and that of the powers the level above, whose generator is `gen`.  The numbers of columns are
those of the types. -/
def Mul.withInputs (basis : Nat → F) (gen : F) (t : Table F) (level : Nat) (xs ys : List Col) : Option (Mul × Table F) :=
  if level = 5 ∨ level = 6 then
    (packColumn basis t level xs).bind fun xin =>
      (packColumn basis xin.2 level ys).bind fun yin =>
        (yin.2.addStaticExp (level + 1) xs gen).bind fun gx =>
          (gx.2.addDynamicExp (level + 1) ys gx.1).bind fun gxy =>
            (gxy.2.addCommittedMultiple 0 0 (2 ^ level)).bind fun hi =>
              (hi.2.addCommittedMultiple 0 0 (2 ^ level)).bind fun lo =>
                (packColumn basis lo.2 level hi.1).bind fun oh =>
                  (packColumn basis oh.2 level lo.1).bind fun ol =>
                    (ol.2.addStaticExp (level + 1) lo.1 gen).bind fun gl =>
                      (gl.2.addStaticExp (level + 1) hi.1 (shiftedGenerator gen (2 ^ level))).bind fun gh =>
                        xs[0]?.bind fun x0 => ys[0]?.bind fun y0 => lo.1[0]?.bind fun l0 =>
                          (gh.2.assertZero 0 (sub (mul x0.expr y0.expr) l0.expr)).bind fun t =>
                            (t.assertZero 0 (sub gxy.1.expr (mul gl.1.expr gh.1.expr))).bind fun t =>
                              some (⟨xs, ys, hi.1, lo.1, xin.1, yin.1, oh.1, ol.1, gx.1, gxy.1, gl.1, gh.1⟩, t)
  else none

/-- `Mul::new`, crates/m3/src/gadgets/mul.rs:119-124. -/
def Mul.new (basis : Nat → F) (gen : F) (t : Table F) (level : Nat) : Option (Mul × Table F) :=
  (t.addCommittedMultiple 0 0 (2 ^ level)).bind fun xs =>
    (xs.2.addCommittedMultiple 0 0 (2 ^ level)).bind fun ys => Mul.withInputs basis gen ys.2 level xs.1 ys.1

/-- Set a bit in each of the columns. -/
def setBits : List Col → (Nat → F) → Row F → Row F
  | [], _, acc => acc
  | c :: cs, u, acc => setBits cs (fun j => u (j + 1)) (setBit acc c (u 0))

/-- `Mul::populate_internal`, crates/m3/src/gadgets/mul.rs:177-233, on one row, for the numbers `x` and `y`.  It borrows
all the columns mutably at once, which fails if a column occurs twice (crates/m3/src/builder/witness.rs:968-988).  The
bits are set here column by column and not bit by bit, which is the same for distinct columns. -/
def Mul.populateInternal (g : Mul) (basis : Nat → F) (level : Nat) (fillInputBits : Bool) (x y : Nat) (w : Row F) :
    Option (Row F) :=
  if ((g.xInBits ++ g.yInBits ++ g.outLowBits ++ g.outHighBits ++ [g.xin, g.yin, g.outLow, g.outHigh]).map Col.idx).Nodup then
    let n := 2 ^ level
    let lo := x * y % 2 ^ n
    let hi := x * y / 2 ^ n
    let w := setBit (setBit w g.xin (element basis n x)) g.yin (element basis n y)
    let w := setBit (setBit w g.outLow (element basis n lo)) g.outHigh (element basis n hi)
    let w := if fillInputBits then
        setBits g.yInBits (fun j => ofBit (y.testBit j)) (setBits g.xInBits (fun j => ofBit (x.testBit j)) w)
      else w
    some (setBits g.outHighBits (fun j => ofBit (hi.testBit j)) (setBits g.outLowBits (fun j => ofBit (lo.testBit j)) w))
  else none

/-- `Mul::populate_with_inputs`, crates/m3/src/gadgets/mul.rs:235-246. -/
def Mul.populateWithInputs (g : Mul) (basis : Nat → F) (level x y : Nat) (w : Row F) : Option (Row F) :=
  g.populateInternal basis level true x y w

/-- `Mul::populate`, crates/m3/src/gadgets/mul.rs:248-258. -/
def Mul.populate (g : Mul) (basis : Nat → F) (level x y : Nat) (w : Row F) : Option (Row F) :=
  g.populateInternal basis level false x y w

/-- What the prover of the constraint system puts in the columns of the powers: the bases to the powers in the bits,
`make_exp_witnesses`, crates/core/src/constraint_system/exp.rs:61-123. -/
def Mul.fillExponents (g : Mul) (gen : F) (level : Nat) (w : Row F) : Row F :=
  let w := setBit w g.gX (gen ^ num (g.xInBits.map fun c => w c.idx 0))
  let w := setBit w g.gXY (w g.gX.idx 0 ^ num (g.yInBits.map fun c => w c.idx 0))
  let w := setBit w g.gLow (gen ^ num (g.outLowBits.map fun c => w c.idx 0))
  setBit w g.gHigh (shiftedGenerator gen (2 ^ level) ^ num (g.outHighBits.map fun c => w c.idx 0))

end Verif.M3
