import Verif.M3.SpecTable

/-! Model of the addition and subtraction gadgets (crates/m3/src/gadgets/add.rs and sub.rs).

`populate` is modelled row by row: it maps the values of a row before to those after.  The type parameter `V` of a
column is `2^lv`, and bits are the elements `0` and `1` of the field. -/

set_option linter.dupNamespace false

namespace Verif.M3

open Verif.Arith

variable {F : Type} [Field F] [DecidableEq F]

/-! ### Words of a row -/

/-- The field element of a bit. -/
def ofBit (b : Bool) : F := if b then 1 else 0

/-- The `k`-th `u32` of a cell of bits, the view that `TableWitnessSegment::get_as` gives,
crates/m3/src/builder/witness.rs:1016-1029. -/
def getWord (w : Row F) (c : Col) (k : Nat) : Nat := num ((List.range 32).map fun j => w c.idx (32 * k + j))

/-- The row after the `u32`s number `0, …, n - 1` of a cell of bits are set, the view that
`TableWitnessSegment::get_mut_as` gives, crates/m3/src/builder/witness.rs:1031-1057. -/
def setWords (w : Row F) (c : Col) (n : Nat) (v : Nat → Nat) : Row F := fun i pos =>
  if i = c.idx ∧ pos / 32 < n then ofBit ((v (pos / 32)).testBit (pos % 32)) else w i pos

/-- The row after the cell of a column with one value is set. -/
def setBit (w : Row F) (c : Col) (v : F) : Row F := fun i pos => if i = c.idx ∧ pos = 0 then v else w i pos

/-- `setBit` of a column that may be missing. -/
def setBitOpt (w : Row F) (c : Option Col) (v : F) : Row F :=
  match c with
  | none => w
  | some c => setBit w c v

/-- `u32::overflowing_add`. -/
def overflowingAdd (a b : Nat) : Nat × Bool := ((a + b) % 2 ^ 32, decide (2 ^ 32 ≤ a + b))

/-- `u32::overflowing_sub`. -/
def overflowingSub (a b : Nat) : Nat × Bool := ((a + 2 ^ 32 - b) % 2 ^ 32, decide (a < b))

/-! ### Addition of words -/

/-- `U32AddFlags`, crates/m3/src/gadgets/add.rs:42-49. -/
structure U32AddFlags where
  carryInBit : Option Col
  commitZout : Bool
  exposeFinalCarry : Bool

/-- `U32Add`, crates/m3/src/gadgets/add.rs:16-39. -/
structure U32Add where
  xin : Col
  yin : Col
  cin : Col
  cout : Col
  coutShl : Col
  zout : Col
  finalCarry : Option Col
  flags : U32AddFlags

/-- The carry constraint `(xin + cin) * (yin + cin) + cin - cout`, crates/m3/src/gadgets/add.rs:71, 194 and 308-313. -/
def carryExpr (x y c o : Col) : Circuit F :=
  sub (add (mul (add x.expr c.expr) (add y.expr c.expr)) c.expr) o.expr

/-- The sum `xin + yin + cin`. -/
def sumExpr (x y c : Col) : Circuit F := add (add x.expr y.expr) c.expr

/-- The column `cin`, crates/m3/src/gadgets/add.rs:61-65 and 188-192, and `bin`, sub.rs:61-65. -/
def carryColumn (t : Table F) (lv : Nat) (shl : Col) (carryIn : Option Col) : Option (Col × Table F) :=
  match carryIn with
  | some c => t.addComputed 0 lv (add shl.expr c.expr)
  | none => some (shl, t)

/-- The column `zout`, crates/m3/src/gadgets/add.rs:73-79 and 196-202, and sub.rs:79-85. -/
def sumColumn (t : Table F) (lv : Nat) (x y c : Col) (commit : Bool) : Option (Col × Table F) :=
  if commit then
    (t.addCommitted 0 lv).bind fun p => (p.2.assertZero lv (sub (sumExpr x y c) p.1.expr)).bind fun t => some (p.1, t)
  else t.addComputed 0 lv (sumExpr x y c)

/-- `expose.then(|| table.add_selected(_, c, 31))`, crates/m3/src/gadgets/add.rs:67-69 and sub.rs:67-69. -/
def finalColumn (t : Table F) (c : Col) (expose : Bool) : Option (Option Col × Table F) :=
  if expose then (t.addSelected 0 5 c 31).bind fun p => some (some p.1, p.2) else some (none, t)

/-- `U32Add::new`, crates/m3/src/gadgets/add.rs:52-91. -/
def U32Add.new (t : Table F) (xin yin : Col) (flags : U32AddFlags) : Option (U32Add × Table F) :=
  (t.addCommitted 0 5).bind fun p0 =>
    (p0.2.addShifted 0 5 p0.1 5 1 .logicalLeft).bind fun p1 =>
      (carryColumn p1.2 5 p1.1 flags.carryInBit).bind fun p2 =>
        (finalColumn p2.2 p0.1 flags.exposeFinalCarry).bind fun p3 =>
          (p3.2.assertZero 5 (carryExpr xin yin p2.1 p0.1)).bind fun t4 =>
            (sumColumn t4 5 xin yin p2.1 flags.commitZout).bind fun p5 =>
              some (⟨xin, yin, p2.1, p0.1, p1.1, p5.1, p3.1, flags⟩, p5.2)

/-- What `populate` computes for one word, crates/m3/src/gadgets/add.rs:115-121 and 132-135: the sum, the carries in,
the carries out and the final carry. -/
def addWord (x y : Nat) (carryIn : Option Nat) : Nat × Nat × Nat × Bool :=
  let (z, carry) := match carryIn with
    | some c =>
      let (xy, carry0) := overflowingAdd x y
      let (z, carry1) := overflowingAdd xy c
      (z, carry0 || carry1)
    | none => overflowingAdd x y
  let cin := x ^^^ y ^^^ z
  (z, cin, (carry.toNat <<< 31) ||| (cin >>> 1), carry)

/-- The columns that `populate` writes in `n` words of each row: `cin`, `cout`, `cout_shl` if there is a carry in, and
`zout`, crates/m3/src/gadgets/add.rs:93-141 and 215-253. -/
def writeWords (w : Row F) (n : Nat) (cin cout coutShl zout : Col) (hasCarry : Bool)
    (v : Nat → Nat × Nat × Nat × Bool) : Row F :=
  let w := setWords w zout n fun k => (v k).1
  let w := setWords w cin n fun k => (v k).2.1
  let w := setWords w cout n fun k => (v k).2.2.1
  if hasCarry then setWords w coutShl n fun k => ((v k).2.2.1 <<< 1) % 2 ^ 32 else w

/-- `U32Add::populate`, crates/m3/src/gadgets/add.rs:93-141, on one row. -/
def U32Add.populate (g : U32Add) (w : Row F) : Row F :=
  let v := fun k => addWord (getWord w g.xin k) (getWord w g.yin k) (g.flags.carryInBit.map fun c => getWord w c k)
  setBitOpt (writeWords w 1 g.cin g.cout g.coutShl g.zout g.flags.carryInBit.isSome v) g.finalCarry (ofBit (v 0).2.2.2)

/-- `U32AddStacked`, crates/m3/src/gadgets/add.rs:158-171. -/
structure U32AddStacked where
  xin : Col
  yin : Col
  cin : Col
  cout : Col
  coutShl : Col
  carryInBit : Option Col
  zout : Col

/-- `U32AddStacked::new`, crates/m3/src/gadgets/add.rs:174-213, with `V = 2^lv`. -/
def U32AddStacked.new (t : Table F) (lv : Nat) (xin yin : Col) (commitZout : Bool) (carryIn : Option Col) :
    Option (U32AddStacked × Table F) :=
  if 32 ≤ 2 ^ lv then
    (t.addCommitted 0 lv).bind fun p0 =>
      (p0.2.addShifted 0 lv p0.1 5 1 .logicalLeft).bind fun p1 =>
        (carryColumn p1.2 lv p1.1 carryIn).bind fun p2 =>
          (p2.2.assertZero lv (carryExpr xin yin p2.1 p0.1)).bind fun t3 =>
            (sumColumn t3 lv xin yin p2.1 commitZout).bind fun p4 =>
              some (⟨xin, yin, p2.1, p0.1, p1.1, carryIn, p4.1⟩, p4.2)
  else none

/-- `U32AddStacked::populate`, crates/m3/src/gadgets/add.rs:215-253, on one row. -/
def U32AddStacked.populate (g : U32AddStacked) (lv : Nat) (w : Row F) : Row F :=
  let v := fun k => addWord (getWord w g.xin k) (getWord w g.yin k) (g.carryInBit.map fun c => getWord w c k)
  writeWords w (2 ^ lv / 32) g.cin g.cout g.coutShl g.zout g.carryInBit.isSome v

/-! ### Addition of bit columns -/

/-- `WideAdd`, crates/m3/src/gadgets/add.rs:256-269. -/
structure WideAdd where
  xIn : List Col
  yIn : List Col
  cin : List Col
  zOut : List Col
  finalCarryOut : Col
  flags : U32AddFlags

/-- The columns `cin` of `WideAdd`, crates/m3/src/gadgets/add.rs:278-287. -/
def WideAdd.cinColumn (flags : U32AddFlags) (i : Nat) (t : Table F) : Option (Col × Table F) :=
  if i ≠ 0 then t.addCommitted 0 0
  else match flags.carryInBit with
    | some c => t.addSelected 0 5 c 0
    | none => t.addCommitted 0 0

/-- The constraints on committed sums, crates/m3/src/gadgets/add.rs:290-295 and sub.rs:204-207. -/
def wideSumZero (x y c z : List Col) (i : Nat) (t : Table F) : Option (Table F) :=
  x[i]?.bind fun xi => y[i]?.bind fun yi => c[i]?.bind fun ci => z[i]?.bind fun zi =>
    t.assertZero 0 (sub (sumExpr xi yi ci) zi.expr)

/-- The computed columns of the sums, crates/m3/src/gadgets/add.rs:298 and sub.rs:210-212. -/
def wideSumColumn (x y c : List Col) (i : Nat) (t : Table F) : Option (Col × Table F) :=
  x[i]?.bind fun xi => y[i]?.bind fun yi => c[i]?.bind fun ci => t.addComputed 0 0 (sumExpr xi yi ci)

/-- The columns of the sums, crates/m3/src/gadgets/add.rs:288-299 and sub.rs:202-213. -/
def wideSum (t : Table F) (n : Nat) (x y c : List Col) (commit : Bool) : Option (List Col × Table F) :=
  if commit then
    (t.addCommittedMultiple 0 0 n).bind fun p => (forEach (wideSumZero x y c p.1) 0 n p.2).bind fun t => some (p.1, t)
  else fromFn (wideSumColumn x y c) 0 n t

/-- The carry out of bit `i`, crates/m3/src/gadgets/add.rs:301-307 and 414-420. -/
def couts (n : Nat) (c : List Col) (final : Col) (i : Nat) : Option Col := if i ≠ n - 1 then c[i + 1]? else some final

/-- The constraints on the carries, crates/m3/src/gadgets/add.rs:308-313. -/
def wideCarryZero (n : Nat) (x y c : List Col) (final : Col) (i : Nat) (t : Table F) : Option (Table F) :=
  x[i]?.bind fun xi => y[i]?.bind fun yi => c[i]?.bind fun ci => (couts n c final i).bind fun oi =>
    t.assertZero 0 (carryExpr xi yi ci oi)

/-- `WideAdd::new`, crates/m3/src/gadgets/add.rs:271-324, for `BIT_LENGTH = n`. -/
def WideAdd.new (t : Table F) (n : Nat) (x y : List Col) (flags : U32AddFlags) : Option (WideAdd × Table F) :=
  (fromFn (WideAdd.cinColumn flags) 0 n t).bind fun p0 =>
    (wideSum p0.2 n x y p0.1 flags.commitZout).bind fun p1 =>
      (p1.2.addCommitted 0 0).bind fun p2 =>
        (forEach (wideCarryZero n x y p0.1 p2.1) 0 n p2.2).bind fun t3 =>
          some (⟨x, y, p0.1, p1.1, p2.1, flags⟩, t3)

/-- The loop over the bits in `WideAdd::populate`, crates/m3/src/gadgets/add.rs:345-359, on one row: `w` is the row
before and `acc` the row so far; the result is the row and the final carry. -/
def WideAdd.loop (w : Row F) : List Col → List Col → List Col → List Col → F → Row F → Row F × F
  | x :: xs, y :: ys, c :: cs, z :: zs, carry, acc =>
    let a := w x.idx 0
    let b := w y.idx 0
    loop w xs ys cs zs ((a + carry) * (b + carry) + carry) (setBit (setBit acc c carry) z (a + b + carry))
  | _, _, _, _, carry, acc => (acc, carry)

/-- `WideAdd::populate`, crates/m3/src/gadgets/add.rs:326-366, on row `r` of the rows of a table.  The carry in is taken
from the cells of the column `carry_in_bit` one after the other, 32 bits for each row, and bit `r` of them is the one
added in row `r`. -/
def WideAdd.populate (g : WideAdd) (rows : Nat → Row F) (r : Nat) : Row F :=
  let carry := match g.flags.carryInBit with
    | none => 0
    | some c => rows (r / 32) c.idx (r % 32)
  let p := WideAdd.loop (rows r) g.xIn g.yIn g.cin g.zOut carry (rows r)
  setBit p.1 g.finalCarryOut p.2

/-- `Incr`, crates/m3/src/gadgets/add.rs:387-400. -/
structure Incr where
  cin : List Col
  input : List Col
  zout : List Col
  finalCarryOut : Col

/-- The columns `cin` of `Incr`, crates/m3/src/gadgets/add.rs:405-411. -/
def Incr.cinColumn (i : Nat) (t : Table F) : Option (Col × Table F) :=
  if i ≠ 0 then t.addCommitted 0 0 else t.addConstant 0 0 [1]

/-- The constraints of one bit, crates/m3/src/gadgets/add.rs:422-425. -/
def Incr.zeros (n : Nat) (x c z : List Col) (final : Col) (i : Nat) (t : Table F) : Option (Table F) :=
  x[i]?.bind fun xi => c[i]?.bind fun ci => z[i]?.bind fun zi => (couts n c final i).bind fun oi =>
    (t.assertZero 0 (sub (add xi.expr ci.expr) zi.expr)).bind fun t =>
      t.assertZero 0 (sub (mul xi.expr ci.expr) oi.expr)

/-- `Incr::new`, crates/m3/src/gadgets/add.rs:403-434, for `BIT_LENGTH = n`. -/
def Incr.new (t : Table F) (n : Nat) (x : List Col) : Option (Incr × Table F) :=
  (fromFn Incr.cinColumn 0 n t).bind fun p0 =>
    (p0.2.addCommittedMultiple 0 0 n).bind fun p1 =>
      (p1.2.addCommitted 0 0).bind fun p2 =>
        (forEach (Incr.zeros n x p0.1 p1.1 p2.1) 0 n p2.2).bind fun t3 => some (⟨p0.1, x, p1.1, p2.1⟩, t3)

/-- The loop over the bits in `Incr::populate`, crates/m3/src/gadgets/add.rs:450-463. -/
def Incr.loop (w : Row F) : List Col → List Col → List Col → F → Row F → Row F × F
  | x :: xs, c :: cs, z :: zs, carry, acc =>
    let a := w x.idx 0
    loop w xs cs zs (a * carry) (setBit (setBit acc c carry) z (a + carry))
  | _, _, _, carry, acc => (acc, carry)

/-- `Incr::populate`, crates/m3/src/gadgets/add.rs:436-469, on one row. -/
def Incr.populate (g : Incr) (w : Row F) : Row F :=
  let p := Incr.loop w g.input g.cin g.zout 1 w
  setBit p.1 g.finalCarryOut p.2

/-! ### Subtraction of words -/

/-- `U32SubFlags`, crates/m3/src/gadgets/sub.rs:40-48. -/
structure U32SubFlags where
  borrowInBit : Option Col
  exposeFinalBorrow : Bool
  commitZout : Bool

/-- `U32Sub`, crates/m3/src/gadgets/sub.rs:17-38. -/
structure U32Sub where
  xin : Col
  yin : Col
  bout : Col
  boutShl : Col
  bin : Col
  zout : Col
  finalBorrow : Option Col
  flags : U32SubFlags

/-- The borrow constraint `(bin + (xin - 1)) * (bin + yin) + bin - bout`, crates/m3/src/gadgets/sub.rs:77. -/
def borrowExpr (x y b o : Col) : Circuit F :=
  sub (add (mul (add b.expr (sub x.expr (constant 1))) (add b.expr y.expr)) b.expr) o.expr

/-- `U32Sub::new`, crates/m3/src/gadgets/sub.rs:52-97. -/
def U32Sub.new (t : Table F) (xin yin : Col) (flags : U32SubFlags) : Option (U32Sub × Table F) :=
  (t.addCommitted 0 5).bind fun p0 =>
    (p0.2.addShifted 0 5 p0.1 5 1 .logicalLeft).bind fun p1 =>
      (carryColumn p1.2 5 p1.1 flags.borrowInBit).bind fun p2 =>
        (finalColumn p2.2 p0.1 flags.exposeFinalBorrow).bind fun p3 =>
          (p3.2.assertZero 5 (borrowExpr xin yin p2.1 p0.1)).bind fun t4 =>
            (sumColumn t4 5 xin yin p2.1 flags.commitZout).bind fun p5 =>
              some (⟨xin, yin, p0.1, p1.1, p2.1, p5.1, p3.1, flags⟩, p5.2)

/-- What `populate` computes for one word, crates/m3/src/gadgets/sub.rs:123-129 and 143-146: the difference, the borrows
in, the borrows out and the final borrow. -/
def subWord (x y : Nat) (borrowIn : Option Nat) : Nat × Nat × Nat × Bool :=
  let (z, borrow) := match borrowIn with
    | some b =>
      let (xy, borrow1) := overflowingSub x y
      let (z, borrow2) := overflowingSub xy b
      (z, borrow1 || borrow2)
    | none => overflowingSub x y
  let bin := x ^^^ y ^^^ z
  (z, bin, (borrow.toNat <<< 31) ||| (bin >>> 1), borrow)

/-- `U32Sub::populate`, crates/m3/src/gadgets/sub.rs:101-159, on one row. -/
def U32Sub.populate (g : U32Sub) (w : Row F) : Row F :=
  let v := fun k => subWord (getWord w g.xin k) (getWord w g.yin k) (g.flags.borrowInBit.map fun c => getWord w c k)
  setBitOpt (writeWords w 1 g.bin g.bout g.boutShl g.zout g.flags.borrowInBit.isSome v) g.finalBorrow (ofBit (v 0).2.2.2)

/-! ### Subtraction of bit columns -/

/-- `WideSub`, crates/m3/src/gadgets/sub.rs:163-177. -/
structure WideSub where
  xin : List Col
  yin : List Col
  bin : Col
  bout : List Col
  zout : List Col
  finalBorrow : Option Col
  flags : U32SubFlags

/-- The column `bin[0]`, crates/m3/src/gadgets/sub.rs:189-194. -/
def WideSub.binColumn (t : Table F) (flags : U32SubFlags) : Option (Col × Table F) :=
  match flags.borrowInBit with
  | some c => t.addSelected 0 5 c 0
  | none => t.addConstant 0 0 [0]

/-- `WideSub::new`, crates/m3/src/gadgets/sub.rs:180-225, for `BIT_LENGTH = n`; the columns `bin` are `bin[0]` and all
of `bout` but the last. -/
def WideSub.new (t : Table F) (n : Nat) (x y : List Col) (flags : U32SubFlags) : Option (WideSub × Table F) :=
  (t.addCommittedMultiple 0 0 n).bind fun p0 =>
    (WideSub.binColumn p0.2 flags).bind fun p1 =>
      (wideSum p1.2 n x y (p1.1 :: p0.1.take (n - 1)) flags.commitZout).bind fun p2 =>
        if flags.exposeFinalBorrow then
          p0.1[n - 1]?.bind fun b => some (⟨x, y, p1.1, p0.1, p2.1, some b, flags⟩, p2.2)
        else some (⟨x, y, p1.1, p0.1, p2.1, none, flags⟩, p2.2)

/-- The loop over the bits in `WideSub::populate`, crates/m3/src/gadgets/sub.rs:255-271. -/
def WideSub.loop (w : Row F) : List Col → List Col → List Col → List Col → F → Row F → Row F
  | x :: xs, y :: ys, o :: os, z :: zs, b, acc =>
    let xv := w x.idx 0
    let yv := w y.idx 0
    let new := yv * b + (1 + xv) * (b + yv)
    loop w xs ys os zs new (setBit (setBit acc z (xv + yv + b)) o new)
  | _, _, _, _, _, acc => acc

/-- `WideSub::populate`, crates/m3/src/gadgets/sub.rs:227-274, on one row. -/
def WideSub.populate (g : WideSub) (w : Row F) : Row F :=
  match g.flags.borrowInBit with
  | some _ => WideSub.loop w g.xin g.yin g.bout g.zout (w g.bin.idx 0) w
  | none => WideSub.loop w g.xin g.yin g.bout g.zout 0 (setBit w g.bin 0)

end Verif.M3
