import Verif.M3.ModelMul
import Verif.M3.ModelSign
import Verif.M3.SpecSigned

/-! Model of the gadgets that multiply signed numbers and of those that divide, crates/m3/src/gadgets/mul.rs:409-721 and
crates/m3/src/gadgets/div.rs. -/

set_option linter.dupNamespace false

namespace Verif.M3

open Verif.Arith

variable {F : Type} [Field F] [DecidableEq F]

/-- `u32::wrapping_sub`, used in crates/m3/src/gadgets/mul.rs:551 and 556. -/
def wrappingSub32 (a b : Nat) : Nat := (a + 2 ^ 32 - b) % 2 ^ 32

/-- The computed columns `a + s * (a + b)`: those of `a` if the bit `s` is zero and those of `b` if it is one,
crates/m3/src/gadgets/mul.rs:465-470, 483-489 and 633-638. -/
def selectColumn (s : Col) (a b : List Col) (i : Nat) (t : Table F) : Option (Col × Table F) :=
  a[i]?.bind fun ai => b[i]?.bind fun bi => t.addComputed 0 0 (add ai.expr (mul s.expr (add ai.expr bi.expr)))

/-- The flags of the subtractors, crates/m3/src/gadgets/mul.rs:459-462, 477-480, 628-631 and div.rs:98-101. -/
def subFlags : U32SubFlags := ⟨none, false, true⟩

/-- `MulSS32`, crates/m3/src/gadgets/mul.rs:409-424. -/
structure MulSS32 where
  mulInner : Mul
  xInBits : List Col
  yInBits : List Col
  ySub : WideSub
  newProdHighBits : List Col
  xSub : WideSub
  outBits : List Col
  xin : Col
  yin : Col
  outHigh : Col
  outLow : Col

/-- `MulSS32::with_input`, crates/m3/src/gadgets/mul.rs:435-514. -/
def MulSS32.withInput (basis : Nat → F) (gen : F) (t : Table F) (xs ys : List Col) : Option (MulSS32 × Table F) :=
  (packColumn basis t 5 xs).bind fun xin =>
    (packColumn basis xin.2 5 ys).bind fun yin =>
      xs[31]?.bind fun x31 => ys[31]?.bind fun y31 =>
        (Mul.withInputs basis gen yin.2 5 xs ys).bind fun m =>
          (WideSub.new m.2 32 m.1.outHighBits ys subFlags).bind fun yb =>
            (fromFn (selectColumn x31 m.1.outHighBits yb.1.zout) 0 32 yb.2).bind fun nph =>
              (WideSub.new nph.2 32 nph.1 xs subFlags).bind fun xb =>
                (fromFn (selectColumn y31 nph.1 xb.1.zout) 0 32 xb.2).bind fun ohb =>
                  (packColumn basis ohb.2 5 ohb.1).bind fun oh =>
                    (packColumn basis oh.2 5 m.1.outLowBits).bind fun ol =>
                      some (⟨m.1, xs, ys, yb.1, nph.1, xb.1, m.1.outLowBits ++ ohb.1, xin.1, yin.1, oh.1, ol.1⟩, ol.2)

/-- `MulSS32::new`, crates/m3/src/gadgets/mul.rs:427-433. -/
def MulSS32.new (basis : Nat → F) (gen : F) (t : Table F) : Option (MulSS32 × Table F) :=
  (t.addCommittedMultiple 0 0 32).bind fun xs =>
    (xs.2.addCommittedMultiple 0 0 32).bind fun ys => MulSS32.withInput basis gen ys.2 xs.1 ys.1

/-- The values that `MulSS32::populate_with_inputs` writes itself, crates/m3/src/gadgets/mul.rs:538-583, on one row. -/
def MulSS32.fill (g : MulSS32) (basis : Nat → F) (x y prodLo newProdHi outHi : Nat) (w : Row F) : Row F :=
  let w := setBit (setBit w g.xin (element basis 32 x)) g.yin (element basis 32 y)
  let w := setBit (setBit w g.outLow (element basis 32 prodLo)) g.outHigh (element basis 32 outHi)
  let w := setBits g.yInBits (fun j => ofBit (y.testBit j)) (setBits g.xInBits (fun j => ofBit (x.testBit j)) w)
  let w := setBits (g.outBits.drop 32) (fun j => ofBit (outHi.testBit j)) w
  setBits g.newProdHighBits (fun j => ofBit (newProdHi.testBit j)) w

/-- `MulSS32::populate_with_inputs`, crates/m3/src/gadgets/mul.rs:516-592, on one row.  It borrows all the columns
mutably at once, which fails if one occurs twice. -/
def MulSS32.populateWithInputs (g : MulSS32) (basis : Nat → F) (x y : Nat) (w : Row F) : Option (Row F) :=
  if ((g.xInBits ++ g.yInBits ++ g.outBits ++ g.newProdHighBits ++ [g.xin, g.yin, g.outLow, g.outHigh]).map Col.idx).Nodup then
    let prodHi := x * y / 2 ^ 32
    let prodLo := x * y % 2 ^ 32
    let newProdHi := if 2 ^ 31 ≤ x then wrappingSub32 prodHi y else prodHi
    let outHi := if 2 ^ 31 ≤ y then wrappingSub32 newProdHi x else newProdHi
    (g.mulInner.populate basis 5 x y (g.fill basis x y prodLo newProdHi outHi w)).bind fun w =>
      some (g.xSub.populate (g.ySub.populate w))
  else none

/-- `MulSU32`, crates/m3/src/gadgets/mul.rs:595-609. -/
structure MulSU32 where
  mulInner : Mul
  xInBits : List Col
  yInBits : List Col
  outHighBits : List Col
  ySub : WideSub
  xin : Col
  yin : Col
  outHigh : Col
  outLow : Col

/-- `MulSU32::new`, crates/m3/src/gadgets/mul.rs:612-656. -/
def MulSU32.new (basis : Nat → F) (gen : F) (t : Table F) : Option (MulSU32 × Table F) :=
  (t.addCommittedMultiple 0 0 32).bind fun xs =>
    (xs.2.addCommittedMultiple 0 0 32).bind fun ys =>
      (packColumn basis ys.2 5 xs.1).bind fun xin =>
        (packColumn basis xin.2 5 ys.1).bind fun yin =>
          xs.1[31]?.bind fun x31 =>
            (Mul.withInputs basis gen yin.2 5 xs.1 ys.1).bind fun m =>
              (WideSub.new m.2 32 m.1.outHighBits ys.1 subFlags).bind fun yb =>
                (fromFn (selectColumn x31 m.1.outHighBits yb.1.zout) 0 32 yb.2).bind fun ohb =>
                  (packColumn basis ohb.2 5 ohb.1).bind fun oh =>
                    (packColumn basis oh.2 5 m.1.outLowBits).bind fun ol =>
                      some (⟨m.1, xs.1, ys.1, ohb.1, yb.1, xin.1, yin.1, oh.1, ol.1⟩, ol.2)

/-- The values that `MulSU32::populate_with_inputs` writes itself, crates/m3/src/gadgets/mul.rs:678-713, on one row. -/
def MulSU32.fill (g : MulSU32) (basis : Nat → F) (x y prodLo outHi : Nat) (w : Row F) : Row F :=
  let w := setBit (setBit w g.xin (element basis 32 x)) g.yin (element basis 32 y)
  let w := setBit (setBit w g.outLow (element basis 32 prodLo)) g.outHigh (element basis 32 outHi)
  let w := setBits g.yInBits (fun j => ofBit (y.testBit j)) (setBits g.xInBits (fun j => ofBit (x.testBit j)) w)
  setBits g.outHighBits (fun j => ofBit (outHi.testBit j)) w

/-- `MulSU32::populate_with_inputs`, crates/m3/src/gadgets/mul.rs:658-721, on one row.  The columns are those that `new`
makes, so that the mutable borrows do not fail. -/
def MulSU32.populateWithInputs (g : MulSU32) (basis : Nat → F) (x y : Nat) (w : Row F) : Option (Row F) :=
  let prodHi := x * y / 2 ^ 32
  let prodLo := x * y % 2 ^ 32
  let outHi := if 2 ^ 31 ≤ x then wrappingSub32 prodHi y else prodHi
  (g.mulInner.populate basis 5 x y (g.fill basis x y prodLo outHi w)).bind fun w => some (g.ySub.populate w)

/-- The constraints that two numbers are equal, bit by bit, crates/m3/src/gadgets/div.rs:83-89 and 265-271. -/
def equalZero (p z : List Col) (i : Nat) (t : Table F) : Option (Table F) :=
  p[i]?.bind fun pi => z[i]?.bind fun zi => t.assertZero 0 (sub pi.expr zi.expr)

/-- The constraint that the last bit of a 64-bit number is set, crates/m3/src/gadgets/div.rs:103-104 and 296-297. -/
def lessThan (t : Table F) (z : List Col) : Option (Table F) :=
  z[63]?.bind fun z63 => t.assertZero 0 (add z63.expr (constant 1))

/-- `DivUU32`, crates/m3/src/gadgets/div.rs:18-36. -/
structure DivUU32 where
  mulInner : Mul
  sum : WideAdd
  diff : WideSub
  pInBits : List Col
  qInBits : List Col
  outDivBits : List Col
  outRemBits : List Col
  pIn : Col
  qIn : Col
  outDiv : Col
  outRem : Col

/-- `DivUU32::new`, crates/m3/src/gadgets/div.rs:39-121. -/
def DivUU32.new (basis : Nat → F) (gen : F) (t : Table F) : Option (DivUU32 × Table F) :=
  (t.addConstant 0 0 [0]).bind fun zero =>
    (zero.2.addCommittedMultiple 0 0 32).bind fun p =>
      (p.2.addCommittedMultiple 0 0 32).bind fun q =>
        (packColumn basis q.2 5 p.1).bind fun pin =>
          (packColumn basis pin.2 5 q.1).bind fun qin =>
            (qin.2.addCommittedMultiple 0 0 32).bind fun d =>
              (d.2.addCommittedMultiple 0 0 32).bind fun r =>
                (packColumn basis r.2 5 d.1).bind fun dout =>
                  (packColumn basis dout.2 5 r.1).bind fun rout =>
                    (Mul.withInputs basis gen rout.2 5 q.1 d.1).bind fun m =>
                      (m.2.assertNonzero qin.1).bind fun t =>
                        let pad := List.replicate 32 zero.1
                        (WideAdd.new t 64 (m.1.outLowBits ++ m.1.outHighBits) (r.1 ++ pad) ⟨none, true, true⟩).bind fun s =>
                          (forEach (equalZero (p.1 ++ pad) s.1.zOut) 0 64 s.2).bind fun t =>
                            (WideSub.new t 64 (r.1 ++ pad) (q.1 ++ pad) subFlags).bind fun u =>
                              (lessThan u.2 u.1.zout).bind fun t =>
                                some (⟨m.1, s.1, u.1, p.1, q.1, d.1, r.1, pin.1, qin.1, dout.1, rout.1⟩, t)

/-- The loop over the bits of the numbers of a division, crates/m3/src/gadgets/div.rs:149-184 and 348-392, for one
row. -/
def populateDiv (basis : Nat → F) (pin qin dout rout : Col) (ps qs ds rs : List Col) (p q d r : Nat) (w : Row F) : Row F :=
  let w := setBit (setBit w pin (element basis 32 p)) qin (element basis 32 q)
  let w := setBit (setBit w dout (element basis 32 d)) rout (element basis 32 r)
  let w := setBits qs (fun j => ofBit (q.testBit j)) (setBits ps (fun j => ofBit (p.testBit j)) w)
  setBits rs (fun j => ofBit (r.testBit j)) (setBits ds (fun j => ofBit (d.testBit j)) w)

/-- `DivUU32::populate_with_inputs`, crates/m3/src/gadgets/div.rs:123-191, on one row: `none` where it panics or returns
an error.  The columns are those that `new` makes, so that the mutable borrows do not fail. -/
def DivUU32.populateWithInputs (g : DivUU32) (basis : Nat → F) (p q : Nat) (w : Row F) : Option (Row F) :=
  if q = 0 then none
  else
    let d := p / q
    let r := p % q
    let w := populateDiv basis g.pIn g.qIn g.outDiv g.outRem g.pInBits g.qInBits g.outDivBits g.outRemBits p q d r w
    (g.mulInner.populate basis 5 q d w).bind fun w =>
      let w := g.sum.populate (fun _ => w) 0
      some (g.diff.populate w)

/-- `DivSS32`, crates/m3/src/gadgets/div.rs:194-216. -/
structure DivSS32 where
  mulInner : MulSS32
  sum : WideAdd
  diff : WideAdd
  absRValue : SignConverter
  negAbsQValue : SignConverter
  pInBits : List Col
  qInBits : List Col
  outDivBits : List Col
  outRemBits : List Col
  pIn : Col
  qIn : Col
  outDiv : Col
  outRem : Col

/-- `DivSS32::new`, crates/m3/src/gadgets/div.rs:219-318. -/
def DivSS32.new (basis : Nat → F) (gen : F) (t : Table F) : Option (DivSS32 × Table F) :=
  (t.addCommittedMultiple 0 0 32).bind fun p =>
    (p.2.addCommittedMultiple 0 0 32).bind fun q =>
      (packColumn basis q.2 5 p.1).bind fun pin =>
        (packColumn basis pin.2 5 q.1).bind fun qin =>
          p.1[31]?.bind fun p31 => q.1[31]?.bind fun q31 =>
            (qin.2.addCommittedMultiple 0 0 32).bind fun d =>
              (d.2.addCommittedMultiple 0 0 32).bind fun r =>
                r.1[31]?.bind fun r31 =>
                  (r.2.assertZero 0 (sub p31.expr r31.expr)).bind fun t =>
                    (packColumn basis t 5 d.1).bind fun dout =>
                      (packColumn basis dout.2 5 r.1).bind fun rout =>
                        (MulSS32.withInput basis gen rout.2 q.1 d.1).bind fun m =>
                          (m.2.assertNonzero qin.1).bind fun t =>
                            let sp := p.1 ++ List.replicate 32 p31
                            let sq := q.1 ++ List.replicate 32 q31
                            let sr := r.1 ++ List.replicate 32 r31
                            (WideAdd.new t 64 m.1.outBits sr ⟨none, true, true⟩).bind fun s =>
                              (forEach (equalZero sp s.1.zOut) 0 64 s.2).bind fun t =>
                                (SignConverter.new t 64 sr r31.expr).bind fun ar =>
                                  (SignConverter.new ar.2 64 sq (add q31.expr (constant 1))).bind fun nq =>
                                    (WideAdd.new nq.2 64 ar.1.convertedBits nq.1.convertedBits ⟨none, true, false⟩).bind fun u =>
                                      (lessThan u.2 u.1.zOut).bind fun t =>
                                        some (⟨m.1, s.1, u.1, ar.1, nq.1, p.1, q.1, d.1, r.1, pin.1, qin.1, dout.1, rout.1⟩, t)

/-- `DivSS32::populate_with_inputs`, crates/m3/src/gadgets/div.rs:320-416, on one row: `none` where it panics, for the
divisor zero and for the overflow of `i32::MIN / -1`, or returns an error. -/
def DivSS32.populateWithInputs (g : DivSS32) (basis : Nat → F) (p q : Nat) (w : Row F) : Option (Row F) :=
  let pi := signed32 p
  let qi := signed32 q
  if qi = 0 ∨ (pi = -2 ^ 31 ∧ qi = -1) then none
  else
    let div := Int.tdiv pi qi
    let rem := Int.tmod pi qi
    let absRem := if rem < 0 then twos 64 (-rem) else twos 64 rem
    let negAbsQ := if qi < 0 then twos 64 qi else twos 64 (-qi)
    let d := twos 32 div
    let r := twos 32 rem
    let w := populateDiv basis g.pIn g.qIn g.outDiv g.outRem g.pInBits g.qInBits g.outDivBits g.outRemBits p q d r w
    let w := setBits g.negAbsQValue.convertedBits (fun j => ofBit (negAbsQ.testBit j))
      (setBits g.absRValue.convertedBits (fun j => ofBit (absRem.testBit j)) w)
    (g.mulInner.populateWithInputs basis q d w).bind fun w =>
      let w := g.sum.populate (fun _ => w) 0
      let w := g.negAbsQValue.populate (g.absRValue.populate w)
      some (g.diff.populate (fun _ => w) 0)

end Verif.M3
