import Verif.M3.ModelAdd

/-! Model of the gadgets that negate numbers, crates/m3/src/gadgets/mul.rs:723-822. -/

set_option linter.dupNamespace false

namespace Verif.M3

open Verif.Arith

variable {F : Type} [Field F] [DecidableEq F]

/-- `TwosComplement`, crates/m3/src/gadgets/mul.rs:776-786. -/
structure TwosComplement where
  inverted : List Col
  innerIncr : Incr
  xin : List Col
  resultBits : List Col

/-- The columns `inverted`, crates/m3/src/gadgets/mul.rs:792-793. -/
def invertedColumn (x : List Col) (i : Nat) (t : Table F) : Option (Col × Table F) :=
  x[i]?.bind fun xi => t.addComputed 0 0 (add xi.expr (constant 1))

/-- `TwosComplement::new`, crates/m3/src/gadgets/mul.rs:791-803, for `BIT_LENGTH = n`. -/
def TwosComplement.new (t : Table F) (n : Nat) (x : List Col) : Option (TwosComplement × Table F) :=
  (fromFn (invertedColumn x) 0 n t).bind fun p =>
    (Incr.new p.2 n p.1).bind fun q => some (⟨p.1, q.1, x, q.1.zout⟩, q.2)

/-- The loop that fills `inverted`, crates/m3/src/gadgets/mul.rs:809-816, on one row. -/
def invertBits : List Col → List Col → Row F → Row F
  | i :: is, x :: xs, w => invertBits is xs (setBit w i (w x.idx 0 + 1))
  | _, _, w => w

/-- `TwosComplement::populate`, crates/m3/src/gadgets/mul.rs:805-821, on one row. -/
def TwosComplement.populate (g : TwosComplement) (w : Row F) : Row F :=
  g.innerIncr.populate (invertBits g.inverted g.xin w)

/-- `SignConverter`, crates/m3/src/gadgets/mul.rs:728-734. -/
structure SignConverter where
  twosComplement : TwosComplement
  convertedBits : List Col

/-- The columns `converted_bits`, crates/m3/src/gadgets/mul.rs:755-761. -/
def convertedColumn (result x : List Col) (conditional : Circuit F) (i : Nat) (t : Table F) : Option (Col × Table F) :=
  result[i]?.bind fun r => x[i]?.bind fun xi =>
    t.addComputed 0 0 (add (mul r.expr conditional) (mul (add conditional (constant 1)) xi.expr))

/-- `SignConverter::new`, crates/m3/src/gadgets/mul.rs:749-766, for `BIT_LENGTH = n`. -/
def SignConverter.new (t : Table F) (n : Nat) (x : List Col) (conditional : Circuit F) : Option (SignConverter × Table F) :=
  (TwosComplement.new t n x).bind fun p =>
    (fromFn (convertedColumn p.1.resultBits x conditional) 0 n p.2).bind fun q => some (⟨p.1, q.1⟩, q.2)

/-- `SignConverter::populate`, crates/m3/src/gadgets/mul.rs:768-773, on one row; it leaves `converted_bits` to the
caller. -/
def SignConverter.populate (g : SignConverter) (w : Row F) : Row F := g.twosComplement.populate w

end Verif.M3
