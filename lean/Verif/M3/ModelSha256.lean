import Verif.M3.ModelAdd
import Verif.Util.Loop

/-! Model of the gadget for the compression function of SHA-256 (crates/m3/src/gadgets/hash/sha256.rs).

A `u32` is a bit vector of length 32.  `populate` is modelled row by row: the functions that take a witness segment map
the values of a row before to those after, and the calls in a row are in the order of the code.  Within one function
the writes to different columns are made one column after the other. -/

set_option linter.dupNamespace false

namespace Verif.M3

open Verif.Arith

variable {F : Type} [Field F] [DecidableEq F]

/-! ### Constants -/

/-- `ROUND_CONSTS_K`, crates/m3/src/gadgets/hash/sha256.rs:44-53. -/
def roundConstsK : List (BitVec 32) := [
  0x428a2f98, 0x71374491, 0xb5c0fbcf, 0xe9b5dba5, 0x3956c25b, 0x59f111f1, 0x923f82a4, 0xab1c5ed5,
  0xd807aa98, 0x12835b01, 0x243185be, 0x550c7dc3, 0x72be5d74, 0x80deb1fe, 0x9bdc06a7, 0xc19bf174,
  0xe49b69c1, 0xefbe4786, 0x0fc19dc6, 0x240ca1cc, 0x2de92c6f, 0x4a7484aa, 0x5cb0a9dc, 0x76f988da,
  0x983e5152, 0xa831c66d, 0xb00327c8, 0xbf597fc7, 0xc6e00bf3, 0xd5a79147, 0x06ca6351, 0x14292967,
  0x27b70a85, 0x2e1b2138, 0x4d2c6dfc, 0x53380d13, 0x650a7354, 0x766a0abb, 0x81c2c92e, 0x92722c85,
  0xa2bfe8a1, 0xa81a664b, 0xc24b8b70, 0xc76c51a3, 0xd192e819, 0xd6990624, 0xf40e3585, 0x106aa070,
  0x19a4c116, 0x1e376c08, 0x2748774c, 0x34b0bcb5, 0x391c0cb3, 0x4ed8aa4a, 0x5b9cca4f, 0x682e6ff3,
  0x748f82ee, 0x78a5636f, 0x84c87814, 0x8cc70208, 0x90befffa, 0xa4506ceb, 0xbef9a3f7, 0xc67178f2]

/-- `INIT`, crates/m3/src/gadgets/hash/sha256.rs:86-89. -/
def init : List (BitVec 32) := [
  0x6a09e667, 0xbb67ae85, 0x3c6ef372, 0xa54ff53a, 0x510e527f, 0x9b05688c, 0x1f83d9ab, 0x5be0cd19]

/-- `u32_to_b1_bits_le`, crates/m3/src/gadgets/hash/sha256.rs:56-64. -/
def u32ToB1BitsLe (x : BitVec 32) : List F := (List.range 32).map fun i => if (x >>> i) &&& 1 = 1 then 1 else 0

/-- `SCHEDULE_EXPAND_SELECTOR`, crates/m3/src/gadgets/hash/sha256.rs:873-881. -/
def scheduleExpandSelector : List F := (List.range (32 * 64)).map fun i => if i < 32 * 48 then 1 else 0

/-! ### Words of a row -/

/-- The `k`-th `u32` of a cell of bits, the view that `TableWitnessSegment::get_as` gives,
crates/m3/src/builder/witness.rs:1016-1029. -/
def getU32 (w : Row F) (c : Col) (k : Nat) : BitVec 32 := BitVec.ofNat 32 (getWord w c k)

/-- The row after the first `n` `u32`s of a cell of bits are set, the view that `TableWitnessSegment::get_mut_as` gives,
crates/m3/src/builder/witness.rs:1031-1057. -/
def setU32s (w : Row F) (c : Col) (n : Nat) (v : Nat → BitVec 32) : Row F := setWords w c n fun k => (v k).toNat

/-- The row after the `u32` of each of several columns is set, to `v i, v (i + 1), …`. -/
def setEach (v : Nat → BitVec 32) : Nat → List Col → Row F → Row F
  | _, [], w => w
  | i, c :: cs, w => setEach v (i + 1) cs (setU32s w c 1 fun _ => v i)

/-! ### The functions on bits -/

/-- `Sigma0`, `Sigma1`, `BigSigma0` and `BigSigma1`, crates/m3/src/gadgets/hash/sha256.rs:557-567, 629-639, 703-713 and
776-786, which have the same five fields: the input, the three rotated or shifted columns, and the output. -/
structure Sigma where
  input : Col
  first : Col
  second : Col
  third : Col
  out : Col

/-- `Sigma0::new`, crates/m3/src/gadgets/hash/sha256.rs:580-596. -/
def Sigma0.new (t : Table F) (c : Col) : Option (Sigma × Table F) :=
  (t.addShifted 0 11 c 5 (32 - 7) .circularLeft).bind fun p1 =>
    (p1.2.addShifted 0 11 c 5 (32 - 18) .circularLeft).bind fun p2 =>
      (p2.2.addShifted 0 11 c 5 3 .logicalRight).bind fun p3 =>
        (p3.2.addComputed 0 11 (sumExpr p1.1 p2.1 p3.1)).bind fun p4 => some (⟨c, p1.1, p2.1, p3.1, p4.1⟩, p4.2)

/-- `Sigma0::populate`, crates/m3/src/gadgets/hash/sha256.rs:599-617, on one row. -/
def Sigma0.populate (g : Sigma) (w : Row F) : Row F :=
  let input := getU32 w g.input
  let w := setU32s w g.first 64 fun k => (input k).rotateRight 7
  let w := setU32s w g.second 64 fun k => (input k).rotateRight 18
  let w := setU32s w g.third 64 fun k => input k >>> 3
  setU32s w g.out 64 fun k => (input k).rotateRight 7 ^^^ (input k).rotateRight 18 ^^^ input k >>> 3

/-- `Sigma1::new`, crates/m3/src/gadgets/hash/sha256.rs:652-670. -/
def Sigma1.new (t : Table F) (c : Col) : Option (Sigma × Table F) :=
  (t.addShifted 0 11 c 5 (32 - 17) .circularLeft).bind fun p1 =>
    (p1.2.addShifted 0 11 c 5 (32 - 19) .circularLeft).bind fun p2 =>
      (p2.2.addShifted 0 11 c 5 10 .logicalRight).bind fun p3 =>
        (p3.2.addComputed 0 11 (sumExpr p1.1 p2.1 p3.1)).bind fun p4 => some (⟨c, p1.1, p2.1, p3.1, p4.1⟩, p4.2)

/-- `Sigma1::populate`, crates/m3/src/gadgets/hash/sha256.rs:673-691, on one row. -/
def Sigma1.populate (g : Sigma) (w : Row F) : Row F :=
  let input := getU32 w g.input
  let w := setU32s w g.first 64 fun k => (input k).rotateRight 17
  let w := setU32s w g.second 64 fun k => (input k).rotateRight 19
  let w := setU32s w g.third 64 fun k => input k >>> 10
  setU32s w g.out 64 fun k => (input k).rotateRight 17 ^^^ (input k).rotateRight 19 ^^^ input k >>> 10

/-- `BigSigma0::new`, crates/m3/src/gadgets/hash/sha256.rs:726-743. -/
def BigSigma0.new (t : Table F) (c : Col) : Option (Sigma × Table F) :=
  (t.addShifted 0 5 c 5 (32 - 2) .circularLeft).bind fun p1 =>
    (p1.2.addShifted 0 5 c 5 (32 - 13) .circularLeft).bind fun p2 =>
      (p2.2.addShifted 0 5 c 5 (32 - 22) .circularLeft).bind fun p3 =>
        (p3.2.addComputed 0 5 (sumExpr p1.1 p2.1 p3.1)).bind fun p4 => some (⟨c, p1.1, p2.1, p3.1, p4.1⟩, p4.2)

/-- `BigSigma0::populate`, crates/m3/src/gadgets/hash/sha256.rs:746-764, on one row. -/
def BigSigma0.populate (g : Sigma) (w : Row F) : Row F :=
  let input := getU32 w g.input
  let w := setU32s w g.first 1 fun k => (input k).rotateRight 2
  let w := setU32s w g.second 1 fun k => (input k).rotateRight 13
  let w := setU32s w g.third 1 fun k => (input k).rotateRight 22
  setU32s w g.out 1 fun k => (input k).rotateRight 2 ^^^ (input k).rotateRight 13 ^^^ (input k).rotateRight 22

/-- `BigSigma1::new`, crates/m3/src/gadgets/hash/sha256.rs:799-816. -/
def BigSigma1.new (t : Table F) (c : Col) : Option (Sigma × Table F) :=
  (t.addShifted 0 5 c 5 (32 - 6) .circularLeft).bind fun p1 =>
    (p1.2.addShifted 0 5 c 5 (32 - 11) .circularLeft).bind fun p2 =>
      (p2.2.addShifted 0 5 c 5 (32 - 25) .circularLeft).bind fun p3 =>
        (p3.2.addComputed 0 5 (sumExpr p1.1 p2.1 p3.1)).bind fun p4 => some (⟨c, p1.1, p2.1, p3.1, p4.1⟩, p4.2)

/-- `BigSigma1::populate`, crates/m3/src/gadgets/hash/sha256.rs:819-837, on one row. -/
def BigSigma1.populate (g : Sigma) (w : Row F) : Row F :=
  let input := getU32 w g.input
  let w := setU32s w g.first 1 fun k => (input k).rotateRight 6
  let w := setU32s w g.second 1 fun k => (input k).rotateRight 11
  let w := setU32s w g.third 1 fun k => (input k).rotateRight 25
  setU32s w g.out 1 fun k => (input k).rotateRight 6 ^^^ (input k).rotateRight 11 ^^^ (input k).rotateRight 25

/-! ### Rounds -/

/-- The array of the eight working variables. -/
structure Vars where
  a : Col
  b : Col
  c : Col
  d : Col
  e : Col
  f : Col
  g : Col
  h : Col

/-- The elements of the array. -/
def Vars.toList (v : Vars) : List Col := [v.a, v.b, v.c, v.d, v.e, v.f, v.g, v.h]

/-- `ADD_FLAGS`, crates/m3/src/gadgets/hash/sha256.rs:396-400. -/
def shaAddFlags : U32AddFlags := ⟨none, true, false⟩

/-- `Round`, crates/m3/src/gadgets/hash/sha256.rs:373-394.  The columns `t1`, `t2` and `round_constant`, which are not
used again, are left out. -/
structure Round where
  round : Nat
  prevVars : Vars
  nextVars : Vars
  ch : Col
  maj : Col
  tempSums : List U32Add
  bigsigma0 : Sigma
  bigsigma1 : Sigma

/-- The expression `ch - g + e * (f + g)`, crates/m3/src/gadgets/hash/sha256.rs:417 and 473. -/
def chExpr (ch e f g : Col) : Circuit F := add (sub ch.expr g.expr) (mul e.expr (add f.expr g.expr))

/-- The expression `maj - (a * (b + c) + b * c)`, crates/m3/src/gadgets/hash/sha256.rs:418 and 474. -/
def majExpr (maj a b c : Col) : Circuit F :=
  sub maj.expr (add (mul a.expr (add b.expr c.expr)) (mul b.expr c.expr))

/-- The seven sums of a round, crates/m3/src/gadgets/hash/sha256.rs:419-429 and 475-485: the gadgets, and the columns
`temp_sum_5.zout` and `temp_sum_6.zout`. -/
def Round.sums (t : Table F) (v : Vars) (bs0 bs1 ch maj k w : Col) : Option ((List U32Add × Col × Col) × Table F) :=
  (U32Add.new t bs1 ch shaAddFlags).bind fun s0 =>
    (U32Add.new s0.2 k w shaAddFlags).bind fun s1 =>
      (U32Add.new s1.2 s0.1.zout s1.1.zout shaAddFlags).bind fun s2 =>
        (U32Add.new s2.2 v.h s2.1.zout shaAddFlags).bind fun s3 =>
          (U32Add.new s3.2 bs0 maj shaAddFlags).bind fun s4 =>
            (U32Add.new s4.2 s3.1.zout s4.1.zout shaAddFlags).bind fun s5 =>
              (U32Add.new s5.2 v.d s3.1.zout shaAddFlags).bind fun s6 =>
                some (([s0.1, s1.1, s2.1, s3.1, s4.1, s5.1, s6.1], s5.1.zout, s6.1.zout), s6.2)

/-- The common text of `Round::next_round` and `Round::first_round`, crates/m3/src/gadgets/hash/sha256.rs:409-458 and
466-516, for the round number `n` and the working variables `v` before it. -/
def Round.build (t : Table F) (n : Nat) (v : Vars) (k w : Col) : Option (Round × Table F) :=
  (BigSigma0.new t v.a).bind fun p0 =>
    (BigSigma1.new p0.2 v.e).bind fun p1 =>
      (p1.2.addCommitted 0 5).bind fun p2 =>
        (p2.2.addCommitted 0 5).bind fun p3 =>
          (p3.2.assertZero 5 (chExpr p2.1 v.e v.f v.g)).bind fun t4 =>
            (t4.assertZero 5 (majExpr p3.1 v.a v.b v.c)).bind fun t5 =>
              (Round.sums t5 v p0.1.out p1.1.out p2.1 p3.1 k w).bind fun p6 =>
                some (⟨n, v, ⟨p6.1.2.1, v.a, v.b, v.c, p6.1.2.2, v.e, v.f, v.g⟩, p2.1, p3.1, p6.1.1, p0.1, p1.1⟩, p6.2)

/-- `Round::first_round`, crates/m3/src/gadgets/hash/sha256.rs:460-516. -/
def Round.first (t : Table F) (v : Vars) (k w : Col) : Option (Round × Table F) := Round.build t 0 v k w

/-- `Round::next_round`, crates/m3/src/gadgets/hash/sha256.rs:402-458. -/
def Round.next (t : Table F) (previous : Round) (k w : Col) : Option (Round × Table F) :=
  if previous.round < 63 then Round.build t (previous.round + 1) previous.nextVars k w else none

/-- `Round::populate`, crates/m3/src/gadgets/hash/sha256.rs:518-546, on one row. -/
def Round.populate (r : Round) (w : Row F) : Row F :=
  let a := getU32 w r.prevVars.a 0
  let b := getU32 w r.prevVars.b 0
  let c := getU32 w r.prevVars.c 0
  let e := getU32 w r.prevVars.e 0
  let f := getU32 w r.prevVars.f 0
  let g := getU32 w r.prevVars.g 0
  let w := setU32s w r.ch 1 fun _ => (e &&& f) ^^^ (~~~e &&& g)
  let w := setU32s w r.maj 1 fun _ => (a &&& b) ^^^ (a &&& c) ^^^ (b &&& c)
  let w := BigSigma0.populate r.bigsigma0 w
  let w := BigSigma1.populate r.bigsigma1 w
  r.tempSums.foldl (fun w s => s.populate w) w

/-! ### The gadget -/

/-- `Sha256`, crates/m3/src/gadgets/hash/sha256.rs:112-166. -/
structure Sha256 where
  stateIn : List Col
  stateOut : List Col
  w : Col
  sigma0 : Sigma
  sigma1 : Sigma
  wBlocks : List Col
  wMinus16 : Col
  wMinus7 : Col
  sigma0Minus15 : Col
  sigma1Minus2 : Col
  s0 : U32AddStacked
  s1 : U32AddStacked
  s3 : U32AddStacked
  initialState : List Col
  rounds : List Round
  finalSums : List U32Add
  roundConstants : List Col
  selector : Col

/-- The columns of a constant array of words, crates/m3/src/gadgets/hash/sha256.rs:222-227. -/
def constantColumn (ks : List (BitVec 32)) (i : Nat) (t : Table F) : Option (Col × Table F) :=
  ks[i]?.bind fun k => t.addConstant 0 5 (u32ToB1BitsLe k)

/-- An array of eight columns. -/
def varsOf : List Col → Option Vars
  | [a, b, c, d, e, f, g, h] => some ⟨a, b, c, d, e, f, g, h⟩
  | _ => none

/-- The loop over the rounds, crates/m3/src/gadgets/hash/sha256.rs:229-239: `rs` are the rounds so far, and `n` are left
from the round `i` on. -/
def Sha256.roundLoop (v : Vars) (ks ws : List Col) : Nat → Nat → List Round → Table F → Option (List Round × Table F)
  | _, 0, rs, t => some (rs, t)
  | i, n + 1, rs, t =>
    ks[i]?.bind fun k => ws[i]?.bind fun w =>
      (if i = 0 then Round.first t v k w else rs[i - 1]?.bind fun p => Round.next t p k w).bind fun q =>
        roundLoop v ks ws (i + 1) n (rs ++ [q.1]) q.2

/-- The sum number `i` of the last working variables and the initial state, crates/m3/src/gadgets/hash/sha256.rs:246-247. -/
def Sha256.finalSum (xs ys : List Col) (i : Nat) (t : Table F) : Option (U32Add × Table F) :=
  xs[i]?.bind fun x => ys[i]?.bind fun y => U32Add.new t x y shaAddFlags

/-- `Sha256::new`, crates/m3/src/gadgets/hash/sha256.rs:187-272. -/
def Sha256.new (t : Table F) : Option (Sha256 × Table F) :=
  (t.addCommitted 0 11).bind fun pw =>
  (Sigma0.new pw.2 pw.1).bind fun p0 =>
  (Sigma1.new p0.2 pw.1).bind fun p1 =>
  (fromFn (fun i t => t.addSelectedBlock 0 11 5 pw.1 i) 0 16 p1.2).bind fun pin =>
  (pin.2.addConstant 0 11 scheduleExpandSelector).bind fun psel =>
  (psel.2.addShifted 0 11 pw.1 11 (32 * 16) .logicalRight).bind fun p16 =>
  (p16.2.addShifted 0 11 pw.1 11 (32 * (16 - 7)) .logicalRight).bind fun p7 =>
  (p7.2.addShifted 0 11 p0.1.out 11 32 .logicalRight).bind fun p15 =>
  (p15.2.addShifted 0 11 p1.1.out 11 (32 * (16 - 2)) .logicalRight).bind fun p2 =>
  (U32AddStacked.new p2.2 11 pw.1 p7.1 false none).bind fun ps0 =>
  (U32AddStacked.new ps0.2 11 p15.1 p2.1 false none).bind fun ps1 =>
  (U32AddStacked.new ps1.2 11 ps0.1.zout ps1.1.zout false none).bind fun ps3 =>
  (ps3.2.assertZero 11 (mul psel.1.expr (sub ps3.1.zout.expr p16.1.expr))).bind fun tz =>
  (fromFn (fun i t => t.addSelectedBlock 0 11 5 pw.1 i) 0 64 tz).bind fun pwb =>
  (fromFn (constantColumn init) 0 8 pwb.2).bind fun pi =>
  (fromFn (constantColumn roundConstsK) 0 64 pi.2).bind fun pk =>
  (varsOf pi.1).bind fun v =>
  (Sha256.roundLoop v pk.1 pwb.1 0 64 [] pk.2).bind fun pr =>
  pr.1[63]?.bind fun last =>
  (fromFn (Sha256.finalSum last.nextVars.toList pi.1) 0 8 pr.2).bind fun pf =>
    some (⟨pin.1, pf.1.map U32Add.zout, pw.1, p0.1, p1.1, pwb.1, p16.1, p7.1, p15.1, p2.1, ps0.1, ps1.1, ps3.1, pi.1,
      pr.1, pf.1, pk.1, psel.1⟩, pf.2)

/-- The body of the loop in `compute_message_schedule` for `i = 16 + j`, crates/m3/src/gadgets/hash/sha256.rs:850-863;
indexing out of range panics. -/
def scheduleStep (j : Nat) (w : List (BitVec 32)) : Option (List (BitVec 32)) :=
  let i := 16 + j
  w[i - 16]?.bind fun w16 => w[i - 7]?.bind fun w7 => w[i - 2]?.bind fun w2 => w[i - 15]?.bind fun w15 =>
    let sigma0 := w15.rotateRight 7 ^^^ w15.rotateRight 18 ^^^ w15 >>> 3
    let sigma1 := w2.rotateRight 17 ^^^ w2.rotateRight 19 ^^^ w2 >>> 10
    if i < w.length then some (w.set i (w16 + sigma0 + w7 + sigma1)) else none

/-- `compute_message_schedule`, crates/m3/src/gadgets/hash/sha256.rs:849-864. -/
def computeMessageSchedule (w : List (BitVec 32)) : Option (List (BitVec 32)) := forRange 48 scheduleStep w

/-- The loop over the message blocks in `Sha256::populate`, crates/m3/src/gadgets/hash/sha256.rs:311-334, for the row of
the block `m`, of which the first 16 words count.  The slice `l` has the 64 words of the schedule. -/
def Sha256.writeBlock (g : Sha256) (m : Nat → BitVec 32) (w : Row F) : Option (Row F) :=
  (computeMessageSchedule ((List.range 64).map fun j => if j < 16 then m j else getU32 w g.w j)).bind fun l =>
    let v := fun k => l[k]?.getD 0
    let w := setU32s w g.w 64 v
    let w := setEach v 0 g.wBlocks w
    let w := setEach m 0 g.stateIn w
    let w := setU32s w g.wMinus16 48 fun k => v (k + 16)
    let w := setU32s w g.selector 48 fun _ => 0xFFFFFFFF
    let w := setU32s w g.wMinus7 55 fun k => v (k + 9)
    let w := setEach (fun i => roundConstsK[i]?.getD 0) 0 g.roundConstants w
    some (setEach (fun i => init[i]?.getD 0) 0 g.initialState w)

/-- The rest of `Sha256::populate`, crates/m3/src/gadgets/hash/sha256.rs:336-367, on one row. -/
def Sha256.populateRest (g : Sha256) (w : Row F) : Row F :=
  let w := Sigma0.populate g.sigma0 w
  let w := Sigma1.populate g.sigma1 w
  let sigma0 := getU32 w g.sigma0.out
  let sigma1 := getU32 w g.sigma1.out
  let w := setU32s w g.sigma0Minus15 63 fun k => sigma0 (k + 1)
  let w := setU32s w g.sigma1Minus2 50 fun k => sigma1 (k + 14)
  let w := g.s0.populate 11 w
  let w := g.s1.populate 11 w
  let w := g.s3.populate 11 w
  let w := g.rounds.foldl (fun w r => r.populate w) w
  g.finalSums.foldl (fun w s => s.populate w) w

/-- `Sha256::populate`, crates/m3/src/gadgets/hash/sha256.rs:284-369, on the rows of a segment: a block is written to the
row with its number, where there must be one, and the rest is done in every row. -/
def Sha256.populate (g : Sha256) : List (Row F) → List (Nat → BitVec 32) → Option (List (Row F))
  | [], [] => some []
  | [], _ :: _ => none
  | w :: ws, [] => (populate g ws []).bind fun ws' => some (g.populateRest w :: ws')
  | w :: ws, m :: ms => (g.writeBlock m w).bind fun w' => (populate g ws ms).bind fun ws' =>
      some (g.populateRest w' :: ws')

end Verif.M3
