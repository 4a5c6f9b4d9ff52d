import Verif.M3.ModelAdd

/-! Model of the gadget for the permutation Keccak-f[1600] that stacks the rounds
(crates/m3/src/gadgets/hash/keccak/stacked.rs, with mod.rs, state.rs and trace.rs).

A `u64` is a bit vector of length 64 and an array of `n` entries is a function on `Fin n`, so that an index the code can
show to be in range is in range here.  `populate` is modelled row by row: the functions that take a witness segment map
the values of a row before to those after.  The writes of a cell of eight `u64`s are made at once. -/

set_option linter.dupNamespace false

namespace Verif.M3.Keccak

open Verif.Arith Finset

variable {F : Type} [Field F] [DecidableEq F]

/-! ### States -/

/-- `StateMatrix`, crates/m3/src/gadgets/hash/keccak/state.rs:12-15. -/
abbrev Mat (α : Type) := Fin 25 → α

/-- `StateRow`, crates/m3/src/gadgets/hash/keccak/state.rs:106-107. -/
abbrev Line (α : Type) := Fin 5 → α

/-- The position of the entry `(x, y)`, crates/m3/src/gadgets/hash/keccak/state.rs:58-62. -/
def pos (x y : Nat) : Fin 25 := ⟨x % 5 + y % 5 * 5, by omega⟩

/-- `StateMatrix::index`, crates/m3/src/gadgets/hash/keccak/state.rs:56-63. -/
def Mat.at {α : Type} (m : Mat α) (x y : Nat) : α := m (pos x y)

/-- `StateMatrix::index_mut`, crates/m3/src/gadgets/hash/keccak/state.rs:65-71: the matrix after an entry is set. -/
def Mat.set {α : Type} (m : Mat α) (x y : Nat) (v : α) : Mat α := fun i => if i = pos x y then v else m i

/-- `StateMatrix::from_fn`, crates/m3/src/gadgets/hash/keccak/state.rs:23-31. -/
def Mat.fromFn {α : Type} (f : Nat → Nat → α) : Mat α := fun i => f (i.val % 5) (i.val / 5)

/-- `StateRow::index`, crates/m3/src/gadgets/hash/keccak/state.rs:109-114. -/
def Line.at {α : Type} (m : Line α) (i : Nat) : α := m ⟨i % 5, by omega⟩

/-- `StateRow::from_fn`, crates/m3/src/gadgets/hash/keccak/state.rs:122-130. -/
def Line.fromFn {α : Type} (f : Nat → α) : Line α := fun i => f i.val

/-- `StateMatrix::from_fn` (state.rs:23-31) with a closure that adds to the table. -/
def matFromFn (f : Nat → Nat → Table F → Option (Col × Table F)) (t : Table F) : Option (Mat Col × Table F) :=
  (M3.fromFn (fun i t => f (i % 5) (i / 5) t) 0 25 t).bind fun p =>
    if h : p.1.length = 25 then some (fun i => p.1[i.val]'(by omega), p.2) else none

/-- `StateRow::from_fn` (state.rs:122-130) with a closure that adds to the table. -/
def lineFromFn (f : Nat → Table F → Option (Col × Table F)) (t : Table F) : Option (Line Col × Table F) :=
  (M3.fromFn f 0 5 t).bind fun p => if h : p.1.length = 5 then some (fun i => p.1[i.val]'(by omega), p.2) else none

/-- The pairs `(x, y)` in the order of two nested loops `for x in 0..5 { for y in 0..5 { … } }`. -/
def pairs : List (Nat × Nat) := (List.range 5).flatMap fun x => (List.range 5).map fun y => (x, y)

/-! ### Constants -/

/-- `RHO`, crates/m3/src/gadgets/hash/keccak/mod.rs:15-22. -/
def rho : Line (Line Nat) := ![
  ![0, 36, 3, 41, 18],
  ![1, 44, 10, 45, 2],
  ![62, 6, 43, 15, 61],
  ![28, 55, 25, 21, 56],
  ![27, 20, 39, 8, 14]]

/-- `RC`, crates/m3/src/gadgets/hash/keccak/mod.rs:24-50. -/
def rc : Fin 24 → BitVec 64 := ![
  0x0000000000000001, 0x0000000000008082, 0x800000000000808A, 0x8000000080008000,
  0x000000000000808B, 0x0000000080000001, 0x8000000080008081, 0x8000000000008009,
  0x000000000000008A, 0x0000000000000088, 0x0000000080008009, 0x000000008000000A,
  0x000000008000808B, 0x800000000000008B, 0x8000000000008089, 0x8000000000008003,
  0x8000000000008002, 0x8000000000000080, 0x000000000000800A, 0x800000008000000A,
  0x8000000080008081, 0x8000000000008080, 0x0000000080000001, 0x8000000080008008]

/-! ### Traces -/

/-- `RoundTrace`, crates/m3/src/gadgets/hash/keccak/trace.rs:10-20. -/
structure RoundTrace where
  stateIn : Mat (BitVec 64)
  stateOut : Mat (BitVec 64)
  c : Line (BitVec 64)
  d : Line (BitVec 64)
  aTheta : Mat (BitVec 64)
  b : Mat (BitVec 64)
  rc : BitVec 64

/-- `c` in `RoundTrace::gather`, crates/m3/src/gadgets/hash/keccak/trace.rs:26-32. -/
def gatherC (s : Mat (BitVec 64)) : Line (BitVec 64) :=
  Line.fromFn fun x => s.at x 0 ^^^ s.at x 1 ^^^ s.at x 2 ^^^ s.at x 3 ^^^ s.at x 4

/-- `d` in `RoundTrace::gather`, crates/m3/src/gadgets/hash/keccak/trace.rs:33-36. -/
def gatherD (c : Line (BitVec 64)) : Line (BitVec 64) :=
  Line.fromFn fun x => c.at (x + 4) ^^^ (c.at (x + 1)).rotateLeft 1

/-- `a_theta` in `RoundTrace::gather`, crates/m3/src/gadgets/hash/keccak/trace.rs:38-44. -/
def gatherTheta (s : Mat (BitVec 64)) (d : Line (BitVec 64)) : Mat (BitVec 64) :=
  pairs.foldl (fun a p => a.set p.1 p.2 (s.at p.1 p.2 ^^^ d.at p.1)) fun _ => 0

/-- `b` in `RoundTrace::gather`, crates/m3/src/gadgets/hash/keccak/trace.rs:46-53. -/
def gatherB (a : Mat (BitVec 64)) : Mat (BitVec 64) :=
  pairs.foldl (fun b p => b.set p.2 (2 * p.1 + 3 * p.2) ((a.at p.1 p.2).rotateLeft (((rho.at p.1).at p.2)))) fun _ => 0

/-- `state_out` in `RoundTrace::gather`, crates/m3/src/gadgets/hash/keccak/trace.rs:57-63. -/
def gatherOut (b : Mat (BitVec 64)) (rc : BitVec 64) : Mat (BitVec 64) :=
  Mat.fromFn fun x y =>
    let aChi := b.at x y ^^^ (~~~(b.at (x + 1) y) &&& b.at (x + 2) y)
    if x = 0 ∧ y = 0 then aChi ^^^ rc else aChi

/-- `RoundTrace::gather`, crates/m3/src/gadgets/hash/keccak/trace.rs:22-75. -/
def gather (s : Mat (BitVec 64)) (round : Fin 24) : RoundTrace :=
  let c := gatherC s
  let d := gatherD c
  let aTheta := gatherTheta s d
  let b := gatherB aTheta
  { stateIn := s, stateOut := gatherOut b (rc round), c := c, d := d, aTheta := aTheta, b := b, rc := rc round }

/-- The closure of `keccakf_trace` called on the rounds in order, crates/m3/src/gadgets/hash/keccak/trace.rs:105-109. -/
def traces (s : Mat (BitVec 64)) : List (Fin 24) → List RoundTrace
  | [] => []
  | r :: rs => gather s r :: traces (gather s r).stateOut rs

theorem traces_length (rs : List (Fin 24)) : ∀ s, (traces s rs).length = rs.length := by
  induction rs with
  | nil => intro s; rfl
  | cons r rs ih => intro s; rw [traces, List.length_cons, ih, List.length_cons]

/-- `keccakf_trace`, crates/m3/src/gadgets/hash/keccak/trace.rs:102-111. -/
def keccakfTrace (s : Mat (BitVec 64)) : Fin 24 → RoundTrace := fun r =>
  (traces s (List.finRange 24))[r.val]'(by rw [traces_length, List.length_finRange]; exact r.isLt)

/-! ### Lanes of a row -/

/-- The `k`-th `u64` of a cell of bits, the view that `TableWitnessSegment::get_as` gives,
crates/m3/src/builder/witness.rs:1016-1029. -/
def getLane (w : Row F) (c : Col) (k : Nat) : BitVec 64 :=
  BitVec.ofNat 64 (num ((List.range 64).map fun j => w c.idx (64 * k + j)))

/-- The row after a `u64` of a cell of bits is set, the view that `TableWitnessSegment::get_mut_as` gives,
crates/m3/src/builder/witness.rs:1031-1057. -/
def setLane (w : Row F) (c : Col) (k : Nat) (v : BitVec 64) : Row F := fun i p =>
  if i = c.idx ∧ p / 64 = k then ofBit (v.getLsbD (p % 64)) else w i p

/-- The row after the eight `u64`s of a cell of 512 bits are set. -/
def setLanes (w : Row F) (c : Col) (v : Fin 8 → BitVec 64) : Row F := fun i p =>
  if h : i = c.idx ∧ p < 512 then ofBit ((v ⟨p / 64, by omega⟩).getLsbD (p % 64)) else w i p

/-- The row after an entry of a cell is set. -/
def setEntry (w : Row F) (c : Col) (k : Nat) (v : F) : Row F := fun i p => if i = c.idx ∧ p = k then v else w i p

/-- The element of the field of 64 bits with the given bits: the value of a column of such elements whose memory holds
the `u64`. -/
def packLane (basis : Nat → F) (v : BitVec 64) : F := ∑ e ∈ range 64, ofBit (v.getLsbD e) * basis e

/-! ### A batch of rounds -/

/-- `nth_round_per_batch`, crates/m3/src/gadgets/hash/keccak/stacked.rs:541-546. -/
def nthRound (batchNo : Fin 3) (nth : Fin 8) : Fin 24 := ⟨nth.val * 3 + batchNo.val, by omega⟩

/-- `sum_expr`, crates/m3/src/gadgets/hash/keccak/stacked.rs:512-523. -/
def sumExpr : List Col → Option (Circuit F)
  | [] => none
  | c :: cs => some (cs.foldl (fun e c => add e c.expr) c.expr)

/-- `round_consts_for_batch`, crates/m3/src/gadgets/hash/keccak/stacked.rs:525-539. -/
def roundConstsForBatch (batchNo : Fin 3) : List F :=
  (List.finRange 8).flatMap fun track =>
    (List.range 64).map fun bit => if (rc (nthRound batchNo track) >>> bit) &&& 1 = 1 then 1 else 0

/-- `RoundBatch`, crates/m3/src/gadgets/hash/keccak/stacked.rs:276-286. -/
structure RoundBatch where
  batchNo : Fin 3
  stateIn : Mat Col
  stateOut : Mat Col
  c : Line Col
  cShift : Line Col
  d : Line Col
  aTheta : Mat Col
  b : Mat Col
  roundConst : Col

/-- The column `b[(x, y)]` in `RoundBatch::new`, crates/m3/src/gadgets/hash/keccak/stacked.rs:318-336. -/
def newB (aTheta : Mat Col) (x y : Nat) (t : Table F) : Option (Col × Table F) :=
  if x = 0 ∧ y = 0 then some (aTheta.at 0 0, t)
  else
    let dy := x
    let tmp := (y + 2 * x) % 5
    let dx := (3 * tmp) % 5
    t.addShifted 0 9 (aTheta.at dx dy) 6 ((rho.at dx).at dy) .circularLeft

/-- The constraint on `state_out[(x, y)]` in `RoundBatch::new`,
crates/m3/src/gadgets/hash/keccak/stacked.rs:343-365. -/
def chiExpr (stateOut b : Mat Col) (roundConst : Col) (x y : Nat) : Circuit F :=
  let output := (stateOut.at x y).expr
  let b0 := (b.at x y).expr
  let b1 := (b.at (x + 1) y).expr
  let b2 := (b.at (x + 2) y).expr
  if x = 0 ∧ y = 0 then sub output (add (add roundConst.expr b0) (mul (sub b1 (constant 1)) b2))
  else sub output (add b0 (mul (sub b1 (constant 1)) b2))

/-- `RoundBatch::new`, crates/m3/src/gadgets/hash/keccak/stacked.rs:289-379. -/
def RoundBatch.new (t : Table F) (stateIn : Mat Col) (batchNo : Fin 3) : Option (RoundBatch × Table F) :=
  (matFromFn (fun _ _ t => t.addCommitted 0 9) t).bind fun out =>
    (lineFromFn (fun x t => (sumExpr ((List.range 5).map fun y => stateIn.at x y)).bind fun e => t.addComputed 0 9 e)
      out.2).bind fun c =>
      (lineFromFn (fun x t => t.addShifted 0 9 (c.1.at x) 6 1 .circularLeft) c.2).bind fun cs =>
        (lineFromFn (fun x t => t.addComputed 0 9 (add (c.1.at (x + 4)).expr (cs.1.at (x + 1)).expr)) cs.2).bind fun d =>
          (matFromFn (fun x y t => t.addComputed 0 9 (add (stateIn.at x y).expr (d.1.at x).expr)) d.2).bind fun a =>
            (matFromFn (newB a.1) a.2).bind fun b =>
              (b.2.addConstant 0 9 (roundConstsForBatch batchNo)).bind fun rcol =>
                (forEach (fun x t => forEach (fun y t => t.assertZero 9 (chiExpr out.1 b.1 rcol.1 x y)) 0 5 t) 0 5
                  rcol.2).bind fun t =>
                    some (⟨batchNo, stateIn, out.1, c.1, cs.1, d.1, a.1, b.1, rcol.1⟩, t)

/-- The cells that `RoundBatch::populate` writes and the values it writes to them, in order,
crates/m3/src/gadgets/hash/keccak/stacked.rs:390-445. -/
def RoundBatch.writes (g : RoundBatch) (trace : Fin 24 → RoundTrace) : List (Col × (Fin 8 → BitVec 64)) :=
  let brt := fun track => trace (nthRound g.batchNo track)
  (g.roundConst, fun k => (brt k).rc) :: (List.range 5).flatMap fun x =>
    [(g.c.at x, fun k => (brt k).c.at x), (g.cShift.at x, fun k => ((brt k).c.at x).rotateLeft 1),
      (g.d.at x, fun k => (brt k).d.at x)] ++
    (List.range 5).flatMap fun y =>
      [(g.stateIn.at x y, fun k => (brt k).stateIn.at x y), (g.stateOut.at x y, fun k => (brt k).stateOut.at x y),
        (g.aTheta.at x y, fun k => (brt k).aTheta.at x y)] ++
      if x ≠ 0 ∨ y ≠ 0 then [(g.b.at x y, fun k => (brt k).b.at x y)] else []

/-- The row after the writes. -/
def applyWrites (ws : List (Col × (Fin 8 → BitVec 64))) (w : Row F) : Row F :=
  ws.foldl (fun w p => setLanes w p.1 p.2) w

/-- `RoundBatch::populate`, crates/m3/src/gadgets/hash/keccak/stacked.rs:381-448, on one row. -/
def RoundBatch.populate (g : RoundBatch) (trace : Fin 24 → RoundTrace) (w : Row F) : Row F :=
  applyWrites (g.writes trace) w

/-! ### The permutation -/

/-- `Keccakf`, crates/m3/src/gadgets/hash/keccak/stacked.rs:77-97, and the packed columns of the input and of the output
states, which the gadget does not keep: they have the memory of the columns they are made from. -/
structure Keccakf where
  batches : Fin 3 → RoundBatch
  input : Mat Col
  output : Mat Col
  nextStateIn : Mat Col
  linkSel : Col
  stateInPacked : Mat Col
  stateOutPacked : Mat Col

/-- The constant of `link_sel`, crates/m3/src/gadgets/hash/keccak/stacked.rs:141. -/
def linkSelConst : List F := (List.range 8).map fun i => if i < 7 then 1 else 0

/-- `Keccakf::new`, crates/m3/src/gadgets/hash/keccak/stacked.rs:103-168. -/
def Keccakf.new (t : Table F) : Option (Keccakf × Table F) :=
  (matFromFn (fun _ _ t => t.addCommitted 0 9) t).bind fun si =>
    (matFromFn (fun x y t => t.addPacked 0 9 6 3 (si.1.at x y)) si.2).bind fun sip =>
      (RoundBatch.new sip.2 si.1 0).bind fun b0 =>
        (RoundBatch.new b0.2 b0.1.stateOut 1).bind fun b1 =>
          (RoundBatch.new b1.2 b1.1.stateOut 2).bind fun b2 =>
            (matFromFn (fun x y t => t.addPacked 0 9 6 3 (b2.1.stateOut.at x y)) b2.2).bind fun sop =>
              (matFromFn (fun x y t => t.addSelected 6 3 (sip.1.at x y) 0) sop.2).bind fun input =>
                (matFromFn (fun x y t => t.addSelected 6 3 (sop.1.at x y) 7) input.2).bind fun output =>
                  (output.2.addConstant 0 3 linkSelConst).bind fun ls =>
                    (matFromFn (fun x y t => t.addShifted 6 3 (sip.1.at x y) 3 1 .logicalRight) ls.2).bind fun nsi =>
                      (forEach (fun x t => forEach (fun y t => t.assertZero 3
                        (mul (sub (sop.1.at x y).expr (nsi.1.at x y).expr) ls.1.expr)) 0 5 t) 0 5 nsi.2).bind fun t =>
                          some (⟨![b0.1, b1.1, b2.1], input.1, output.1, nsi.1, ls.1, sip.1, sop.1⟩, t)

/-- The row after the tracks from `k`, `n` of them, of `next_state_in[(x, y)]` are written,
crates/m3/src/gadgets/hash/keccak/stacked.rs:201-208; `none` is the failure of the assertion. -/
def fillNext (basis : Nat → F) (next stateIn stateOut : Col) : Nat → Nat → Row F → Option (Row F)
  | _, 0, w => some w
  | k, n + 1, w =>
    let v := getLane w stateIn (k + 1)
    if v = getLane w stateOut k then fillNext basis next stateIn stateOut (k + 1) n (setEntry w next k (packLane basis v))
    else none

/-- The body of the loops over `x` and `y` in `Keccakf::populate`,
crates/m3/src/gadgets/hash/keccak/stacked.rs:195-216. -/
def Keccakf.fillLinks (g : Keccakf) (basis : Nat → F) (trace : Fin 24 → RoundTrace) :
    List (Nat × Nat) → Row F → Option (Row F)
  | [], w => some w
  | (x, y) :: ps, w =>
    (fillNext basis (g.nextStateIn.at x y) ((g.batches 0).stateIn.at x y) ((g.batches 2).stateOut.at x y) 0 7 w).bind
      fun w =>
        let w := setEntry w (g.input.at x y) 0 (packLane basis ((trace 0).stateIn.at x y))
        let w := setEntry w (g.output.at x y) 0 (packLane basis ((trace 23).stateOut.at x y))
        g.fillLinks basis trace ps w

/-- The packed columns of the states read the memory of the columns they are made from
(crates/m3/src/builder/witness.rs:428-431): their values once those are written. -/
def Keccakf.fillPacked (g : Keccakf) (basis : Nat → F) (w : Row F) : Row F := fun i p =>
  match (List.finRange 25).find? fun j => (g.stateInPacked j).idx = i with
  | some j => packLane basis (getLane w ((g.batches 0).stateIn j) p)
  | none =>
    match (List.finRange 25).find? fun j => (g.stateOutPacked j).idx = i with
    | some j => packLane basis (getLane w ((g.batches 2).stateOut j) p)
    | none => w i p

/-- The writes of `0x7f` to the cell of `link_sel`, crates/m3/src/gadgets/hash/keccak/stacked.rs:221-226. -/
def setLinkSel (w : Row F) (c : Col) : Row F := fun i p =>
  if i = c.idx ∧ p < 8 then ofBit ((0x7f : BitVec 8).getLsbD p) else w i p

/-- `Keccakf::populate`, crates/m3/src/gadgets/hash/keccak/stacked.rs:174-229, on one row. -/
def Keccakf.populateRow (g : Keccakf) (basis : Nat → F) (w : Row F) : Option (Row F) :=
  let trace := keccakfTrace fun i => getLane w ((g.batches 0).stateIn i) 0
  let w := (g.batches 2).populate trace ((g.batches 1).populate trace ((g.batches 0).populate trace w))
  let w := g.fillPacked basis w
  (g.fillLinks basis trace pairs w).bind fun w => some (setLinkSel w g.linkSel)

/-- `Keccakf::populate`, crates/m3/src/gadgets/hash/keccak/stacked.rs:174-229, on the rows of a segment. -/
def Keccakf.populate (g : Keccakf) (basis : Nat → F) (rows : List (Row F)) : Option (List (Row F)) :=
  rows.mapM (g.populateRow basis)

/-- The writes of one state in `RoundBatch::populate_state_in`,
crates/m3/src/gadgets/hash/keccak/stacked.rs:461-467. -/
def RoundBatch.setStateIn (g : RoundBatch) (track : Nat) (s : Mat (BitVec 64)) (w : Row F) : Row F :=
  pairs.foldl (fun w p => setLane w (g.stateIn.at p.1 p.2) track (s.at p.1 p.2)) w

/-- `Keccakf::populate_state_in`, crates/m3/src/gadgets/hash/keccak/stacked.rs:243-255 and 450-470: the states are
written to the rows in order, and a state with no row is an index out of range. -/
def Keccakf.populateStateIn (g : Keccakf) : List (Row F) → List (Mat (BitVec 64)) → Option (List (Row F))
  | rows, [] => some rows
  | [], _ :: _ => none
  | w :: rows, s :: ss => (g.populateStateIn rows ss).bind fun rows => some ((g.batches 0).setStateIn 0 s w :: rows)

/-- `Keccakf::read_state_outs`, crates/m3/src/gadgets/hash/keccak/stacked.rs:257-269 and 492-509. -/
def Keccakf.readStateOuts (g : Keccakf) (rows : List (Row F)) : List (Mat (BitVec 64)) :=
  rows.map fun w => Mat.fromFn fun x y => getLane w ((g.batches 2).stateOut ⟨(x % 5) + 5 * (y % 5), by omega⟩) 7

end Verif.M3.Keccak
