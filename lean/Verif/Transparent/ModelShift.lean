import Verif.Transparent.ModelTransparent

/-! Model of the shift indicator (crates/core/src/transparent/shift_ind.rs).  `none` is a panic, `Except` carries the
returned error; `1 << b` is `2 ^ b`. -/

namespace Verif.Transparent

open Verif.Tensor

variable {F : Type*} [CommRing F]

/-- `ShiftVariant`, crates/core/src/oracle/multilinear.rs:779-783. -/
inductive ShiftVariant where
  | circularLeft
  | logicalLeft
  | logicalRight
  deriving DecidableEq

/-- `ShiftIndPartialEval`, crates/core/src/transparent/shift_ind.rs:88-99. -/
structure ShiftInd (F : Type*) where
  blockSize : Nat
  shiftOffset : Nat
  variant : ShiftVariant
  r : List F

/-- `binius_field::util::eq`, crates/field/src/util.rs:74-82.  Only the branch for characteristic 2 is modelled: a
`TowerField` has no other. -/
def eqBit (x y : F) : F := x + y + 1

/-- `assert_valid_shift_ind_args`, crates/core/src/transparent/shift_ind.rs:212-231. -/
def assertValidShiftIndArgs (blockSize shiftOffset : Nat) (point : List F) : Except Error Unit :=
  if point.length ≠ blockSize then .error .incorrectQuerySize
  else if shiftOffset = 0 ∨ 2 ^ blockSize ≤ shiftOffset then .error .invalidShiftOffset
  else .ok ()

/-- `ShiftIndPartialEval::new`, crates/core/src/transparent/shift_ind.rs:101-115. -/
def ShiftInd.new (blockSize shiftOffset : Nat) (variant : ShiftVariant) (r : List F) : Except Error (ShiftInd F) :=
  match assertValidShiftIndArgs blockSize shiftOffset r with
  | .error e => .error e
  | .ok () => .ok ⟨blockSize, shiftOffset, variant, r⟩

/-- `get_left_shift_offset`, crates/core/src/transparent/shift_ind.rs:207-209. -/
def getLeftShiftOffset (blockSize rightShiftOffset : Nat) : Nat := 2 ^ blockSize - rightShiftOffset

/-- The body of the loop of `evaluate_shift_ind_help` for one bit of the offset,
crates/core/src/transparent/shift_ind.rs:254-265. -/
def shiftStep (odd : Bool) (x y : F) (s : F × F) : F × F :=
  if odd then ((y - x * y) * s.1, (x - x * y) * s.1 + eqBit x y * s.2)
  else (eqBit x y * s.1 + (y - x * y) * s.2, (x - x * y) * s.2)

/-- The loop over `0..block_size`, crates/core/src/transparent/shift_ind.rs:252-266, from bit `k` on; `x[k]` and
`y[k]` are the heads. -/
def shiftLoop (shiftOffset : Nat) (k : Nat) : List F → List F → F × F → F × F
  | x :: xs, y :: ys, s => shiftLoop shiftOffset (k + 1) xs ys (shiftStep (shiftOffset / 2 ^ k % 2 = 1) x y s)
  | _, _, s => s

/-- `evaluate_shift_ind_help`, crates/core/src/transparent/shift_ind.rs:237-269. -/
def evaluateShiftIndHelp (blockSize shiftOffset : Nat) (x y : List F) : Except Error (F × F) :=
  if x.length ≠ blockSize then .error .incorrectQuerySize
  else
    match assertValidShiftIndArgs blockSize shiftOffset y with
    | .error e => .error e
    | .ok () => .ok (shiftLoop shiftOffset 0 x y (1, 0))

/-- The offset of the left shift that `evaluate_at_point` runs, crates/core/src/transparent/shift_ind.rs:172-175. -/
def ShiftInd.leftOffset (s : ShiftInd F) : Nat :=
  match s.variant with
  | .circularLeft | .logicalLeft => s.shiftOffset
  | .logicalRight => getLeftShiftOffset s.blockSize s.shiftOffset

/-- The value picked from the pair, crates/core/src/transparent/shift_ind.rs:180-184. -/
def pickVariant (v : ShiftVariant) (p : F × F) : F :=
  match v with
  | .circularLeft => p.1 + p.2
  | .logicalLeft => p.1
  | .logicalRight => p.2

/-- `ShiftIndPartialEval::evaluate`, crates/core/src/transparent/shift_ind.rs:164-185 and 197-199. -/
def ShiftInd.evaluate (s : ShiftInd F) (x : List F) : Except Error F :=
  if x.length ≠ s.blockSize then .error .incorrectQuerySize
  else
    match evaluateShiftIndHelp s.blockSize s.leftOffset x s.r with
    | .error e => .error e
    | .ok p => .ok (pickVariant s.variant p)

/-- The two buffers `s_ind_p` and `s_ind_pp`. -/
structure Bufs (F : Type*) where
  p : Slice F
  pp : Slice F

/-- `shift_offset_odd_step`, crates/core/src/transparent/shift_ind.rs:306-317, on one lane. -/
def oddStep (p pp r : F) : F × F × F :=
  let ppHi := pp * r
  let ppLo := pp - ppHi
  let pHi := p * r
  (ppLo, ppHi + (p - pHi), pHi)

/-- `shift_offset_even_step`, crates/core/src/transparent/shift_ind.rs:320-330, on one lane. -/
def evenStep (p pp r : F) : F × F × F :=
  let pHi := p * r
  let pLo := p - pHi
  let ppHi := pp * (1 - r)
  (pLo + (pp - ppHi), pHi, ppHi)

/-- One lane of the loop body of `partial_evaluate_hypercube_with_buffers`,
crates/core/src/transparent/shift_ind.rs:346-362: `a` and `b` are the flat indices of this lane of the elements `i` and
`1 << k | i`.  The packed operations are lane-wise. -/
def bufLane (odd : Bool) (r : F) (a b : Nat) (s : Bufs F) : Option (Bufs F) := do
  let p ← s.p.get? a
  let pp ← s.pp.get? a
  if odd then
    let (ppLo, ppHi, pHi) := oddStep p pp r
    let pp' ← s.pp.set? a ppLo
    let pp' ← pp'.set? b ppHi
    let p' ← s.p.set? a pHi
    let p' ← p'.set? b 0
    some ⟨p', pp'⟩
  else
    let (pLo, pHi, ppHi) := evenStep p pp r
    let p' ← s.p.set? a pLo
    let p' ← p'.set? b pHi
    let pp' ← s.pp.set? a 0
    let pp' ← pp'.set? b ppHi
    some ⟨p', pp'⟩

/-- One iteration over `k` of `partial_evaluate_hypercube_with_buffers`,
crates/core/src/transparent/shift_ind.rs:339-364.  `r[k]` panics out of range. -/
def bufStep (w shiftOffset : Nat) (r : List F) (k : Nat) (s : Bufs F) : Option (Bufs F) :=
  r[k]?.bind fun rk =>
    forRange (2 ^ k) (fun i s => forRange (2 ^ w) (fun l s =>
      bufLane (shiftOffset / 2 ^ k % 2 = 1) rk (i * 2 ^ w + l) ((2 ^ k ||| i) * 2 ^ w + l) s) s) s

/-- `partial_evaluate_hypercube_with_buffers`, crates/core/src/transparent/shift_ind.rs:332-366. -/
def withBuffers (w blockSize shiftOffset : Nat) (r : List F) (s : Bufs F) : Option (Bufs F) :=
  forRange blockSize (bufStep w shiftOffset r) s

/-- The new lanes of a packed element (`PackedField::from_fn`): the low ones from `lo`, the next ones from `hi`, the
others kept, crates/core/src/transparent/shift_ind.rs:391-399.  Only the first packed element, whose lanes are the flat
indices below `2^w`, is replaced. -/
def fromFn (w k : Nat) (lo hi : Nat → F) (old : Slice F) : Slice F :=
  ⟨old.size, fun i =>
    if i < 2 ^ w then
      if i < 2 ^ k then lo i else if i < 2 ^ (k + 1) then hi (i - 2 ^ k) else old.val i
    else old.val i⟩

/-- One iteration over `k` of `partial_evaluate_hypercube_with_buffers_within_packed`,
crates/core/src/transparent/shift_ind.rs:383-428. -/
def withinStep (w shiftOffset : Nat) (r : List F) (k : Nat) (s : Bufs F) : Option (Bufs F) :=
  r[k]?.bind fun rk =>
    some <|
      if shiftOffset / 2 ^ k % 2 = 1 then
        ⟨fromFn w k (fun i => (oddStep (s.p.val i) (s.pp.val i) rk).2.2) (fun _ => 0) s.p,
          fromFn w k (fun i => (oddStep (s.p.val i) (s.pp.val i) rk).1)
            (fun i => (oddStep (s.p.val i) (s.pp.val i) rk).2.1) s.pp⟩
      else
        ⟨fromFn w k (fun i => (evenStep (s.p.val i) (s.pp.val i) rk).1)
            (fun i => (evenStep (s.p.val i) (s.pp.val i) rk).2.1) s.p,
          fromFn w k (fun _ => 0) (fun i => (evenStep (s.p.val i) (s.pp.val i) rk).2.2) s.pp⟩

/-- `partial_evaluate_hypercube_impl`, crates/core/src/transparent/shift_ind.rs:276-303. -/
def partialEvaluateHypercube (w blockSize shiftOffset : Nat) (r : List F) : Option (Except Error (Bufs F)) :=
  match assertValidShiftIndArgs blockSize shiftOffset r with
  | .error e => some (.error e)
  | .ok () =>
    let size := 2 ^ (blockSize - w) * 2 ^ w
    (forRange (min blockSize w) (withinStep w shiftOffset r) ⟨⟨size, fun _ => 1⟩, ⟨size, fun _ => 0⟩⟩).bind fun s =>
      if w < blockSize then
        (withBuffers w (blockSize - w) (shiftOffset / 2 ^ w) (r.drop w) s).map .ok
      else some (.ok s)

/-- The table picked from the two buffers, crates/core/src/transparent/shift_ind.rs:117-148. -/
def pickTable (v : ShiftVariant) (s : Bufs F) : Slice F :=
  match v with
  | .circularLeft => ⟨s.p.size, fun i => s.p.val i + s.pp.val i⟩
  | .logicalLeft => s.p
  | .logicalRight => s.pp

/-- `ShiftIndPartialEval::multilinear_extension`, crates/core/src/transparent/shift_ind.rs:117-161. -/
def ShiftInd.mlx (w : Nat) (s : ShiftInd F) : Option (Except Error (Mlx F)) :=
  (partialEvaluateHypercube w s.blockSize s.leftOffset s.r).map fun res =>
    match res with
    | .error e => .error e
    | .ok b => liftMlx (Mlx.new w s.blockSize (pickTable s.variant b))

end Verif.Transparent
