import Verif.NTT.ModelTwiddle

/-! Model of crates/ntt/src/single_threaded.rs.

A packed element is the function from lane to scalar; only lanes below the width `2^w` matter.  A slice of
packed elements is a `Slice` of these.  `none` is a panic.  Shifts are on unbounded naturals: shape
parameters of 64 and more are outside the model. -/

namespace Verif.NTT

open Verif.Subspace (BinarySubspace)

/-- `NTTShape`, crates/ntt/src/additive_ntt.rs:19-26. -/
structure Shape where
  logX : Nat
  logY : Nat
  logZ : Nat

/-- A packed element by its lanes. -/
abbrev Lanes (F : Type*) := Nat → F

variable {F : Type*} [Field F] [DecidableEq F]

/-- The scalars of a slice of packed elements with `2^w` lanes, in natural order
(`PackedField::iter_slice`, crates/field/src/packed.rs:131-133). -/
def flat (w : Nat) (d : Slice (Lanes F)) (p : Nat) : F := d.val (p / 2 ^ w) (p % 2 ^ w)

/-- `PackedField::interleave` with `2^w` lanes (crates/field/src/packed.rs:202-220; the lane semantics is
theorem C11_interleave; panics unless the block is shorter than the width). -/
def interleave (w b : Nat) (x y : Lanes F) : Option (Lanes F × Lanes F) :=
  if b < w then
    some (fun l => if l.testBit b then y (l - 2 ^ b) else x l,
      fun l => if l.testBit b then y l else x (l + 2 ^ b))
  else none

/-- `check_batch_transform_inputs_and_params`, crates/ntt/src/single_threaded.rs:364-406.  `len` is
`data.len()`. -/
def check (logDomain len w : Nat) (shape : Shape) (coset cosetBits skip : Nat) : Except Error Unit :=
  if ¬ ∃ k ∈ List.range (len + 1), len = 2 ^ k then .error .powerOfTwoLengthRequired
  else if skip > shape.logY then .error .skipRoundsTooLarge
  else
    let full := (len * 2 ^ w) >>> (shape.logX + shape.logZ)
    if (1 <<< shape.logY ≠ full ∧ len > 2) ∨ 1 <<< shape.logY > full then .error .batchTooLarge
    else if coset ≥ 1 <<< cosetBits then .error .cosetIndexOutOfBounds
    else if shape.logY + cosetBits > logDomain then .error .domainTooSmall
    else .ok ()

/-- `calculate_packed_additive_twiddle`, crates/ntt/src/single_threaded.rs:409-456; the
subtractions and the lane index that would panic are checked. -/
def packedAdditiveTwiddle (w : Nat) (t : TA F) (shape : Shape) (round : Nat) : Option (Lanes F) :=
  let logBlockLen := round + shape.logX
  let packedLogLen := min (shape.logX + shape.logY + shape.logZ) w
  let logBlocksCount := packedLogLen - (logBlockLen + 1)
  let packedLogZ := packedLogLen - (shape.logX + shape.logY)
  if packedLogLen < packedLogZ + shape.logX then none
  else if logBlocksCount < packedLogZ then none
  else
    let packedLogY := packedLogLen - packedLogZ - shape.logX
    let stride := min (w - shape.logX) (logBlocksCount - packedLogZ)
    forRange (2 ^ (logBlocksCount - stride)) (fun i tw =>
      forRange (2 ^ stride) (fun j tw =>
        (if packedLogY = shape.logY then (t.get j).map fun a => (a, a) else t.getPair stride j).bind fun p =>
          let idx0 := (j <<< (logBlockLen + 1)) ||| (i <<< (logBlockLen + stride + 1))
          let idx1 := idx0 ||| (1 <<< logBlockLen)
          forRange (2 ^ logBlockLen) (fun k tw =>
            if (idx0 ||| k) < 2 ^ w ∧ (idx1 ||| k) < 2 ^ w then
              some (fun l => if l = (idx1 ||| k) then p.2 else if l = (idx0 ||| k) then p.1 else tw l)
            else none) tw) tw) (fun _ => 0)

/-- The body of the innermost loop of the upper layers of `forward_transform`,
crates/ntt/src/single_threaded.rs:212-213. -/
def butterflyFwd (t : F) (idx0 idx1 : Nat) (d : Slice (Lanes F)) : Option (Slice (Lanes F)) :=
  (d.get? idx1).bind fun y => (d.get? idx0).bind fun x =>
    (d.set? idx0 (fun l => x l + y l * t)).bind fun d =>
      (d.get? idx0).bind fun x => (d.get? idx1).bind fun y => d.set? idx1 (fun l => y l + x l)

/-- The body of the innermost loop of the upper layers of `inverse_transform`,
crates/ntt/src/single_threaded.rs:354-355. -/
def butterflyInv (t : F) (idx0 idx1 : Nat) (d : Slice (Lanes F)) : Option (Slice (Lanes F)) :=
  (d.get? idx0).bind fun x => (d.get? idx1).bind fun y =>
    (d.set? idx1 (fun l => y l + x l)).bind fun d =>
      (d.get? idx1).bind fun y => (d.get? idx0).bind fun x => d.set? idx0 (fun l => x l + y l * t)

/-- One upper layer, crates/ntt/src/single_threaded.rs:199-217 (forward) and 341-359 (inverse), with the
butterfly as a parameter. -/
def upperLayer (bf : F → Nat → Nat → Slice (Lanes F) → Option (Slice (Lanes F))) (w : Nat) (tas : List (TA F))
    (shape : Shape) (coset i : Nat) (d : Slice (Lanes F)) : Option (Slice (Lanes F)) :=
  tas[i]?.bind fun t =>
    forRange (2 ^ shape.logZ) (fun j d =>
      forRange (2 ^ (shape.logY - 1 - i)) (fun k d =>
        (t.get ((coset <<< (shape.logY - 1 - i)) ||| k)).bind fun tw =>
          forRange (2 ^ (i + shape.logX - w)) (fun l d =>
            let idx0 := (j <<< (shape.logX + shape.logY - w)) ||| (k <<< (shape.logX + i + 1 - w)) ||| l
            let idx1 := idx0 ||| (1 <<< (shape.logX + i - w))
            bf tw idx0 idx1 d) d) d) d

/-- The packed butterfly of the lower layers, forward, crates/ntt/src/single_threaded.rs:237-240. -/
def packedFwd (w b : Nat) (tw : Lanes F) (index : Nat) (d : Slice (Lanes F)) : Option (Slice (Lanes F)) :=
  (d.get? index).bind fun x => (d.get? (index ||| 1)).bind fun y =>
    (interleave w b x y).bind fun uv =>
      let u : Lanes F := fun l => uv.1 l + uv.2 l * tw l
      let v : Lanes F := fun l => uv.2 l + u l
      (interleave w b u v).bind fun r => (d.set? index r.1).bind fun d => d.set? (index ||| 1) r.2

/-- The packed butterfly of the lower layers, inverse, crates/ntt/src/single_threaded.rs:331-334. -/
def packedInv (w b : Nat) (tw : Lanes F) (index : Nat) (d : Slice (Lanes F)) : Option (Slice (Lanes F)) :=
  (d.get? index).bind fun x => (d.get? (index ||| 1)).bind fun y =>
    (interleave w b x y).bind fun uv =>
      let v : Lanes F := fun l => uv.2 l + uv.1 l
      let u : Lanes F := fun l => uv.1 l + v l * tw l
      (interleave w b u v).bind fun r => (d.set? index r.1).bind fun d => d.set? (index ||| 1) r.2

/-- One lower layer, crates/ntt/src/single_threaded.rs:219-243 (forward) and 313-337 (inverse). -/
def lowerLayer (bf : Nat → Nat → Lanes F → Nat → Slice (Lanes F) → Option (Slice (Lanes F))) (w : Nat)
    (tas : List (TA F)) (shape : Shape) (coset i : Nat) (d : Slice (Lanes F)) : Option (Slice (Lanes F)) :=
  tas[i]?.bind fun t =>
    (packedAdditiveTwiddle w t shape i).bind fun blockTw =>
      let cutoff := w - shape.logX
      let logPackedCount := shape.logY - 1 - cutoff
      forRange (2 ^ (shape.logX + shape.logY + shape.logZ - (w + logPackedCount + 1))) (fun j d =>
        forRange (2 ^ logPackedCount) (fun k d =>
          (t.get ((coset <<< (shape.logY - 1 - i)) ||| (k <<< (cutoff - i)))).bind fun tw =>
            bf w (i + shape.logX) (fun l => tw + blockTw l)
              ((k <<< 1) ||| (j <<< (logPackedCount + 1))) d) d) d

/-- `for i in (lo..hi).rev()`. -/
def forRangeRev {S : Type*} (lo hi : Nat) (body : Nat → S → Option S) (s : S) : Option S :=
  forRange (hi - lo) (fun k s => body (hi - 1 - k) s) s

/-- `for i in lo..hi`. -/
def forFromTo {S : Type*} (lo hi : Nat) (body : Nat → S → Option S) (s : S) : Option S :=
  forRange (hi - lo) (fun k s => body (lo + k) s) s

/-- `forward_transform` for at least two packed elements, after the checks,
crates/ntt/src/single_threaded.rs:182-245. -/
def forwardMain (logDomain w : Nat) (tas : List (TA F)) (d : Slice (Lanes F)) (shape : Shape)
    (coset cosetBits skip : Nat) : Option (Slice (Lanes F)) :=
  let cutoff := w - shape.logX
  let tas := tas.drop (logDomain - (shape.logY + cosetBits))
  (forRangeRev cutoff (shape.logY - skip) (upperLayer butterflyFwd w tas shape coset) d).bind fun d =>
    forRangeRev 0 (min cutoff (shape.logY - skip)) (lowerLayer packedFwd w tas shape coset) d

/-- `inverse_transform` for at least two packed elements, after the checks,
crates/ntt/src/single_threaded.rs:296-361. -/
def inverseMain (logDomain w : Nat) (tas : List (TA F)) (d : Slice (Lanes F)) (shape : Shape)
    (coset cosetBits skip : Nat) : Option (Slice (Lanes F)) :=
  let cutoff := w - shape.logX
  let tas := tas.drop (logDomain - (shape.logY + cosetBits))
  (forFromTo 0 (min cutoff (shape.logY - skip)) (lowerLayer packedInv w tas shape coset) d).bind fun d =>
    forFromTo cutoff (shape.logY - skip) (upperLayer butterflyInv w tas shape coset) d

/-- The treatment of the slice length in `forward_transform` and `inverse_transform`,
crates/ntt/src/single_threaded.rs:152-180 and 266-294: a single packed element is transformed in a buffer
together with a zero element (the recursive call checks the parameters again). -/
def withBuffer (main : Slice (Lanes F) → Option (Slice (Lanes F))) (chk : Nat → Except Error Unit) (w : Nat)
    (d : Slice (Lanes F)) : Option (Except Error (Slice (Lanes F))) :=
  match chk d.size with
  | .error e => some (.error e)
  | .ok _ =>
    if d.size = 0 then some (.ok d)
    else if d.size = 1 then
      if w = 0 then some (.ok d)
      else
        match chk 2 with
        | .error e => some (.error e)
        | .ok _ =>
          (main ⟨2, fun i => if i = 0 then d.val 0 else fun _ => 0⟩).bind fun buf =>
            (buf.get? 0).bind fun r => (d.set? 0 r).map .ok
    else (main d).map .ok

/-- `forward_transform`, crates/ntt/src/single_threaded.rs:134-246. -/
def forward (logDomain w : Nat) (tas : List (TA F)) (d : Slice (Lanes F)) (shape : Shape)
    (coset cosetBits skip : Nat) : Option (Except Error (Slice (Lanes F))) :=
  withBuffer (fun d => forwardMain logDomain w tas d shape coset cosetBits skip)
    (fun len => check logDomain len w shape coset cosetBits skip) w d

/-- `inverse_transform`, crates/ntt/src/single_threaded.rs:248-362. -/
def inverse (logDomain w : Nat) (tas : List (TA F)) (d : Slice (Lanes F)) (shape : Shape)
    (coset cosetBits skip : Nat) : Option (Except Error (Slice (Lanes F))) :=
  withBuffer (fun d => inverseMain logDomain w tas d shape coset cosetBits skip)
    (fun len => check logDomain len w shape coset cosetBits skip) w d

/-- `SingleThreadedNTT::with_subspace`, crates/ntt/src/single_threaded.rs:43-46: the list of accesses. -/
def withSubspace (s : BinarySubspace F) : Option (Except Error (List (TA F))) := generateOnTheFly s

/-- `SingleThreadedNTT::precompute_twiddles`, crates/ntt/src/single_threaded.rs:48-50. -/
def precomputeTwiddles (tas : List (TA F)) : List (TA F) := expandSubspaceEvals tas

/-- `AdditiveNTT::subspace`, crates/ntt/src/single_threaded.rs:85-89; `none` is the panic of the index (or of
the subtraction). -/
def subspace (tas : List (TA F)) (i : Nat) : Option (BinarySubspace F) :=
  if i > tas.length then none
  else tas[tas.length - i]?.bind fun t => t.affineSubspace.map (·.1)

/-- `get_subspace_eval` of the single-threaded NTT, crates/ntt/src/single_threaded.rs:91-93. -/
def getSubspaceEval (tas : List (TA F)) (i j : Nat) : Option F :=
  if i > tas.length then none
  else tas[tas.length - i]?.bind fun t => t.get j

end Verif.NTT
