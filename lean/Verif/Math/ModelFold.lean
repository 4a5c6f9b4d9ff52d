import Verif.Math.ModelTensor
import Batteries.Data.Nat.Lemmas

/-! Model of the folds of crates/math/src/fold.rs and of the partial evaluations built on them.

Slices of packed elements are flat slices of scalars (`Verif.Slice`), `w`/`w'` being the `LOG_WIDTH` of `P`
(table, scalars `F'`) and `PE` (query and output, scalars `F`).  `emb` is the embedding of the subfield.
`none` is a panic, or undefined behaviour for the unchecked accesses.  An uninitialised output slice is
an output slice with arbitrary contents. -/

namespace Verif.Fold

open Verif.Tensor

/-- The compile-time facts (`TypeId` comparisons) the code branches on: `oneBit` is
`P::Scalar == BinaryField1b` (fold.rs:102,145), `iterBytes` is `can_iterate_bytes::<P>()` (fold.rs:499),
`seqBytes` is `is_sequential_bytes::<P>()` (fold.rs:755), `samePacking` is `P == PE` (fold.rs:157),
`opt128` is that `PE` is the optimal packing of a 128-bit field (fold.rs:788). -/
structure Types where
  oneBit : Bool
  iterBytes : Bool
  seqBytes : Bool
  samePacking : Bool
  opt128 : Bool

variable {F F' : Type*} [CommRing F] [CommRing F']

/-- `check_fold_arguments`, crates/math/src/fold.rs:249-288. -/
def checkFoldArguments (evals : Slice F') (n : Nat) (query : Slice F) (k : Nat) (out : Slice F) :
    Except Error Unit :=
  if n < k then .error .incorrectQuerySize
  else if evals.size < 2 ^ n then .error .incorrectArgumentLength
  else if query.size < 2 ^ k then .error .incorrectArgumentLength
  else if out.size < 2 ^ (n - k) then .error .incorrectOutputPolynomialSize
  else .ok ()

/-- The dot product of the first `2^k` query entries with table entries at `index t`,
crates/math/src/fold.rs:715-721, 228-239 and 933-943. -/
def dot (emb : F' → F) (evals : Slice F') (query : Slice F) (k : Nat) (index : Nat → Nat) : Option F :=
  sumRange (min (2 ^ k) query.size) fun t =>
    (query.get? t).bind fun q => (evals.get? (index t)).bind fun e => some (q * emb e)

/-- `fold_right_fallback`, crates/math/src/fold.rs:699-729. -/
def foldRightFallback (emb : F' → F) (w' : Nat) (evals : Slice F') (n : Nat) (query : Slice F) (k : Nat)
    (out : Slice F) : Option (Slice F) :=
  forRange (packedLen w' out) (fun p out =>
    forRange (min (2 ^ w') (2 ^ (n - k))) (fun j out =>
      let index := (p <<< w') ||| j
      (dot emb evals query k fun t => t + index <<< k).bind (out.set? index)) out) out

/-- `check_right_lerp_fold_arguments`, crates/math/src/fold.rs:291-314. -/
def checkRightLerp (evals : Slice F') (evalsSize : Nat) (out : Slice F) : Except Error Unit :=
  if evals.size < evalsSize then .error .incorrectArgumentLength
  else if out.size * 2 < evalsSize then .error .incorrectOutputPolynomialSize
  else .ok ()

/-- One interpolated value, crates/math/src/fold.rs:556-557,571. -/
def lerp (emb : F' → F) (e0 e1 : F') (r : F) : F := emb (e1 - e0) * r + emb e0

/-- The odd tail of `fold_right_lerp`, crates/math/src/fold.rs:566-573. -/
def foldRightLerpTail (emb : F' → F) (evals : Slice F') (evalsSize : Nat) (r : F) (suffix : F')
    (out : Slice F) : Option (Slice F) :=
  if evalsSize % 2 = 1 then
    (evals.get? (evalsSize / 2 * 2)).bind fun e0 => out.set? (evalsSize / 2) (lerp emb e0 suffix r)
  else some out

/-- `fold_right_lerp`, crates/math/src/fold.rs:528-576. -/
def foldRightLerp (emb : F' → F) (w' : Nat) (evals : Slice F') (evalsSize : Nat) (r : F) (suffix : F')
    (out : Slice F) : Option (Except Error (Slice F)) :=
  match checkRightLerp evals evalsSize out with
  | .error e => some (.error e)
  | .ok () =>
    let half := evalsSize / 2
    let len := (half + 2 ^ w' - 1) / 2 ^ w'
    if packedLen w' out < len then none else
    ((forRange len (fun i out =>
      forRange (min (2 ^ w') (half - i <<< w')) (fun j out =>
        let index := (i <<< w') ||| j
        (evals.get? (index <<< 1)).bind fun e0 =>
          (evals.get? (index <<< 1 ||| 1)).bind fun e1 => out.set? index (lerp emb e0 e1 r)) out) out).bind
      (foldRightLerpTail emb evals evalsSize r suffix)).map .ok

/-- Byte `b` of a slice of one-bit values: the bits of a byte and the values have the same order
(`SequentialBytes` / `ByteIterator`, crates/field/src/byte_iteration.rs:20-26, trusted). -/
def byteAt (bit : F' → Bool) (evals : Slice F') (b : Nat) : Nat :=
  Nat.ofBits fun i : Fin 8 => bit (evals.val (8 * b + i))

/-- Entry `i` of the table of sums of `2^l` query values, crates/math/src/fold.rs:373-383. -/
def smallTable (query : Slice F) (l i : Nat) : Option F :=
  sumRange (2 ^ l) fun j => if (i >>> j) &&& 1 = 1 then query.get? j else some 0

/-- `fold_right_1bit_evals_small_query`, crates/math/src/fold.rs:359-424: for every byte of the table.
`false` (the caller goes on with another method) is `none` in the outer option. -/
def foldRight1bitSmall (bit : F' → Bool) (w w' l : Nat) (evals : Slice F') (query out : Slice F) :
    Option (Option (Slice F)) :=
  if l ≥ 3 ∨ w + l > w' then none
  else some <|
    forRange (evals.size / 8) (fun b out =>
      forRange (2 ^ (3 - l)) (fun k out =>
        let index := (byteAt bit evals b >>> (k * 2 ^ l)) &&& (2 ^ 2 ^ l - 1)
        (smallTable query l index).bind (out.set? (b * 2 ^ (3 - l) + k))) out) out

/-- One value added to the sums of a 256-entry table: `for i in (mask..256).step_by(2*mask) { for k in
0..mask { sums[i+k] += value } }`, crates/field/src/byte_iteration.rs:399-407. -/
def addToSums (j : Nat) (value : F) (base : Nat) (tables : Slice F) : Option (Slice F) :=
  forRange (128 / 2 ^ j) (fun m t =>
    forRange (2 ^ j) (fun k t =>
      let x := base + (2 ^ j + m * (2 * 2 ^ j)) + k
      (t.get? x).bind fun s => t.set? x (s + value)) t) tables

/-- `create_partial_sums_lookup_tables`, crates/field/src/byte_iteration.rs:388-411. -/
def partialSumsTables (values : Slice F) : Option (Slice F) :=
  if values.size % 8 ≠ 0 then none else
  forRange (values.size / 8) (fun c t =>
    forRange 8 (fun j t => (values.get? (8 * c + j)).bind fun v => addToSums j v (256 * c) t) t)
    ⟨values.size * 32, fun _ => 0⟩

/-- The state of the callback of the medium query, crates/math/src/fold.rs:453-457. -/
structure MedState (F : Type*) where
  index : Nat
  table : Nat
  value : F
  out : Slice F

/-- One byte of the medium query callback, crates/math/src/fold.rs:458-471. -/
def medStep (tables : Slice F) (count : Nat) (byte : Nat) (s : MedState F) : Option (MedState F) :=
  (tables.get? (s.table <<< 8 + byte)).bind fun x =>
    if s.table + 1 = count then
      (s.out.set? s.index (s.value + x)).bind fun out => some ⟨s.index + 1, 0, 0, out⟩
    else some ⟨s.index, s.table + 1, s.value + x, s.out⟩

/-- `fold_right_1bit_evals_medium_query`, crates/math/src/fold.rs:427-483 (only called for `3 ≤ l`).
`PackedSlice::new_with_len(query, 1 << l)` is the prefix of the query. -/
def foldRight1bitMedium (bit : F' → Bool) (l : Nat) (evals : Slice F') (query out : Slice F) :
    Option (Slice F) :=
  (partialSumsTables ⟨2 ^ l, query.val⟩).bind fun tables =>
    (forRange (evals.size / 8) (fun b s => medStep tables (2 ^ (l - 3)) (byteAt bit evals b) s)
      ⟨0, 0, 0, out⟩).map (·.out)

/-- `fold_right_1bit_evals`, crates/math/src/fold.rs:488-516. -/
def foldRight1bit (bit : F' → Bool) (ty : Types) (w w' : Nat) (evals : Slice F') (n : Nat)
    (query : Slice F) (k : Nat) (out : Slice F) : Option (Option (Slice F)) :=
  if n < w ∨ ¬ ty.iterBytes then none
  else if k < 3 then foldRight1bitSmall bit w w' k evals query out
  else if k ≤ 7 then some (foldRight1bitMedium bit k evals query out)
  else none

/-- The choice between interpolation and the general method, crates/math/src/fold.rs:108-117. -/
def foldRightGeneral [DecidableEq F] (emb : F' → F) (w' : Nat) (evals : Slice F') (n : Nat)
    (query : Slice F) (k : Nat) (out : Slice F) : Option (Except Error (Slice F)) :=
  if k = 1 ∧ query.val 0 + query.val 1 = 1 then
    foldRightLerp emb w' evals (2 ^ n) (query.val 1) 0 out
  else (foldRightFallback emb w' evals n query k out).map .ok

/-- `fold_right`, crates/math/src/fold.rs:88-120.  `get_packed_slice(query, 0/1)` is in range by the
argument check. -/
def foldRight [DecidableEq F] (emb : F' → F) (bit : F' → Bool) (ty : Types) (w w' : Nat)
    (evals : Slice F') (n : Nat) (query : Slice F) (k : Nat) (out : Slice F) :
    Option (Except Error (Slice F)) :=
  match checkFoldArguments evals n query k out with
  | .error e => some (.error e)
  | .ok () =>
    match (if ty.oneBit then foldRight1bit bit ty w w' evals n query k out else none) with
    | some r => r.map .ok
    | none => foldRightGeneral emb w' evals n query k out

/-- Writing a whole packed element of zeros (`PE::default()` / `P::zero()`), crates/math/src/fold.rs:215,929. -/
def zeroElem (w' p : Nat) (out : Slice F) : Option (Slice F) :=
  forRange (2 ^ w') (fun j out => out.set? (p * 2 ^ w' + j) 0) out

/-- `fold_left_fallback`, crates/math/src/fold.rs:914-949. -/
def foldLeftFallback (emb : F' → F) (w' : Nat) (evals : Slice F') (n : Nat) (query : Slice F) (k : Nat)
    (out : Slice F) : Option (Slice F) :=
  forRange (packedLen w' out) (fun p out =>
    (zeroElem w' p out).bind
      (forRange (min (2 ^ w') (2 ^ (n - k))) (fun j out =>
        (dot emb evals query k fun t => t <<< (n - k) ||| p <<< w' ||| j).bind
          (out.set? (p <<< w' ||| j))))) out

/-- `fold_middle`, crates/math/src/fold.rs:189-246. -/
def foldMiddle (emb : F' → F) (w' : Nat) (evals : Slice F') (n : Nat) (query : Slice F) (k start : Nat)
    (out : Slice F) : Option (Except Error (Slice F)) :=
  match checkFoldArguments evals n query k out with
  | .error e => some (.error e)
  | .ok () =>
    if n < k + start then some (.error .incorrectStartIndex)
    else
      (forRange (packedLen w' out) (fun p out =>
        (zeroElem w' p out).bind
          (forRange (min (2 ^ w') (2 ^ (n - k))) (fun j out =>
            let s := p <<< w' + j
            let innerI := s % 2 ^ start
            let innerJ := s / 2 ^ start
            (dot emb evals query k fun t => (innerJ <<< (start + k) ||| innerI) + t <<< start).bind
              (out.set? s)))) out).map .ok

/-- `check_left_lerp_fold_arguments`, crates/math/src/fold.rs:317-356. -/
def checkLeftLerp (evals : Slice F) (prefixLen n : Nat) (out : Slice F) : Except Error Unit :=
  if n = 0 then .error .incorrectQuerySize
  else if prefixLen > 2 ^ n then .error .incorrectNonzeroScalarPrefix
  else if evals.size < prefixLen then .error .incorrectArgumentLength
  else if out.size < min prefixLen (2 ^ (n - 1)) then .error .incorrectOutputPolynomialSize
  else .ok ()

/-- Ceiling division `div_ceil`. -/
def divCeil (a b : Nat) : Nat := (a + b - 1) / b

/-- `out[i] = eval_0[i] + (eval_1[i] - eval_0[i]) * r` on scalars `[0, m)` where the two halves are `half`
apart (both halves of the same slice), crates/math/src/fold.rs:612-615: `izip!` stops at the shorter. -/
def lerpPairs (evals : Slice F) (half m : Nat) (r : F) (out : Slice F) : Option (Slice F) :=
  forRange (min m (evals.size - half)) (fun i out =>
    (evals.get? i).bind fun e0 => (evals.get? (half + i)).bind fun e1 => out.set? i (e0 + (e1 - e0) * r)) out

/-- `out[i] = eval[i] + (suffix - eval[i]) * r` on scalars `[lo, hi)`, crates/math/src/fold.rs:618-621. -/
def lerpSuffix (evals : Slice F) (lo hi : Nat) (suffix r : F) (out : Slice F) : Option (Slice F) :=
  forRange (min (hi - lo) (evals.size - lo)) (fun i out =>
    (evals.get? (lo + i)).bind fun e => out.set? (lo + i) (e + (suffix - e) * r)) out

/-- `fold_left_lerp`, crates/math/src/fold.rs:590-640.  The slice bounds `split_at(packed_len)`,
`out[..pivot]`, `out[pivot..upper_bound]`, `evals[pivot..]` are checked. -/
def foldLeftLerp (w : Nat) (evals : Slice F) (prefixLen : Nat) (suffix : F) (n : Nat) (r : F)
    (out : Slice F) : Option (Except Error (Slice F)) :=
  match checkLeftLerp evals prefixLen n out with
  | .error e => some (.error e)
  | .ok () =>
    if n > w then
      let pivot := divCeil (prefixLen - 2 ^ (n - 1)) (2 ^ w)
      let packedLen' := 2 ^ (n - 1 - w)
      let upper := min (divCeil prefixLen (2 ^ w)) packedLen'
      ((if pivot > 0 then
          if packedLen w evals < packedLen' ∨ packedLen w out < pivot then none
          else lerpPairs evals (packedLen' * 2 ^ w) (pivot * 2 ^ w) r out
        else some out).bind fun out =>
        if upper < pivot ∨ packedLen w out < upper ∨ packedLen w evals < pivot then none
        else
          (lerpSuffix evals (pivot * 2 ^ w) (upper * 2 ^ w) suffix r out).bind fun out =>
            forRange (out.size - upper * 2 ^ w) (fun i out => out.set? (upper * 2 ^ w + i) 0) out).map .ok
    else if prefixLen > 0 then
      if evals.size = 0 ∨ out.size = 0 then none
      else
        ((zeroElem w 0 out).bind
          (forRange (2 ^ (n - 1)) fun i out =>
            (evals.get? i).bind fun e0 => (evals.get? (i ||| 2 ^ (n - 1))).bind fun e1 =>
              out.set? i (e0 + r * (e1 - e0)))).map .ok
    else some (.ok out)

/-- `fold_left_lerp_inplace`, crates/math/src/fold.rs:648-696: the vector is truncated to `upper_bound`
packed elements. -/
def foldLeftLerpInplace (w : Nat) (evals : Slice F) (prefixLen : Nat) (suffix : F) (n : Nat) (r : F) :
    Option (Except Error (Slice F)) :=
  match checkLeftLerp evals prefixLen n evals with
  | .error e => some (.error e)
  | .ok () =>
    if n > w then
      let pivot := divCeil (prefixLen - 2 ^ (n - 1)) (2 ^ w)
      let packedLen' := 2 ^ (n - 1 - w)
      let upper := min (divCeil prefixLen (2 ^ w)) packedLen'
      ((if pivot > 0 then
          if packedLen w evals < packedLen' ∨ packedLen' < pivot then none
          else
            forRange (min (pivot * 2 ^ w) (evals.size - packedLen' * 2 ^ w)) (fun i evals =>
              (evals.get? i).bind fun e0 => (evals.get? (packedLen' * 2 ^ w + i)).bind fun e1 =>
                evals.set? i (e0 + (e1 - e0) * r)) evals
        else some evals).bind fun evals =>
        if upper < pivot ∨ packedLen w evals < upper then none
        else
          (forRange ((upper - pivot) * 2 ^ w) (fun i evals =>
            (evals.get? (pivot * 2 ^ w + i)).bind fun e =>
              evals.set? (pivot * 2 ^ w + i) (e + (suffix - e) * r)) evals).bind fun evals =>
            some ⟨min evals.size (upper * 2 ^ w), evals.val⟩).map .ok
    else if prefixLen > 0 then
      if evals.size = 0 then none
      else
        -- `folded` is a separate packed element written back at the end
        ((zeroElem w 0 evals).bind
          (forRange (2 ^ (n - 1)) fun i out =>
            (evals.get? i).bind fun e0 => (evals.get? (i ||| 2 ^ (n - 1))).bind fun e1 =>
              out.set? i (e0 + r * (e1 - e0)))).map .ok
    else some (.ok evals)

/-- `fold_left_1b_128b_impl`, crates/math/src/fold.rs:883-912.  The mask of `LOOKUP_TABLE`
(fold.rs:851-876) for lane `l` of item `i` of a byte is bit `i * WIDTH + l` of the byte, so that
`query & mask` is the query value or zero. -/
def foldLeft1b128b (bit : F' → Bool) (w' : Nat) (evals : Slice F') (n : Nat) (query : Slice F) (k : Nat)
    (out : Slice F) : Option (Slice F) :=
  let items := 8 / 2 ^ w'
  let rowBytes := 2 ^ (n - k - 3)
  (forRange out.size (fun i out => out.set? i 0) out).bind
    (forRange (min query.size (divCeil (evals.size / 8) rowBytes)) fun t out =>
      (query.get? t).bind fun q =>
        forRange (min rowBytes (evals.size / 8 - t * rowBytes)) (fun b out =>
          forRange items (fun i out =>
            forRange (2 ^ w') (fun l out =>
              let x := (b * items + i) * 2 ^ w' + l
              (out.get? x).bind fun o =>
                out.set? x (o + if (byteAt bit evals (t * rowBytes + b)).testBit (i * 2 ^ w' + l) then q
                  else 0)) out) out) out)

/-- `fold_left_1b_128b`: `none` when the specialisation does not apply, crates/math/src/fold.rs:744-829. -/
def foldLeft1b (bit : F' → Bool) (ty : Types) (w w' : Nat) (evals : Slice F') (n : Nat)
    (query : Slice F) (k : Nat) (out : Slice F) : Option (Option (Slice F)) :=
  if n < w ∨ ¬ ty.seqBytes then none
  else if n - k < 3 then none
  else if w' > 3 then none
  else if ty.opt128 then some (foldLeft1b128b bit w' evals n query k out)
  else none

/-- The choice between interpolation and the general method, crates/math/src/fold.rs:151-176.  When
`P == PE` the table is over the same scalars as the query: the table embedded by `emb` is passed on. -/
def foldLeftGeneral [DecidableEq F] (emb : F' → F) (ty : Types) (w' : Nat) (evals : Slice F') (n : Nat)
    (query : Slice F) (k : Nat) (out : Slice F) : Option (Except Error (Slice F)) :=
  if k = 1 ∧ query.val 0 + query.val 1 = 1 ∧ ty.samePacking then
    foldLeftLerp w' ⟨evals.size, fun i => emb (evals.val i)⟩ (2 ^ n) 0 n (query.val 1) out
  else (foldLeftFallback emb w' evals n query k out).map .ok

/-- `fold_left`, crates/math/src/fold.rs:132-179. -/
def foldLeft [DecidableEq F] (emb : F' → F) (bit : F' → Bool) (ty : Types) (w w' : Nat)
    (evals : Slice F') (n : Nat) (query : Slice F) (k : Nat) (out : Slice F) :
    Option (Except Error (Slice F)) :=
  match checkFoldArguments evals n query k out with
  | .error e => some (.error e)
  | .ok () =>
    match (if ty.oneBit then foldLeft1b bit ty w w' evals n query k out else none) with
    | some r => r.map .ok
    | none => foldLeftGeneral emb ty w' evals n query k out

/-- The copied entry of `zero_pad`, crates/math/src/fold.rs:65-76. -/
def zeroPadEntry (emb : F' → F) (evals : Slice F') (extra start nonzero s : Nat) (out : Slice F) :
    Option (Slice F) :=
  let col := s % 2 ^ (start + extra)
  let row := s / 2 ^ (start + extra)
  let startInRow := nonzero * 2 ^ start
  if startInRow ≤ col ∧ col < startInRow + 2 ^ start then
    (evals.get? (row * 2 ^ start + col - startInRow)).bind fun e => out.set? s (emb e)
  else some out

/-- `zero_pad`, crates/math/src/fold.rs:27-79.  The subtraction `log_new_vals - log_evals_size` panics on
underflow (with overflow checks). -/
def zeroPad (emb : F' → F) (w' : Nat) (evals : Slice F') (n newN start nonzero : Nat) (out : Slice F) :
    Option (Except Error (Slice F)) :=
  if start > n then some (.error .incorrectStartIndex)
  else if newN < n then none
  else if nonzero > 2 ^ (newN - n) then some (.error .incorrectNonZeroIndex)
  else
    (forRange (packedLen w' out) (fun p out =>
      forRange (min (2 ^ w') (2 ^ n)) (fun j out =>
        zeroPadEntry emb evals (newN - n) start nonzero (p <<< w' + j) out) out) out).map .ok

/-- `MultilinearExtension::evaluate_partial_low`, crates/math/src/multilinear_extension.rs:295-341. -/
def evaluatePartialLow [DecidableEq F] (emb : F' → F) (bit : F' → Bool) (ty : Types) (w w' : Nat)
    (m : Mlx F') (q : Query F) : Option (Except Error (Mlx F)) :=
  if m.mu < q.nVars then some (.error .incorrectQuerySize)
  else
    (q.expansion w').bind fun e =>
      (foldRight emb bit ty w w' m.evals m.mu e q.nVars
        ⟨2 ^ (m.mu - q.nVars - w') * 2 ^ w', fun _ => 0⟩).bind fun
      | .error e => some (.error e)
      | .ok out => some (Mlx.new w' (m.mu - q.nVars) out)

/-- `MultilinearExtension::evaluate_partial_high`, crates/math/src/multilinear_extension.rs:253-279.  `junk`
is the contents of the uninitialised buffer, assumed to have exactly the requested capacity. -/
def evaluatePartialHigh [DecidableEq F] (emb : F' → F) (bit : F' → Bool) (ty : Types) (w w' : Nat)
    (junk : Nat → F) (m : Mlx F') (q : Query F) : Option (Except Error (Mlx F)) :=
  (q.expansion w').bind fun e =>
    (foldLeft emb bit ty w w' m.evals m.mu e q.nVars
      ⟨2 ^ (m.mu - q.nVars - w') * 2 ^ w', junk⟩).bind fun
    | .error e => some (.error e)
    | .ok out => some (Mlx.new w' (m.mu - q.nVars) out)

/-- `MultilinearExtension::evaluate_partial`, crates/math/src/multilinear_extension.rs:193-237. -/
def evaluatePartial [DecidableEq F] (emb : F' → F) (bit : F' → Bool) (ty : Types) (w w' : Nat)
    (junk : Nat → F) (m : Mlx F') (q : Query F) (start : Nat) : Option (Except Error (Mlx F)) :=
  if start + q.nVars > m.mu then some (.error .incorrectStartIndex)
  else if start = 0 then evaluatePartialLow emb bit ty w w' m q
  else if start + q.nVars = m.mu then evaluatePartialHigh emb bit ty w w' junk m q
  else if m.mu < q.nVars then some (.error .incorrectQuerySize)
  else
    (q.expansion w').bind fun e =>
      (foldMiddle emb w' m.evals m.mu e q.nVars start
        ⟨2 ^ (m.mu - q.nVars - w') * 2 ^ w', junk⟩).bind fun
      | .error e => some (.error e)
      | .ok out => some (Mlx.new w' (m.mu - q.nVars) out)

/-- `MultilinearExtension::zero_pad`, crates/math/src/multilinear_extension.rs:343-368. -/
def mlxZeroPad (emb : F' → F) (w' : Nat) (m : Mlx F') (nPad start nonzero : Nat) :
    Option (Except Error (Mlx F)) :=
  if start > m.mu then some (.error .incorrectStartIndexZeroPad)
  else if nonzero ≥ 2 ^ nPad then some (.error .incorrectNonZeroIndex)
  else
    (zeroPad emb w' m.evals m.mu (m.mu + nPad) start nonzero
      ⟨2 ^ (m.mu + nPad - w') * 2 ^ w', fun _ => 0⟩).bind fun
    | .error e => some (.error e)
    | .ok out => some (Mlx.new w' (m.mu + nPad) out)

end Verif.Fold
