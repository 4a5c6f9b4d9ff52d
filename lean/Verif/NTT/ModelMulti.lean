import Verif.NTT.ModelNtt
import Verif.Utils.ModelStrided

/-! Model of crates/ntt/src/multithreaded.rs.

The column phase runs one task per vertical stride of the matrix.  All tasks hold the same slice
(`StridedArray2DViewMut::into_par_strides` is unsafe code), so their butterflies may be executed in any
interleaving: a task is the list of its butterflies and a schedule is any interleaving of these lists.  One
butterfly (two loads and two stores) is an atomic step of the model.  The row phase runs one task per chunk of
`par_chunks_mut`, which has exclusive access to its chunk; its schedule is any order of the tasks. -/

namespace Verif.NTT

open Verif.Strided (View withoutStride)

variable {F : Type*} [Field F] [DecidableEq F]

/-- A butterfly of the column phase: the twiddle and the two elements of the data
(crates/ntt/src/multithreaded.rs:188-199). -/
structure ColOp (F : Type*) where
  tw : F
  a : Nat
  b : Nat

/-- The forward butterfly, crates/ntt/src/multithreaded.rs:195-196. -/
def colFwd (tw : F) (u v : Lanes F) : Lanes F × Lanes F :=
  let u : Lanes F := fun l => u l + v l * tw
  let v : Lanes F := fun l => v l + u l
  (u, v)

/-- The inverse butterfly, crates/ntt/src/multithreaded.rs:344-345. -/
def colInv (tw : F) (u v : Lanes F) : Lanes F × Lanes F :=
  let v : Lanes F := fun l => v l + u l
  let u : Lanes F := fun l => u l + v l * tw
  (u, v)

/-- Executing a butterfly, crates/ntt/src/multithreaded.rs:193-198; an access outside of the data, undefined
behaviour in the unsafe code, is `none`. -/
def execOp (bf : F → Lanes F → Lanes F → Lanes F × Lanes F) (d : Slice (Lanes F)) (o : ColOp F) :
    Option (Slice (Lanes F)) :=
  (d.get? o.a).bind fun u => (d.get? o.b).bind fun v =>
    (d.set? o.a (bf o.tw u v).1).bind fun d => d.set? o.b (bf o.tw u v).2

/-- The butterflies of one round of a stride, crates/ntt/src/multithreaded.rs:178-202 (forward) and 327-351
(inverse); `none` is a panic of an index check. -/
def strideRound (tas : List (TA F)) (lz par coset lsl : Nat) (view : View) (i : Nat) (ops : List (ColOp F)) :
    Option (List (ColOp F)) :=
  tas[i]?.bind fun t =>
    forRange (2 ^ lz) (fun j ops =>
      forRange (2 ^ (par - 1 - i)) (fun k ops =>
        (t.get ((coset <<< (par - 1 - i)) ||| k)).bind fun tw =>
          forRange (2 ^ i) (fun l ops =>
            forRange (2 ^ lsl) (fun m ops =>
              let idx0 := (j <<< par) ||| (k <<< (i + 1)) ||| l
              let idx1 := idx0 ||| (1 <<< i)
              (view.cell idx0 m).bind fun a => (view.cell idx1 m).bind fun b => some (ops ++ [⟨tw, a, b⟩])) ops)
            ops) ops) ops

/-- The forward program of a stride, crates/ntt/src/multithreaded.rs:175-204. -/
def strideFwd (tas : List (TA F)) (lz par coset skip lsl : Nat) (view : View) : Option (List (ColOp F)) :=
  forRangeRev 0 (par - skip) (strideRound tas lz par coset lsl view) []

/-- The inverse program of a stride, crates/ntt/src/multithreaded.rs:323-353. -/
def strideInv (tas : List (TA F)) (lz par coset skip lsl : Nat) (view : View) : Option (List (ColOp F)) :=
  forFromTo 0 (par - skip) (strideRound tas lz par coset lsl view) []

/-- The sizes computed at the start of both transforms, crates/ntt/src/multithreaded.rs:142-160, 207-208
(forward) and 272-293 (inverse); `none` is the panic of the subtraction. -/
structure Plan where
  logHeight : Nat
  logWidth : Nat
  parRounds : Nat
  logRowZ : Nat
  rowLogY : Nat

/-- See `Plan`. -/
def plan (w : Nat) (shape : Shape) (logThreads : Nat) : Option Plan :=
  let total := shape.logX + shape.logY + shape.logZ
  let minWidth := max (w + 1) shape.logX
  if total < minWidth then none
  else
    let h := min (total - minWidth) logThreads
    let lw := total - (w + h)
    let rz := shape.logZ - h
    some ⟨h, lw, h - shape.logZ, rz, lw + w - shape.logX - rz⟩

/-- The programs of the strides, crates/ntt/src/multithreaded.rs:164-175 (forward) and 312-323 (inverse).  The
product of the dimensions is assumed not to overflow (the data exists). -/
def columnPrograms (program : List (TA F) → Nat → Nat → Nat → Nat → Nat → View → Option (List (ColOp F)))
    (logDomain : Nat) (tas : List (TA F)) (size : Nat) (shape : Shape) (coset cosetBits skip logThreads : Nat)
    (p : Plan) : Option (List (List (ColOp F))) :=
  if 2 ^ p.logWidth * 2 ^ p.logHeight ≠ size then none
  else if logDomain < p.parRounds + cosetBits then none
  else
    let lsl := p.logWidth - min logThreads p.logWidth
    ((View.mk size (2 ^ p.logWidth) (2 ^ p.logHeight) 0 (2 ^ p.logWidth)).intoStrides (2 ^ lsl)).bind fun views =>
      views.mapM (program (tas.drop (logDomain - (p.parRounds + cosetBits))) shape.logZ p.parRounds coset skip lsl)

/-- A schedule of the column phase: the butterflies in the order of their execution, each with its task. -/
abbrev ColSchedule (F : Type*) := List (Nat × ColOp F)

/-- The schedule is an interleaving of the programs. -/
def Interleaves (s : ColSchedule F) (programs : List (List (ColOp F))) : Prop :=
  (∀ o ∈ s, o.1 < programs.length) ∧
  ∀ t (prog : List (ColOp F)), programs[t]? = some prog → (s.filter (·.1 = t)).map (·.2) = prog

/-- Running a schedule. -/
def runColumns (bf : F → Lanes F → Lanes F → Lanes F × Lanes F) (s : ColSchedule F) (d : Slice (Lanes F)) :
    Option (Slice (Lanes F)) :=
  s.foldlM (fun d o => execOp bf d o.2) d

/-- The task of row `r` of the row phase, crates/ntt/src/multithreaded.rs:210-224 (forward) and 295-309
(inverse): it transforms its chunk with the single-threaded transform. -/
def rowTask (st : Slice (Lanes F) → Shape → Nat → Nat → Nat → Option (Except Error (Slice (Lanes F))))
    (shape : Shape) (coset cosetBits skip : Nat) (p : Plan) (r : Nat) (d : Slice (Lanes F)) :
    Option (Except Error (Slice (Lanes F))) :=
  (st ⟨2 ^ p.logWidth, fun e => d.val (r * 2 ^ p.logWidth + e)⟩ ⟨shape.logX, p.rowLogY, p.logRowZ⟩
    ((coset <<< p.parRounds) ||| (r % 2 ^ p.parRounds)) (cosetBits + p.parRounds) (skip - p.parRounds)).map fun res =>
      res.map fun c => ⟨d.size, fun e => if e / 2 ^ p.logWidth = r then c.val (e % 2 ^ p.logWidth) else d.val e⟩

/-- The row phase with its tasks run in some order; the first error stops it. -/
def runRows (st : Slice (Lanes F) → Shape → Nat → Nat → Nat → Option (Except Error (Slice (Lanes F))))
    (shape : Shape) (coset cosetBits skip : Nat) (p : Plan) : List Nat → Slice (Lanes F) →
    Option (Except Error (Slice (Lanes F)))
  | [], d => some (.ok d)
  | r :: rs, d => (rowTask st shape coset cosetBits skip p r d).bind fun res =>
      match res with
      | .error e => some (.error e)
      | .ok d => runRows st shape coset cosetBits skip p rs d

/-- `forward_transform`, crates/ntt/src/multithreaded.rs:100-227, with a schedule for each phase. -/
def mtForward (logDomain w : Nat) (tas : List (TA F)) (logThreads : Nat) (d : Slice (Lanes F)) (shape : Shape)
    (coset cosetBits skip : Nat) (cols : ColSchedule F) (rows : List Nat) :
    Option (Except Error (Slice (Lanes F))) :=
  match check logDomain d.size w shape coset cosetBits skip with
  | .error e => some (.error e)
  | .ok _ =>
    if d.size = 0 then some (.ok d)
    else if d.size = 1 then
      if 2 ^ w = 1 then some (.ok d) else forward logDomain w tas d shape coset cosetBits skip
    else
      (plan w shape logThreads).bind fun p =>
        (runColumns colFwd cols d).bind fun d =>
          runRows (fun c sh co cb sk => forward logDomain w tas c sh co cb sk) shape coset cosetBits skip p rows d

/-- `inverse_transform`, crates/ntt/src/multithreaded.rs:230-355, with a schedule for each phase. -/
def mtInverse (logDomain w : Nat) (tas : List (TA F)) (logThreads : Nat) (d : Slice (Lanes F)) (shape : Shape)
    (coset cosetBits skip : Nat) (cols : ColSchedule F) (rows : List Nat) :
    Option (Except Error (Slice (Lanes F))) :=
  match check logDomain d.size w shape coset cosetBits skip with
  | .error e => some (.error e)
  | .ok _ =>
    if d.size = 0 then some (.ok d)
    else if d.size = 1 then
      if 2 ^ w = 1 then some (.ok d) else inverse logDomain w tas d shape coset cosetBits skip
    else
      (plan w shape logThreads).bind fun p =>
        (runRows (fun c sh co cb sk => inverse logDomain w tas c sh co cb sk) shape coset cosetBits skip p rows d).bind
          fun res => match res with
            | .error e => some (.error e)
            | .ok d => (runColumns colInv cols d).map .ok

/-- A pair of schedules is possible for a call: the column schedule interleaves the programs of the strides
(when there is a plan) and the row order contains every row once. -/
def Possible (program : List (TA F) → Nat → Nat → Nat → Nat → Nat → View → Option (List (ColOp F)))
    (logDomain w : Nat) (tas : List (TA F)) (logThreads : Nat) (size : Nat) (shape : Shape)
    (coset cosetBits skip : Nat) (cols : ColSchedule F) (rows : List Nat) : Prop :=
  ∀ p, plan w shape logThreads = some p →
    (∃ progs, columnPrograms program logDomain tas size shape coset cosetBits skip logThreads p = some progs ∧
      Interleaves cols progs) ∧
    rows.Perm (List.range (2 ^ p.logHeight))

end Verif.NTT
