import Verif.NTT.ModelNtt
import Verif.Math.ModelMatrix

/-! Model of crates/ntt/src/odd_interpolate.rs, over the single-threaded NTT.

A panic is `none`.  Shifts are on unbounded naturals. -/

namespace Verif.NTT

open Verif.Matrix (Mat)

/-- The errors that odd interpolation returns: its own (crates/ntt/src/error.rs:13-28), those of the NTT and those of the
matrix inverse. -/
inductive OddError where
  | cosetIndexOutOfBounds
  | domainTooSmall
  | incorrectLength
  | ntt (e : Error)
  | math (e : Matrix.Error)

variable {F : Type*} [Field F] [DecidableEq F]

/-- `x[(i, j)]`, crates/math/src/matrix.rs:203-210. -/
def matGet (x : Mat F) (i j : Nat) : Option F := if i < x.m ∧ j < x.n then some (x.at' i j) else none

/-- `x[(i, j)] = v`, crates/math/src/matrix.rs:212-219. -/
def matSet (x : Mat F) (i j : Nat) (v : F) : Option (Mat F) :=
  if i < x.m ∧ j < x.n then some { x with at' := fun a b => if a = i ∧ b = j then v else x.at' a b } else none

/-- `log2_ceil_usize`, crates/utils/src/checked_arithmetics.rs:40-54. -/
def log2Ceil (n : Nat) : Nat := if n - 1 = 0 then 0 else Nat.log2 (n - 1) + 1

/-- The columns `2^j` to `2^(j+1) - 1`, crates/ntt/src/odd_interpolate.rs:136-150. -/
def vandermondeRound (tbl : List (TA F)) (d cosetBits j : Nat) (x : Mat F) : Option (Mat F) :=
  if cosetBits < j then none
  else
    (forRange d (fun i x =>
      (getSubspaceEval tbl (cosetBits - j) (i >>> (j + 1))).bind fun e =>
        matSet x i (1 <<< j) (e + if (i >>> j) &&& 1 = 1 then 1 else 0)) x).bind fun x =>
      if d < 1 <<< j then none
      else
        forRange (min (1 <<< j) (d - 1 <<< j) - 1) (fun k x =>
          forRange d (fun t x =>
            (matGet x t (k + 1)).bind fun a => (matGet x t (1 <<< j)).bind fun b =>
              matSet x t (k + 1 + 1 <<< j) (a * b)) x) x

/-- `novel_vandermonde`, crates/ntt/src/odd_interpolate.rs:116-154. -/
def novelVandermonde (tbl : List (TA F)) (d cosetBits : Nat) : Option (Mat F) :=
  (forRange d (fun j x => matSet x j 0 1) (Mat.zeros d d)).bind fun x =>
    if d = 0 then some x else forRange (log2Ceil d) (vandermondeRound tbl d cosetBits) x

/-- `OddInterpolate`, crates/ntt/src/odd_interpolate.rs:21-26; the NTT is given by its dimension and its twiddles. -/
structure Odd (F : Type*) where
  inv : Mat F
  ell : Nat
  cosetBits : Nat
  logDomain : Nat
  tbl : List (TA F)

/-- `OddInterpolate::new`, crates/ntt/src/odd_interpolate.rs:29-57. -/
def Odd.new (logDomain : Nat) (tbl : List (TA F)) (d ell cosetBits : Nat) : Option (Except OddError (Odd F)) :=
  if d > 1 <<< cosetBits then some (.error .cosetIndexOutOfBounds)
  else if logDomain < cosetBits + ell then some (.error .domainTooSmall)
  else
    (novelVandermonde tbl d cosetBits).bind fun v =>
      (v.inverseInto (Mat.zeros d d)).map fun r =>
        match r with
        | .error e => .error (.math e)
        | .ok inv => .ok ⟨inv, ell, cosetBits, logDomain, tbl⟩

/-- The inverse transforms of the chunks, crates/ntt/src/odd_interpolate.rs:87-90, for the first `n` of them. -/
def Odd.chunks (o : Odd F) : Nat → Slice F → Option (Except OddError (Slice F))
  | 0, data => some (.ok data)
  | n + 1, data =>
    (o.chunks n data).bind fun r =>
      match r with
      | .error e => some (.error e)
      | .ok data =>
        (inverse o.logDomain 0 o.tbl ⟨2 ^ o.ell, fun y _ => data.val (n * 2 ^ o.ell + y)⟩ ⟨0, o.ell, 0⟩ n o.cosetBits 0).map fun r =>
          match r with
          | .error e => .error (.ntt e)
          | .ok c => .ok ⟨data.size, fun p => if p / 2 ^ o.ell = n then flat 0 c (p % 2 ^ o.ell) else data.val p⟩

/-- One iteration of the strided product, crates/ntt/src/odd_interpolate.rs:103-105. -/
def Odd.stride (o : Odd F) (stride : Nat) (data : Slice F) : Option (Slice F) :=
  ((List.range o.inv.m).mapM fun i => data.get? ((i <<< o.ell) ||| stride)).bind fun bases =>
    (o.inv.mulVecInto id bases o.inv.m).bind fun novel =>
      forRange o.inv.m (fun i data => (novel[i]?).bind fun v => data.set? ((i <<< o.ell) ||| stride) v) data

/-- `OddInterpolate::inverse_transform`, crates/ntt/src/odd_interpolate.rs:73-109. -/
def Odd.inverseTransform (o : Odd F) (data : Slice F) : Option (Except OddError (Slice F)) :=
  if data.size ≠ o.inv.m <<< o.ell then some (.error .incorrectLength)
  else
    (o.chunks (data.size / 2 ^ o.ell) data).bind fun r =>
      match r with
      | .error e => some (.error e)
      | .ok data => (forRange (2 ^ o.ell) o.stride data).map .ok

end Verif.NTT
