import Verif.Math.ModelArith
import Mathlib.Logic.Function.Basic
import Mathlib.Algebra.Ring.Pi

/-! Model of crates/fast_compute/src/arith_circuit.rs: the compilation of an arithmetic circuit into a
straight-line program over numbered slots, and the two interpreters of that program.

The values live in a ring `R` with an embedding `emb : F → R` (`P::broadcast(value.into())`): for
`evaluate` `R` is a packed field, whose operations are lanewise (C07).  A slot that was never written
holds `none`; reading it is undefined behaviour in the code and yields `none` here, as does a panic.  The
degree and tower level kept with the compiled circuit are those of C21 and are left out. -/

namespace Verif.Arith

/-- `CircuitStepArgument` with `CircuitNode` inlined, crates/fast_compute/src/arith_circuit.rs:133-162. -/
inductive Arg (F : Type*) where
  | var (i : Nat)
  | slot (s : Nat)
  | const (c : F)
  deriving DecidableEq

/-- `CircuitStep`, crates/fast_compute/src/arith_circuit.rs:168-174. -/
inductive Instr (F : Type*) where
  | add (x y : Arg F)
  | mul (x y : Arg F)
  | square (x : Arg F)
  | addMul (t : Nat) (x y : Arg F)
  deriving DecidableEq

/-- The mutable state of `convert_step`: `result` and the two vectors of `StepsMapping`,
crates/fast_compute/src/arith_circuit.rs:17-31.  The vectors are functions: `original_to_converted` is
indexed by steps of the circuit only, and `converted_to_original` is resized before it is written and
read as empty beyond its end. -/
structure CState (F : Type*) where
  code : List (Instr F)
  toConv : Nat → Option Nat
  toOrig : Nat → Option Nat

variable {F : Type*}

/-- `StepsMapping::new`, crates/fast_compute/src/arith_circuit.rs:23-29. -/
def CState.init : CState F := ⟨[], fun _ => none, fun _ => none⟩

/-- `StepsMapping::register`, crates/fast_compute/src/arith_circuit.rs:31-38. -/
def CState.register (st : CState F) (orig conv : Nat) : CState F :=
  { st with toConv := Function.update st.toConv orig (some conv)
            toOrig := Function.update st.toOrig conv (some orig) }

/-- `StepsMapping::clear_step`, crates/fast_compute/src/arith_circuit.rs:40-48. -/
def CState.clearStep (st : CState F) (conv : Nat) : CState F :=
  match st.toOrig conv with
  | none => st
  | some orig =>
    { st with toConv := Function.update st.toConv orig none
              toOrig := Function.update st.toOrig conv none }

/-- `result.push`, followed by the slot of the new instruction. -/
def CState.push (st : CState F) (i : Instr F) : Arg F × CState F :=
  (.slot st.code.length, { st with code := st.code ++ [i] })

/-- The loop of the `Pow` case, crates/fast_compute/src/arith_circuit.rs:106-119; the first number is how
many iterations remain. -/
def powLoop (orig e : Nat) (base : Arg F) : Nat → Arg F → CState F → Arg F × CState F
  | 0, acc, st => (acc, st)
  | i + 1, acc, st =>
    let st := if i = 0 then st.register orig st.code.length else st
    let p := st.push (.square acc)
    let p := if e.testBit i then p.2.push (.mul p.1 base) else p
    powLoop orig e base i p.1 p.2

/-- The test for the pattern `slot + (x * y)`, crates/fast_compute/src/arith_circuit.rs:71-72. -/
def fusable (left : Arg F) (right : Option (Step F)) : Option (Nat × Nat × Nat) :=
  match left, right with
  | .slot s, some (.mul x y) => some (s, x, y)
  | _, _ => none

/-- `convert_step`, crates/fast_compute/src/arith_circuit.rs:55-124. -/
def convertStep (c : Circuit F) : Nat → Nat → CState F → Option (Arg F × CState F)
  | 0, _, _ => none
  | f + 1, i, st =>
    match st.toConv i with
    | some s => some (.slot s, st)
    | none => c[i]?.bind fun
      | .const v => some (.const v, st)
      | .var x => some (.var x, st)
      | .add l r => (convertStep c f l st).bind fun (a, st) =>
          match fusable a c[r]? with
          | some (s, x, y) => (convertStep c f x st).bind fun (ax, st) =>
              (convertStep c f y st).bind fun (ay, st) =>
                some (.slot s, (((st.clearStep s).register i s).push (.addMul s ax ay)).2)
          | none => (convertStep c f r st).bind fun (b, st) =>
              some ((st.register i st.code.length).push (.add a b))
      | .mul l r => (convertStep c f l st).bind fun (a, st) => (convertStep c f r st).bind fun (b, st) =>
          some ((st.register i st.code.length).push (.mul a b))
      | .pow b e => (convertStep c f b st).bind fun (a, st) =>
          if e = 0 then none else some (powLoop i e a (Nat.log2 e) a st)

/-- `convert_circuit_steps`, crates/fast_compute/src/arith_circuit.rs:13-131. -/
def convertCircuit (c : Circuit F) : Option (List (Instr F) × Arg F) :=
  (convertStep c c.length (c.length - 1) CState.init).map fun p => (p.2.code, p.1)

/-- `ArithCircuitPoly`, crates/fast_compute/src/arith_circuit.rs:184-192, without the cached degree and
tower level. -/
structure CompiledPoly (F : Type*) where
  expr : Circuit F
  code : List (Instr F)
  retval : Arg F
  nVars : Nat

/-- `ArithCircuitPoly::new`, crates/fast_compute/src/arith_circuit.rs:228-245 (tower fields have
characteristic two). -/
def CompiledPoly.new [CommRing F] [DecidableEq F] (chk : Bool) (c : Circuit F) : Option (CompiledPoly F) :=
  (optimize chk true c).bind fun c =>
    (convertCircuit c).map fun p => ⟨c, p.1, p.2, Arith.nVars c⟩

/-- `ArithCircuitPoly::with_n_vars`, crates/fast_compute/src/arith_circuit.rs:249-271; the inner `none` is
`IncorrectNumberOfVariables`. -/
def CompiledPoly.withNVars [CommRing F] [DecidableEq F] (chk : Bool) (n : Nat) (c : Circuit F) :
    Option (Option (CompiledPoly F)) :=
  (optimize chk true c).bind fun c =>
    if n < Arith.nVars c then some none
    else (convertCircuit c).map fun p => some ⟨c, p.1, p.2, n⟩

variable {R : Type*} [CommRing R]

/-- `get_argument_value`, crates/fast_compute/src/arith_circuit.rs:314-326, and `get_sparse_chunk`, lines
144-155. -/
def Arg.val (emb : F → R) (q : List R) (m : Nat → Option R) : Arg F → Option R
  | .var i => q[i]?
  | .slot s => m s
  | .const c => some (emb c)

/-- Both operands are constants. -/
def bothConst : Arg F → Arg F → Bool
  | .const _, .const _ => true
  | _, _ => false

/-- One iteration of the loop of `evaluate`, crates/fast_compute/src/arith_circuit.rs:328-353, and of
`batch_evaluate`, lines 375-459.  `batch` is set for the latter, where `AddMul` of two constants reads
uninitialised memory (lines 523-538 with 451-454). -/
def exec (batch : Bool) (emb : F → R) (q : List R) (n : Nat) (m : Nat → Option R) :
    Instr F → Option (Nat → Option R)
  | .add x y => (x.val emb q m).bind fun a => (y.val emb q m).bind fun b =>
      some (Function.update m n (some (a + b)))
  | .mul x y => (x.val emb q m).bind fun a => (y.val emb q m).bind fun b =>
      some (Function.update m n (some (a * b)))
  | .square x => (x.val emb q m).bind fun a => some (Function.update m n (some (a * a)))
  | .addMul t x y => if batch && bothConst x y then none else
      (x.val emb q m).bind fun a => (y.val emb q m).bind fun b => (m t).bind fun v =>
        some (Function.update m t (some (v + a * b)))

/-- The loop over the instructions, starting at index `n`. -/
def runFrom (batch : Bool) (emb : F → R) (q : List R) : Nat → (Nat → Option R) → List (Instr F) →
    Option (Nat → Option R)
  | _, m, [] => some m
  | n, m, i :: is => (exec batch emb q n m i).bind fun m => runFrom batch emb q (n + 1) m is

/-- The program followed by the read of the result. -/
def runCode (batch : Bool) (emb : F → R) (q : List R) (code : List (Instr F)) (ret : Arg F) : Option R :=
  (runFrom batch emb q 0 (fun _ => none) code).bind fun m => ret.val emb q m

/-- `evaluate`, crates/fast_compute/src/arith_circuit.rs:297-363; the inner `none` is
`IncorrectQuerySize`. -/
def CompiledPoly.evaluate (p : CompiledPoly F) (emb : F → R) (q : List R) : Option (Option R) :=
  if q.length ≠ p.nVars then some none else (runCode false emb q p.code p.retval).map some

/-- `batch_evaluate`, crates/fast_compute/src/arith_circuit.rs:365-471, on rows of length `n`; the check
of the row length (lines 366-372) is in the type.  There is no check of the number of rows: reading a
missing row panics. -/
def CompiledPoly.batchEvaluate (p : CompiledPoly F) (emb : F → R) {n : Nat} (rows : List (Fin n → R)) :
    Option (Fin n → R) :=
  runCode true (fun c _ => emb c) rows p.code p.retval

end Verif.Arith
