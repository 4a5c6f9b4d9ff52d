import Mathlib.Algebra.Ring.Defs
import Mathlib.Algebra.GroupWithZero.Basic

/-! Model of crates/math/src/arith_expr.rs.

`F` is any commutative ring with decidable equality (the code asks for a field).  `usize` arithmetic is
exact; `u64` arithmetic on exponents is not (see `mulExp`).  Recursive Rust functions over a circuit take a
fuel argument here: `none` stands for a panic or for a recursion that does not end (both are impossible
for the circuits the API builds, which is proved).  `PackedField::pow` is `^` (see C12). -/

namespace Verif.Arith

/-- `ArithCircuitStep`, crates/math/src/arith_expr.rs:199-206. -/
inductive Step (F : Type*) where
  | add (l r : Nat)
  | mul (l r : Nat)
  | pow (b e : Nat)
  | const (c : F)
  | var (i : Nat)
  deriving DecidableEq

/-- `ArithCircuit`, crates/math/src/arith_expr.rs:223-226. -/
abbrev Circuit (F : Type*) := List (Step F)

variable {F : Type*} [CommRing F] [DecidableEq F]

/-- One step of `evaluate`, crates/math/src/arith_expr.rs:369-381; indexing out of range panics. -/
def stepEval (q vals : List F) : Step F → Option F
  | .add l r => vals[l]?.bind fun a => vals[r]?.bind fun b => some (a + b)
  | .mul l r => vals[l]?.bind fun a => vals[r]?.bind fun b => some (a * b)
  | .pow b e => vals[b]?.bind fun a => some (a ^ e)
  | .const c => some c
  | .var i => q[i]?

/-- The loop of `evaluate`, crates/math/src/arith_expr.rs:368-382. -/
def evalAll (q : List F) : Circuit F → List F → Option (List F)
  | [], vals => some vals
  | s :: ss, vals => (stepEval q vals s).bind fun v => evalAll q ss (vals ++ [v])

/-- `ArithCircuit::evaluate`, crates/math/src/arith_expr.rs:367-384. -/
def evaluate (c : Circuit F) (q : List F) : Option F :=
  (evalAll q c []).map fun vals => vals.getLast?.getD 0

/-- `ArithCircuit::var`, crates/math/src/arith_expr.rs:229-233. -/
def var (i : Nat) : Circuit F := [.var i]

/-- `ArithCircuit::constant`, crates/math/src/arith_expr.rs:235-239. -/
def constant (c : F) : Circuit F := [.const c]

/-- `ArithCircuit::pow`, crates/math/src/arith_expr.rs:249-254. -/
def pow (c : Circuit F) (e : Nat) : Circuit F := c ++ [.pow (c.length - 1) e]

/-- A step with its references changed by `f`. -/
def Step.relabel (f : Nat → Nat) : Step F → Step F
  | .add l r => .add (f l) (f r)
  | .mul l r => .mul (f l) (f r)
  | .pow b e => .pow (f b) e
  | .const c => .const c
  | .var i => .var i

/-- `add_offset`, crates/math/src/arith_expr.rs:926-939. -/
def addOffset (c : Circuit F) (o : Nat) : Circuit F := c.map (Step.relabel (· + o))

/-- `AddAssign`/`Add`/`Sub` of circuits, crates/math/src/arith_expr.rs:860-893. -/
def add (a b : Circuit F) : Circuit F :=
  let s := a ++ addOffset b a.length
  s ++ [.add (a.length - 1) (s.length - 1)]

/-- `Sub`, crates/math/src/arith_expr.rs:879-893. -/
def sub (a b : Circuit F) : Circuit F := add a b

/-- `MulAssign`/`Mul` of circuits, crates/math/src/arith_expr.rs:895-912. -/
def mul (a b : Circuit F) : Circuit F :=
  let s := a ++ addOffset b a.length
  s ++ [.mul (a.length - 1) (s.length - 1)]

/-- `Sum` of circuits, crates/math/src/arith_expr.rs:914-918. -/
def sum (cs : List (Circuit F)) : Circuit F := cs.foldl add (constant 0)

/-- `Product` of circuits, crates/math/src/arith_expr.rs:920-924. -/
def product (cs : List (Circuit F)) : Circuit F := cs.foldl mul (constant 1)

/-- `step_degree`, crates/math/src/arith_expr.rs:263-277. -/
def stepDegree (c : Circuit F) : Nat → Nat → Option Nat
  | 0, _ => none
  | f + 1, i => c[i]?.bind fun
    | .const _ => some 0
    | .var _ => some 1
    | .add l r => (stepDegree c f l).bind fun a => (stepDegree c f r).bind fun b => some (max a b)
    | .mul l r => (stepDegree c f l).bind fun a => (stepDegree c f r).bind fun b => some (a + b)
    | .pow b e => (stepDegree c f b).bind fun a => some (a * e)

/-- `ArithCircuit::degree`, crates/math/src/arith_expr.rs:262-279 (an empty circuit panics). -/
def degree (c : Circuit F) : Option Nat := stepDegree c c.length (c.length - 1)

/-- `ArithCircuit::n_vars`, crates/math/src/arith_expr.rs:281-293. -/
def nVars (c : Circuit F) : Nat :=
  ((c.map fun | .var i => i + 1 | _ => 0).max?).getD 0

/-- `ArithCircuit::vars_usage`, crates/math/src/arith_expr.rs:528-538. -/
def varsUsage (c : Circuit F) : List Bool :=
  c.foldl (fun u s => match s with | .var i => u.set i true | _ => u) (List.replicate (nVars c) false)

/-- The operation counts of `eval_cost`, crates/math/src/arith_expr.rs:314-332: additions,
multiplications, squarings; `ilog2(0)` panics. -/
def evalCost : Circuit F → Option (Nat × Nat × Nat)
  | [] => some (0, 0, 0)
  | s :: ss => (evalCost ss).bind fun (a, m, q) =>
    match s with
    | .const _ => some (a, m, q)
    | .var _ => some (a, m, q)
    | .add _ _ => some (a + 1, m, q)
    | .mul _ _ => some (a, m + 1, q)
    | .pow _ e => if e = 0 then none else
        some (a, m + (((List.range 64).filter e.testBit).length - 1), q + Nat.log2 e)

/-- `leading_term_with_degree`, crates/math/src/arith_expr.rs:342-365. -/
def leadingStep (c : Circuit F) : Nat → Nat → Option (Nat × Circuit F)
  | 0, _ => none
  | f + 1, i => c[i]?.bind fun
    | .const v => some (0, constant v)
    | .var i => some (1, var i)
    | .add l r => (leadingStep c f l).bind fun (dl, el) => (leadingStep c f r).bind fun (dr, er) =>
        if dl < dr then some (dr, er) else if dl = dr then some (dl, add el er) else some (dl, el)
    | .mul l r => (leadingStep c f l).bind fun (dl, el) => (leadingStep c f r).bind fun (dr, er) =>
        some (dl + dr, mul el er)
    | .pow b e => (leadingStep c f b).bind fun (d, eb) => some (d * e, pow eb e)

/-- `ArithCircuit::leading_term`, crates/math/src/arith_expr.rs:336-339. -/
def leadingTerm (c : Circuit F) : Option (Circuit F) :=
  (leadingStep c c.length (c.length - 1)).map Prod.snd

/-- `ArithCircuit::convert_field`, crates/math/src/arith_expr.rs:385-399. -/
def convertField {G : Type*} (emb : F → G) (c : Circuit F) : Circuit G :=
  c.map fun
    | .const v => .const (emb v)
    | .var i => .var i
    | .add l r => .add l r
    | .mul l r => .mul l r
    | .pow b e => .pow b e

/-- `ArithCircuit::try_convert_field`, crates/math/src/arith_expr.rs:401-422; `none` is the conversion
error. -/
def tryConvertField {G : Type*} (tr : F → Option G) (c : Circuit F) : Option (Circuit G) :=
  c.mapM fun
    | .const v => (tr v).map .const
    | .var i => some (.var i)
    | .add l r => some (.add l r)
    | .mul l r => some (.mul l r)
    | .pow b e => some (.pow b e)

/-- `ArithCircuit::remap_vars`, crates/math/src/arith_expr.rs:433-452; `none` is
`IncorrectArgumentLength`. -/
def remapVars (c : Circuit F) (indices : List Nat) : Option (Circuit F) :=
  c.mapM fun
    | .var i => indices[i]?.map .var
    | s => some s

/-- `ArithCircuit::const_subst`, crates/math/src/arith_expr.rs:455-465. -/
def constSubst (c : Circuit F) (x : Nat) (value : F) : Circuit F :=
  c.map fun
    | .var i => if i = x then .const value else .var i
    | s => s

/-- `ArithCircuit::get_constant`, crates/math/src/arith_expr.rs:468-476; the outer option is the panic. -/
def getConstant (c : Circuit F) : Option (Option F) :=
  c.getLast?.map fun | .const v => some v | _ => none

/-- `SparseLinearNormalForm`, crates/math/src/arith_expr.rs:949-957; the hash map is an association list
with distinct keys. -/
structure Sparse (F : Type*) where
  constant : F
  coeffs : List (Nat × F)
  denseLen : Nat

/-- `entry(i).and_modify(+= c).or_insert(c)`, crates/math/src/arith_expr.rs:983-990. -/
def upsert (m : List (Nat × F)) (i : Nat) (v : F) : List (Nat × F) :=
  match m with
  | [] => [(i, v)]
  | (j, w) :: m => if j = i then (j, w + v) :: m else (j, w) :: upsert m i v

/-- `Add` of sparse forms, crates/math/src/arith_expr.rs:969-993. -/
def Sparse.add (a b : Sparse F) : Sparse F :=
  let (result, consumable) := if a.coeffs.length < b.coeffs.length then (b, a) else (a, b)
  { constant := result.constant + consumable.constant
    denseLen := if consumable.denseLen > result.denseLen then consumable.denseLen else result.denseLen
    coeffs := consumable.coeffs.foldl (fun m p => upsert m p.1 p.2) result.coeffs }

/-- `Mul` of sparse forms, crates/math/src/arith_expr.rs:995-1012; `none` is `NonLinearExpression`. -/
def Sparse.mul (a b : Sparse F) : Option (Sparse F) :=
  if a.coeffs ≠ [] ∧ b.coeffs ≠ [] then none
  else
    let (result, consumable) := if a.coeffs = [] then (b, a) else (a, b)
    some { constant := result.constant * consumable.constant
           denseLen := result.denseLen
           coeffs := result.coeffs.map fun p => (p.1, p.2 * consumable.constant) }

/-- `From<F>` for sparse forms, crates/math/src/arith_expr.rs:959-967. -/
def Sparse.ofConst (v : F) : Sparse F := ⟨v, [], 0⟩

/-- The inner `sparse_linear_normal_form`, crates/math/src/arith_expr.rs:488-520.  The outer option is a
panic, the inner `none` the error `NonLinearExpression`. -/
def sparseStep (c : Circuit F) : Nat → Nat → Option (Option (Sparse F))
  | 0, _ => none
  | f + 1, i => c[i]?.bind fun
    | .const v => some (some (Sparse.ofConst v))
    | .var i => some (some ⟨0, [(i, 1)], i + 1⟩)
    | .add l r => (sparseStep c f l).bind fun
        | none => some none
        | some a => (sparseStep c f r).bind fun
          | none => some none
          | some b => some (some (a.add b))
    | .mul l r => (sparseStep c f l).bind fun
        | none => some none
        | some a => (sparseStep c f r).bind fun
          | none => some none
          | some b => some (a.mul b)
    | .pow b e =>
        if e = 0 then some (some (Sparse.ofConst 1))
        else if e = 1 then sparseStep c f b
        else (sparseStep c f b).bind fun
          | none => some none
          | some a => if a.denseLen ≠ 0 then some none else some (some (Sparse.ofConst (a.constant ^ e)))

/-- The write `v[i] = x`, which panics out of range. -/
def setAt (v : List F) (i : Nat) (x : F) : Option (List F) := if i < v.length then some (v.set i x) else none

/-- `LinearNormalForm` from the sparse form, crates/math/src/arith_expr.rs:1014-1025. -/
def Sparse.dense (s : Sparse F) : Option (F × List F) :=
  (s.coeffs.foldlM (fun v p => setAt v p.1 p.2) (List.replicate s.denseLen 0)).map fun v => (s.constant, v)

/-- `ArithCircuit::linear_normal_form`, crates/math/src/arith_expr.rs:483-523. -/
def linearNormalForm (c : Circuit F) : Option (Option (F × List F)) :=
  (sparseStep c c.length (c.length - 1)).bind fun
    | none => some none
    | some s => s.dense.map some

/-- The product of two `u64` exponents, crates/math/src/arith_expr.rs:589: with overflow checks an
overflow panics, without them it wraps. -/
def mulExp (chk : Bool) (a b : Nat) : Option Nat :=
  if a * b < 2 ^ 64 then some (a * b) else if chk then none else some (a * b % 2 ^ 64)

/-- The new value of one step in `optimize_constants_in_place`, crates/math/src/arith_expr.rs:545-593;
`char2` is `F::CHARACTERISTIC == 2`. -/
def optStep (chk char2 : Bool) (prev : Circuit F) : Step F → Option (Step F)
  | .const v => some (.const v)
  | .var i => some (.var i)
  | .add l r => prev[l]?.bind fun a => prev[r]?.bind fun b =>
      match a, b with
      | .const x, .const y => some (.const (x + y))
      | a, b => some (if a = .const 0 then b else if b = .const 0 then a
          else if a = b ∧ char2 = true then .const 0 else .add l r)
  | .mul l r => prev[l]?.bind fun a => prev[r]?.bind fun b =>
      match a, b with
      | .const x, .const y => some (.const (x * y))
      | a, b => some (if a = .const 0 then .const 0 else if b = .const 0 then .const 0
          else if a = .const 1 then b else if b = .const 1 then a else .mul l r)
  | .pow b e => prev[b]?.bind fun a =>
      match a with
      | .const v => some (.const (v ^ e))
      | .pow b' e' => (mulExp chk e e').map (.pow b')
      | _ => some (.pow b e)

/-- The loop of `optimize_constants_in_place`, crates/math/src/arith_expr.rs:541-595: the first argument
holds the steps already rewritten. -/
def optLoop (chk char2 : Bool) : Circuit F → Circuit F → Option (Circuit F)
  | done, [] => some done
  | done, s :: ss => (optStep chk char2 done s).bind fun s' => optLoop chk char2 (done ++ [s']) ss

/-- `optimize_constants`, crates/math/src/arith_expr.rs:541-601. -/
def optimizeConstants (chk char2 : Bool) (c : Circuit F) : Option (Circuit F) := optLoop chk char2 [] c

/-- `StepNode::eq`, crates/math/src/arith_expr.rs:1044-1067. -/
def nodeEq (c d : Circuit F) : Nat → Nat → Nat → Option Bool
  | 0, _, _ => none
  | f + 1, i, j => c[i]?.bind fun a => d[j]?.bind fun b =>
    match a, b with
    | .const x, .const y => some (decide (x = y))
    | .var x, .var y => some (decide (x = y))
    | .add l r, .add l' r' => (nodeEq c d f l l').bind fun t => if t then nodeEq c d f r r' else some false
    | .mul l r, .mul l' r' => (nodeEq c d f l l').bind fun t => if t then nodeEq c d f r r' else some false
    | .pow x e, .pow y e' => (nodeEq c d f x y).bind fun t => some (t && decide (e = e'))
    | _, _ => some false

/-- `ArithCircuit::eq`, crates/math/src/arith_expr.rs:848-858. -/
def circuitEq (c d : Circuit F) : Option Bool := nodeEq c d c.length (c.length - 1) (d.length - 1)

/-- The lookup `step_map.entry(node)` among the keys `reps`, crates/math/src/arith_expr.rs:612-620; the
hash map finds a key equal to the node if there is one (`Hash` of `StepNode` is a function of the same
data as its equality, lines 1069-1097). -/
def findRep (c : Circuit F) (k : Nat) : List Nat → Option (Option Nat)
  | [] => some none
  | r :: rs => (nodeEq c c c.length r k).bind fun t => if t then some (some r) else findRep c k rs

/-- The first loop of `deduplicate_steps`, crates/math/src/arith_expr.rs:605-621: keys of the map and the
indices found, for the first `n` steps. -/
def dedupIndices (c : Circuit F) : Nat → Option (List Nat × List Nat)
  | 0 => some ([], [])
  | n + 1 => (dedupIndices c n).bind fun (reps, idx) => (findRep c n reps).map fun
    | some j => (reps, idx ++ [j])
    | none => (reps ++ [n], idx ++ [n])

/-- A step with its references looked up in `idx`; indexing out of range panics. -/
def remapStep (idx : List Nat) : Step F → Option (Step F)
  | .add l r => idx[l]?.bind fun l' => idx[r]?.bind fun r' => some (.add l' r')
  | .mul l r => idx[l]?.bind fun l' => idx[r]?.bind fun r' => some (.mul l' r')
  | .pow b e => idx[b]?.bind fun b' => some (.pow b' e)
  | s => some s

/-- `deduplicate_steps`, crates/math/src/arith_expr.rs:604-633. -/
def deduplicate (c : Circuit F) : Option (Circuit F) :=
  (dedupIndices c c.length).bind fun (_, idx) => c.mapM (remapStep idx)

/-- `mark_used`, crates/math/src/arith_expr.rs:637-651. -/
def markUsed (c : Circuit F) : Nat → Nat → List Bool → Option (List Bool)
  | 0, _, _ => none
  | f + 1, i, used => used[i]?.bind fun u =>
    if u then some used
    else c[i]?.bind fun
      | .add l r => (markUsed c f l (used.set i true)).bind (markUsed c f r)
      | .mul l r => (markUsed c f l (used.set i true)).bind (markUsed c f r)
      | .pow b _ => markUsed c f b (used.set i true)
      | _ => some (used.set i true)

/-- One iteration of the loop of `compress_unused_steps`, crates/math/src/arith_expr.rs:658-676, on
`(steps, steps_map, target_index)`. -/
def compressStep (used : List Bool) (src : Nat) (st : Circuit F × List Nat × Nat) :
    Option (Circuit F × List Nat × Nat) :=
  used[src]?.bind fun u =>
    if u then
      if st.2.2 ≠ src then
        st.1[src]?.bind fun s => (remapStep st.2.1 s).bind fun s' =>
          some (((st.1.set src s').set st.2.2 s'), st.2.1.set src st.2.2, st.2.2 + 1)
      else some (st.1, st.2.1, st.2.2 + 1)
    else some st

/-- The loop of `compress_unused_steps` for the first `n` sources. -/
def compressLoop (used : List Bool) (st : Circuit F × List Nat × Nat) :
    Nat → Option (Circuit F × List Nat × Nat)
  | 0 => some st
  | n + 1 => (compressLoop used st n).bind (compressStep used n)

/-- `compress_unused_steps`, crates/math/src/arith_expr.rs:636-679. -/
def compress (c : Circuit F) : Option (Circuit F) :=
  (markUsed c c.length (c.length - 1) (List.replicate c.length false)).bind fun used =>
    (compressLoop used (c, List.range c.length, 0) c.length).map fun st => st.1.take st.2.2

/-- `optimize` / `optimize_in_place`, crates/math/src/arith_expr.rs:681-697. -/
def optimize (chk char2 : Bool) (c : Circuit F) : Option (Circuit F) :=
  (optimizeConstants chk char2 c).bind fun c => (deduplicate c).bind compress

/-- `ArithExpr`, crates/math/src/arith_expr.rs:23-30.  Every `Arc` child carries its address. -/
inductive Expr (F : Type*) where
  | const (c : F)
  | var (i : Nat)
  | add (pl : Nat) (l : Expr F) (pr : Nat) (r : Expr F)
  | mul (pl : Nat) (l : Expr F) (pr : Nat) (r : Expr F)
  | pow (pb : Nat) (b : Expr F) (e : Nat)

/-- The hash map from addresses to step indices, crates/math/src/arith_expr.rs:704. -/
abbrev PtrMap := List (Nat × Nat)

/-- `visit_node`, crates/math/src/arith_expr.rs:702-735: returns the index of the node, the map and the
steps. -/
def visit : Nat → Expr F → PtrMap → Circuit F → Nat × PtrMap × Circuit F
  | p, e, m, s =>
    match m.lookup p with
    | some i => (i, m, s)
    | none =>
      match e with
      | .const v => (s.length, (p, s.length) :: m, s ++ [.const v])
      | .var i => (s.length, (p, s.length) :: m, s ++ [.var i])
      | .add pl l pr r =>
        let a := visit pl l m s
        let b := visit pr r a.2.1 a.2.2
        (b.2.2.length, (p, b.2.2.length) :: b.2.1, b.2.2 ++ [.add a.1 b.1])
      | .mul pl l pr r =>
        let a := visit pl l m s
        let b := visit pr r a.2.1 a.2.2
        (b.2.2.length, (p, b.2.2.length) :: b.2.1, b.2.2 ++ [.mul a.1 b.1])
      | .pow pb b e =>
        let a := visit pb b m s
        (a.2.2.length, (p, a.2.2.length) :: a.2.1, a.2.2 ++ [.pow a.1 e])

/-- `From<&ArithExpr> for ArithCircuit`, crates/math/src/arith_expr.rs:737-761. -/
def ofExpr : Expr F → Circuit F
  | .const v => [.const v]
  | .var i => [.var i]
  | .add pl l pr r =>
    let a := visit pl l [] []
    let b := visit pr r a.2.1 a.2.2
    b.2.2 ++ [.add a.1 b.1]
  | .mul pl l pr r =>
    let a := visit pl l [] []
    let b := visit pr r a.2.1 a.2.2
    b.2.2 ++ [.mul a.1 b.1]
  | .pow pb b e =>
    let a := visit pb b [] []
    a.2.2 ++ [.pow a.1 e]

/-- One step of the conversion of a circuit to an expression, crates/math/src/arith_expr.rs:774-793; the
node of step `i` has address `i`. -/
def stepNode (nodes : List (Expr F)) : Step F → Option (Expr F)
  | .const v => some (.const v)
  | .var i => some (.var i)
  | .add l r => nodes[l]?.bind fun a => nodes[r]?.bind fun b => some (.add l a r b)
  | .mul l r => nodes[l]?.bind fun a => nodes[r]?.bind fun b => some (.mul l a r b)
  | .pow b e => nodes[b]?.bind fun a => some (.pow b a e)

/-- The loop of the conversion, crates/math/src/arith_expr.rs:772-794. -/
def nodesOf : Circuit F → List (Expr F) → Option (List (Expr F))
  | [], nodes => some nodes
  | s :: ss, nodes => (stepNode nodes s).bind fun e => nodesOf ss (nodes ++ [e])

/-- `From<&ArithCircuit> for ArithExpr`, crates/math/src/arith_expr.rs:770-803 (the last node is referred
to by no other node, so `Arc::into_inner` succeeds). -/
def toExpr (c : Circuit F) : Option (Expr F) := (nodesOf c []).bind fun nodes => nodes.getLast?

end Verif.Arith
