/-!
# Connected components (model)

`crates/utils/src/graph.rs`. The three vectors of `UnionFind` have the same length `n`; they are
functions, read and written only below `n` (anything else is a panic, `none`).
-/

namespace Verif.Graph

/-- `UnionFind`, `graph.rs:66-70`. -/
structure UF where
  n : Nat
  parent : Nat → Nat
  rank : Nat → Nat
  minElement : Nat → Nat

/-- Assignment to one entry of a vector. -/
def upd (f : Nat → Nat) (i v : Nat) : Nat → Nat := fun j => if j = i then v else f j

/-- `UnionFind::new`, `graph.rs:73-79`. -/
def UF.new (n : Nat) : UF := ⟨n, fun i => i, fun _ => 0, fun i => i⟩

/-- `find` with path compression, `graph.rs:81-86`. The recursion depth is bounded by `fuel`;
running out of it stands for unbounded recursion. -/
def UF.find : (fuel : Nat) → UF → Nat → Option (UF × Nat)
  | 0, _, _ => none
  | fuel + 1, s, x =>
    if x < s.n then
      if s.parent x ≠ x then do
        let (s', r) ← find fuel s (s.parent x)
        some ({ s' with parent := upd s'.parent x r }, r)
      else some (s, x)
    else none

/-- `union`, `graph.rs:88-111`. -/
def UF.union (s : UF) (x y : Nat) : Option UF := do
  let (s, rx) ← s.find (s.n + 1) x
  let (s, ry) ← s.find (s.n + 1) y
  if rx ≠ ry then
    let m := min (s.minElement rx) (s.minElement ry)
    if s.rank rx < s.rank ry then
      some { s with parent := upd s.parent rx ry, minElement := upd s.minElement ry m }
    else if s.rank rx > s.rank ry then
      some { s with parent := upd s.parent ry rx, minElement := upd s.minElement rx m }
    else
      some { s with parent := upd s.parent ry rx, minElement := upd s.minElement rx m,
                    rank := upd s.rank rx (s.rank rx + 1) }
  else some s

/-- The edges of one group, `graph.rs:46-50`. -/
def unionNodes (base : Nat) : UF → List Nat → Option UF
  | s, [] => some s
  | s, node :: ids => do
    let s' ← if node ≠ base then s.union base node else some s
    unionNodes base s' ids

/-- The body of the loop over the groups, `graph.rs:43-51`. -/
def unionGroup (s : UF) (ids : List Nat) : Option UF :=
  if ids.length > 1 then do
    let base ← ids.min?
    unionNodes base s ids
  else some s

/-- The loop over the groups, `graph.rs:42-52`. -/
def unionGroups : UF → List (List Nat) → Option UF
  | s, [] => some s
  | s, ids :: data => do
    let s' ← unionGroup s ids
    unionGroups s' data

/-- The loop that fills the result, `graph.rs:56-61`, from index `i` on. -/
def collect : (count : Nat) → UF → (i : Nat) → Option (List Nat)
  | 0, _, _ => some []
  | k + 1, s, i => do
    let (s', root) ← s.find (s.n + 1) i
    let rest ← collect k s' (i + 1)
    some (s'.minElement root :: rest)

/-- `connected_components`, `graph.rs:22-64`. -/
def connectedComponents (data : List (List Nat)) : Option (List Nat) :=
  if data = [] then some []
  else do
    let maxId := (data.flatten.max?).getD 0
    let n := maxId + 1
    let s ← unionGroups (UF.new n) data
    collect n s 0

end Verif.Graph
