import Verif.M3.ModelEmulate
import Verif.M3.SpecMerkle

/-! Model of the Merkle tree gadget, crates/m3/src/gadgets/merkle_tree/trace.rs and mod.rs.

`D` is the type of digests and `compress` the compression function.  A panic is `none`.  Hash sets and maps are lists
without repetitions; the order in which they are iterated is that of the list, on which, by `C49_balanced`, validation does not depend. -/

namespace Verif.M3.Merkle

open Verif.M3.Emulate

variable {D : Type} [DecidableEq D]

/-! ### Trees -/

/-- The loop of `MerkleTree::new` over the layers, crates/m3/src/gadgets/merkle_tree/trace.rs:142-158: the nodes so far, of
which the last `2 ^ depth` are the current layer, and the layers above it appended. -/
def buildLayers [Inhabited D] (compress : D → D → D) : Nat → List D → List D
  | 0, nodes => nodes
  | i + 1, nodes =>
    let marker := nodes.length - 2 ^ (i + 1)
    buildLayers compress i (nodes ++ (List.range (2 ^ i)).map fun j =>
      compress ((nodes[marker + 2 * j]?).getD default) ((nodes[marker + (2 * j + 1)]?).getD default))

/-- `MerkleTree::new`, crates/m3/src/gadgets/merkle_tree/trace.rs:130-162: depth, nodes and root. -/
def treeNew [Inhabited D] (compress : D → D → D) (leaves : List D) : Option (Nat × List D × D) :=
  let depth := Nat.log2 leaves.length
  if leaves.length ≠ 2 ^ depth then none
  else
    let nodes := buildLayers compress depth leaves
    nodes.getLast?.map fun root => (depth, nodes, root)

/-- `MerkleTree::merkle_path`, crates/m3/src/gadgets/merkle_tree/trace.rs:165-173; indexing panics. -/
def merklePath (depth : Nat) (nodes : List D) (index : Nat) : Option (List D) :=
  if index < 2 ^ depth then
    (List.range depth).mapM fun j => nodes[(((2 ^ j - 1) <<< (depth + 1 - j)) ||| ((index >>> j) ^^^ 1))]?
  else none

/-- The loop of `MerkleTree::verify_path`, crates/m3/src/gadgets/merkle_tree/trace.rs:178-188. -/
def verifyLoop (compress : D → D → D) (index : Nat) : Nat → D → List D → D
  | _, cur, [] => cur
  | i, cur, node :: path =>
    verifyLoop compress index (i + 1) (if (index >>> i) &&& 1 = 0 then compress cur node else compress node cur) path

/-- `MerkleTree::verify_path`, crates/m3/src/gadgets/merkle_tree/trace.rs:176-190: whether it does not panic. -/
def verifyPath (compress : D → D → D) (path : List D) (root leaf : D) (index : Nat) : Bool :=
  decide (index < 2 ^ path.length) && decide (verifyLoop compress index 0 leaf path = root)

/-! ### The trace -/

/-- `NodeFlushToken`, crates/m3/src/gadgets/merkle_tree/trace.rs:17-22. -/
structure NodeToken (D : Type) where
  rootId : Nat
  data : D
  depth : Nat
  index : Nat
deriving DecidableEq

/-- `RootFlushToken` and `MerkleRootEvent`, crates/m3/src/gadgets/merkle_tree/trace.rs:26-29, 88-91. -/
structure RootToken (D : Type) where
  rootId : Nat
  data : D
deriving DecidableEq

/-- `MerklePathEvent`, crates/m3/src/gadgets/merkle_tree/trace.rs:74-83. -/
structure PathEvent (D : Type) where
  rootId : Nat
  left : D
  right : D
  parent : D
  parentDepth : Nat
  parentIndex : Nat
  flushLeft : Bool
  flushRight : Bool

/-- `MerklePathEvent::fire`, crates/m3/src/gadgets/merkle_tree/trace.rs:200-226. -/
def PathEvent.fire (e : PathEvent D) : List (Op (NodeToken D)) :=
  [.push ⟨e.rootId, e.parent, e.parentDepth, e.parentIndex⟩] ++
  (if e.flushLeft then [.pull ⟨e.rootId, e.left, e.parentDepth + 1, 2 * e.parentIndex⟩] else []) ++
  (if e.flushRight then [.pull ⟨e.rootId, e.right, e.parentDepth + 1, 2 * e.parentIndex + 1⟩] else [])

/-- `MerkleRootEvent::fire` on the nodes channel, crates/m3/src/gadgets/merkle_tree/trace.rs:230-249; on the roots channel it
pulls the event itself. -/
def RootToken.fire (r : RootToken D) : Op (NodeToken D) := .pull ⟨r.rootId, r.data, 0, 0⟩

/-- `MerkleTreeTrace`, crates/m3/src/gadgets/merkle_tree/trace.rs:279-283, with the two sets of `MerkleBoundaries`. -/
structure Trace (D : Type) where
  leaf : List (NodeToken D)
  root : List (RootToken D)
  nodes : List (PathEvent D)
  rootEvents : List (RootToken D)

/-- `MerkleTreeTrace::validate`, crates/m3/src/gadgets/merkle_tree/trace.rs:380-404: whether it does not panic. -/
def Trace.validate (t : Trace D) : Bool :=
  (run (Channel.new _) (t.leaf.map .push ++ t.rootEvents.map RootToken.fire ++ t.nodes.flatMap PathEvent.fire)).isBalanced &&
  (run (Channel.new _) (t.root.map .push ++ t.rootEvents.map .pull)).isBalanced

/-- `MerklePath`, crates/m3/src/gadgets/merkle_tree/trace.rs:35-40. -/
structure Path (D : Type) where
  rootId : Nat
  index : Nat
  leaf : D
  nodes : List D

/-- The key of `filled_nodes`: root, index and depth; and its value: left, right, parent and the two flags. -/
abbrev Filled (D : Type) := List ((Nat × Nat × Nat) × (D × D × D × Bool × Bool))

/-- `HashMap::get`. -/
def Filled.get (f : Filled D) (k : Nat × Nat × Nat) : Option (D × D × D × Bool × Bool) :=
  (f.find? fun p => p.1 = k).map Prod.snd

/-- Writing through `get_mut`. -/
def Filled.set (f : Filled D) (k : Nat × Nat × Nat) (v : D × D × D × Bool × Bool) : Filled D :=
  f.map fun p => if p.1 = k then (k, v) else p

/-- One turn of the loop over the nodes of a path, crates/m3/src/gadgets/merkle_tree/trace.rs:327-354: the map and the current
child. -/
def stepNode (compress : D → D → D) (rootId index len : Nat) (s : Filled D × D) (q : Nat × D) : Filled D × D :=
  let (filled, cur) := s
  let (i, node) := q
  let key := (rootId, index >>> (i + 1), len - i - 1)
  match filled.get key with
  | some (l, r, parent, fl, fr) =>
    if (index >>> i) &&& 1 = 0 then (filled.set key (l, r, parent, true, fr), parent)
    else (filled.set key (l, r, parent, fl, true), parent)
  | none =>
    if (index >>> i) &&& 1 = 0 then
      let parent := compress cur node
      ((key, (cur, node, parent, true, false)) :: filled, parent)
    else
      let parent := compress node cur
      ((key, (node, cur, parent, false, true)) :: filled, parent)

/-- `HashSet::insert`. -/
def insertSet {α : Type} [DecidableEq α] (a : α) (l : List α) : List α := if a ∈ l then l else a :: l

/-- The state of the loop over the paths. -/
structure GenState (D : Type) where
  leaf : List (NodeToken D)
  root : List (RootToken D)
  rootEvents : List (RootToken D)
  filled : Filled D

/-- One turn of the loop over the paths, crates/m3/src/gadgets/merkle_tree/trace.rs:299-356; `roots[root_id]` panics. -/
def stepPath (compress : D → D → D) (roots : List D) (s : GenState D) (p : Path D) : Option (GenState D) :=
  roots[p.rootId]?.map fun root =>
    { leaf := insertSet ⟨p.rootId, p.leaf, p.nodes.length, p.index⟩ s.leaf
      root := insertSet ⟨p.rootId, root⟩ s.root
      rootEvents := insertSet ⟨p.rootId, root⟩ s.rootEvents
      filled := (((List.range p.nodes.length).zip p.nodes).foldl (stepNode compress p.rootId p.index p.nodes.length)
        (s.filled, p.leaf)).1 }

/-- `MerkleTreeTrace::generate`, crates/m3/src/gadgets/merkle_tree/trace.rs:288-378. -/
def generate (compress : D → D → D) (roots : List D) (paths : List (Path D)) : Option (Trace D) :=
  (paths.foldlM (stepPath compress roots) ⟨[], [], [], []⟩).map fun s =>
    { leaf := s.leaf
      root := s.root
      rootEvents := s.rootEvents
      nodes := s.filled.map fun p => ⟨p.1.1, p.2.1, p.2.2.1, p.2.2.2.1, p.1.2.2, p.1.2.1, p.2.2.2.2.1, p.2.2.2.2.2⟩ }

/-- A path as callers make it, crates/m3/src/gadgets/merkle_tree/trace.rs:495-502: that of a leaf of the tree with the identifier of the
root, from `merkle_path`. -/
def FromTree [Inhabited D] (compress : D → D → D) (trees : List (List D)) (roots : List D) (p : Path D) : Prop :=
  ∃ leaves depth nodes root, trees[p.rootId]? = some leaves ∧ treeNew compress leaves = some (depth, nodes, root) ∧
    roots[p.rootId]? = some root ∧ leaves[p.index]? = some p.leaf ∧ merklePath depth nodes p.index = some p.nodes

/-! ### The tables -/

abbrev Byte := BitVec 8

/-- A digest as 8 rows of 4 bytes, `[Col<B8, 4>; 8]`; the packed columns `[Col<B32>; 8]` determine it. -/
abbrev Rows4 := Fin 8 → Fin 4 → Byte

/-- A state of the permutation as 8 rows of 8 bytes, `[Col<B8, 8>; 8]`. -/
abbrev Rows8 := Fin 8 → Fin 8 → Byte

/-- A row of `NodesTable`, crates/m3/src/gadgets/merkle_tree/mod.rs:218-246: its committed columns, with the output of the
permutation gadget. -/
structure Row where
  rootId : Byte
  left : Rows4
  right : Rows4
  stateIn : Rows8
  stateOut : Rows8
  parentDepth : Byte
  childDepth : Byte
  carryOut : Bool
  parentIndex : BitVec 32

/-- `state_in_packed[i] - left_packed[i] - right_packed[i] * 2^32`, crates/m3/src/gadgets/merkle_tree/mod.rs:284-291, by
bytes: multiplication by `B64::from(1 << 32)`, the basis element of the upper half, moves a value into it. -/
def joined (l r : Rows4) : Rows8 := fun i j => if h : j.val < 4 then l i ⟨j.val, h⟩ else r i ⟨j.val - 4, by omega⟩

/-- The constraints of a row, crates/m3/src/gadgets/merkle_tree/mod.rs:249-343.  The permutation gadget forces its output to
be `perm` of its input (that of Groestl is in `ModelGroestl`, put together with this in `ModelMerkleGroestl`); the increment gadget, with carry-in one, forces what
`C50_incr_sound` says. -/
structure Row.Holds (perm : Rows8 → Rows8) (r : Row) : Prop where
  stateIn : r.stateIn = joined r.left r.right
  stateOut : r.stateOut = perm r.stateIn
  depth : r.childDepth.toNat + 256 * r.carryOut.toNat = r.parentDepth.toNat + 1

/-- `state_out_shifted`, a logical right shift by 4 in blocks of 8, crates/m3/src/gadgets/merkle_tree/mod.rs:300-308. -/
def Row.shifted (r : Row) : Rows8 := fun i j => if h : j.val + 4 < 8 then r.stateOut i ⟨j.val + 4, h⟩ else 0

/-- `permutation_output_columns`, crates/m3/src/gadgets/merkle_tree/mod.rs:310-316: `add_selected_block` with index 4, of
which the one bit that is used is zero (crates/m3/src/builder/constraint_system.rs:464-478), so that it is the first block. -/
def Row.permOut (r : Row) : Rows4 := fun i j => r.shifted i ⟨(4 % 2) * 4 + j.val, by omega⟩

/-- `parent_columns`, crates/m3/src/gadgets/merkle_tree/mod.rs:318-323. -/
def Row.parent (r : Row) : Rows4 := fun i j => r.permOut i j ^^^ r.right i j

/-- `left_index` and `right_index_packed`, crates/m3/src/gadgets/merkle_tree/mod.rs:336-342. -/
def Row.leftIndex (r : Row) : BitVec 32 := r.parentIndex <<< 1
def Row.rightIndex (r : Row) : BitVec 32 := r.leftIndex ^^^ 1

/-- The push of a row, crates/m3/src/gadgets/merkle_tree/mod.rs:354-359. -/
def Row.push (r : Row) : NodeToken Rows4 := ⟨r.rootId.toNat, r.parent, r.parentDepth.toNat, r.parentIndex.toNat⟩

/-- The pulls, crates/m3/src/gadgets/merkle_tree/mod.rs:361-388. -/
def Row.pullLeft (r : Row) : NodeToken Rows4 := ⟨r.rootId.toNat, r.left, r.childDepth.toNat, r.leftIndex.toNat⟩
def Row.pullRight (r : Row) : NodeToken Rows4 := ⟨r.rootId.toNat, r.right, r.childDepth.toNat, r.rightIndex.toNat⟩

/-- The rows of the three tables of nodes and of the table of roots (`RootTable`,
crates/m3/src/gadgets/merkle_tree/mod.rs:468-490), of `MerkleTreeCS`. -/
structure Tables where
  lefts : List Row
  rights : List Row
  boths : List Row
  roots : List (Byte × Rows4)

def Tables.rows (t : Tables) : List Row := t.lefts ++ t.rights ++ t.boths

/-- What goes through the nodes channel, with the boundaries of `make_boundaries`,
crates/m3/src/gadgets/merkle_tree/mod.rs:150-208. -/
def Tables.pushes (t : Tables) (leaf : List (NodeToken Rows4)) : List (NodeToken Rows4) := leaf ++ t.rows.map Row.push
def Tables.pulls (t : Tables) : List (NodeToken Rows4) :=
  t.lefts.map Row.pullLeft ++ t.rights.map Row.pullRight ++ t.boths.flatMap (fun r => [r.pullLeft, r.pullRight]) ++
    t.roots.map fun r => ⟨r.1.toNat, r.2, 0, 0⟩

/-- What is pulled from the roots channel. -/
def Tables.rootPulls (t : Tables) : List (RootToken Rows4) := t.roots.map fun r => ⟨r.1.toNat, r.2⟩

/-- The compression function on rows: the last four columns of `perm(state) + state`. -/
def compressRows (perm : Rows8 → Rows8) (l r : Rows4) : Rows4 := fun i j =>
  perm (joined l r) i ⟨j.val + 4, by omega⟩ ^^^ joined l r i ⟨j.val + 4, by omega⟩

/-- `compress`, crates/m3/src/gadgets/merkle_tree/trace.rs:103-116, on bytes; `perm` is the permutation between the two changes
of basis, which are linear. -/
def compressBytes (perm : (Fin 64 → Byte) → (Fin 64 → Byte)) (l r : Fin 32 → Byte) : Fin 32 → Byte :=
  let state : Fin 64 → Byte := fun k => if h : k.val < 32 then l ⟨k.val, h⟩ else r ⟨k.val - 32, by omega⟩
  fun k => perm state ⟨k.val + 32, by omega⟩ ^^^ state ⟨k.val + 32, by omega⟩

/-- `bytes_to_boundary`, crates/m3/src/gadgets/merkle_tree/mod.rs:660-673, and the columns that `fill` writes for a digest,
589-612, 648-654: byte `8 k + j` is in row `j` and column `k`. -/
def toRows (b : Fin 32 → Byte) : Rows4 := fun j k => b ⟨8 * k.val + j.val, by omega⟩

/-- The same for a state, `populate_state_in`, crates/m3/src/gadgets/hash/groestl.rs:100-120. -/
def toRows8 (b : Fin 64 → Byte) : Rows8 := fun j k => b ⟨8 * k.val + j.val, by omega⟩
def ofRows8 (s : Rows8) : Fin 64 → Byte := fun n => s ⟨n.val % 8, by omega⟩ ⟨n.val / 8, by omega⟩

/-- The row that `fill` writes for an event, crates/m3/src/gadgets/merkle_tree/mod.rs:508-616; `none` if the depth does not fit
in `u8`, where it panics, or adding one to it or doubling the index overflows, where it does in debug builds.  The parent
column, which is computed, is filled from the event. -/
def fillRow (perm : (Fin 64 → Byte) → (Fin 64 → Byte)) (e : PathEvent (Fin 32 → Byte)) : Option Row :=
  if 255 ≤ e.parentDepth ∨ 2 ^ 32 ≤ 2 * (e.parentIndex % 2 ^ 32) + 1 then none
  else
    let stateIn := toRows8 fun k => if h : k.val < 32 then e.left ⟨k.val, h⟩ else e.right ⟨k.val - 32, by omega⟩
    some
      { rootId := BitVec.ofNat 8 e.rootId
        left := toRows e.left
        right := toRows e.right
        stateIn := stateIn
        stateOut := toRows8 (perm (ofRows8 stateIn))
        parentDepth := BitVec.ofNat 8 e.parentDepth
        childDepth := BitVec.ofNat 8 (e.parentDepth + 1)
        carryOut := false
        parentIndex := BitVec.ofNat 32 e.parentIndex }

/-- `MerkleTreeCS::fill_tables`, crates/m3/src/gadgets/merkle_tree/mod.rs:100-136: events by the children that they pull; those
that pull none are in no table. -/
def fillTables (perm : (Fin 64 → Byte) → (Fin 64 → Byte)) (t : Trace (Fin 32 → Byte)) : Option Tables :=
  ((t.nodes.filter fun e => e.flushLeft && !e.flushRight).mapM (fillRow perm)).bind fun lefts =>
  ((t.nodes.filter fun e => !e.flushLeft && e.flushRight).mapM (fillRow perm)).bind fun rights =>
  ((t.nodes.filter fun e => e.flushLeft && e.flushRight).mapM (fillRow perm)).map fun boths =>
    ⟨lefts, rights, boths, t.rootEvents.map fun r => (BitVec.ofNat 8 r.rootId, toRows r.data)⟩

/-- The boundaries of `make_boundaries`, crates/m3/src/gadgets/merkle_tree/mod.rs:150-208. -/
def leafBoundaries (t : Trace (Fin 32 → Byte)) : List (NodeToken Rows4) :=
  t.leaf.map fun l => ⟨l.rootId, toRows l.data, l.depth, l.index⟩
def rootBoundaries (t : Trace (Fin 32 → Byte)) : List (RootToken Rows4) := t.root.map fun r => ⟨r.rootId, toRows r.data⟩

end Verif.M3.Merkle
