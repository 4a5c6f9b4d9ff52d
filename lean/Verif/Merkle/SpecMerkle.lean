import Verif.Merkle.ModelMerkle

/-! The Merkle tree as a mathematical object, and collisions. -/

namespace Verif.Merkle.Spec

variable {F D : Type*}

/-- Node `i` of the layer `j` levels above the leaves. -/
def node (S : Scheme F D) (leaf : Nat → D) : Nat → Nat → D
  | 0, i => leaf i
  | j + 1, i => S.compress (node S leaf j (2 * i)) (node S leaf j (2 * i + 1))

/-- A claimed collision: two lists of field elements, or two pairs of digests. -/
inductive Collision (F D : Type*) where
  | values (x y : List F)
  | digests (x y : D × D)

/-- The collision is one: different inputs with the same image. -/
def Collision.Valid (S : Scheme F D) : Collision F D → Prop
  | .values x y => x ≠ y ∧ S.hash x = S.hash y
  | .digests x y => x ≠ y ∧ S.compress x.1 x.2 = S.compress y.1 y.2

variable [DecidableEq F] [DecidableEq D]

/-- The first pair in two lists of inputs to the compression that collides. -/
def findDigests (S : Scheme F D) (a b : List (D × D)) : Option (Collision F D) :=
  ((a.zip b).find? fun p => decide (p.1 ≠ p.2 ∧ S.compress p.1.1 p.1.2 = S.compress p.2.1 p.2.2)).map fun p =>
    .digests p.1 p.2

/-- The inputs to the compression along a branch. -/
def branchInputs (S : Scheme F D) : Nat → D → List D → List (D × D)
  | _, _, [] => []
  | index, leaf, n :: rest =>
    let p := if index % 2 = 0 then (leaf, n) else (n, leaf)
    p :: branchInputs S (index / 2) (S.compress p.1 p.2) rest

/-- The collision extracted from two openings of the same index. -/
def extractOpening (S : Scheme F D) (index : Nat) (v w : List F) (branch branch' : List D) : Option (Collision F D) :=
  if v ≠ w ∧ S.hash v = S.hash w then some (.values v w)
  else findDigests S (branchInputs S index (S.hash v) branch) (branchInputs S index (S.hash w) branch')

/-- The inputs to the compression in the tree above a layer of `2^d` digests. -/
def layerInputs (S : Scheme F D) (leaf : Nat → D) : Nat → List (D × D)
  | 0 => []
  | d + 1 => layerInputs S (fun i => S.compress (leaf (2 * i)) (leaf (2 * i + 1))) d ++
      (List.range (2 ^ d)).map fun i => (leaf (2 * i), leaf (2 * i + 1))

end Verif.Merkle.Spec
