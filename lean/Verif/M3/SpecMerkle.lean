import Mathlib.Data.List.Basic
import Mathlib.Data.Nat.Basic

/-! Specification of inclusion in a binary Merkle tree over any compression function. -/

namespace Verif.M3.Merkle

variable {D : Type}

/-- The digest reached from `d` at position `index` of its layer with the siblings on the way up. -/
def climb (compress : D → D → D) : Nat → D → List D → D
  | _, d, [] => d
  | index, d, s :: ss => climb compress (index / 2) (if index % 2 = 0 then compress d s else compress s d) ss

/-- There is an opening of `leaf` at position `index` of the layer `depth` steps below `root`. -/
def Included (compress : D → D → D) (root : D) (depth index : Nat) (leaf : D) : Prop :=
  index < 2 ^ depth ∧ ∃ siblings : List D, siblings.length = depth ∧ climb compress index leaf siblings = root

/-- Node `i` of the layer `h` steps above the leaves: the digest of the leaves below it. -/
def nodeOf [Inhabited D] (compress : D → D → D) (leaves : List D) : Nat → Nat → D
  | 0, i => leaves[i]?.getD default
  | h + 1, i => compress (nodeOf compress leaves h (2 * i)) (nodeOf compress leaves h (2 * i + 1))

end Verif.M3.Merkle
