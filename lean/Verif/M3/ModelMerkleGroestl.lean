import Verif.M3.ModelMerkle
import Verif.M3.ModelGroestl
import Verif.Hash.ModelGroestl

/-! Model of the Merkle tree gadget with the compression of Grøstl, crates/m3/src/gadgets/merkle_tree: the rows of `ModelMerkle`
with the columns of the permutation gadget of `ModelGroestl`. -/

namespace Verif.M3.Merkle

/-- `AESTowerField8b::from(B8::new(b)).val()`. -/
def toAes (b : Byte) : Byte := Field.Aes.transform8 Field.Aes.binaryToAesBases b

/-- `compress`, crates/m3/src/gadgets/merkle_tree/trace.rs:103-116. -/
def compress (left right : Fin 32 → Byte) : Fin 32 → Byte :=
  let stateBytes := (List.ofFn left ++ List.ofFn right).map toAes
  let input := Hash.Groestl.stateFromBytes stateBytes
  let state := Hash.Groestl.xorState (Hash.Groestl.p input) input
  let stateBytes := (Hash.Groestl.stateToBytes state).map Groestl.fromAes
  fun k => (stateBytes.drop 32).getD k.val 0

/-- The constraints of a row with those of the permutation gadget, crates/m3/src/gadgets/merkle_tree/mod.rs:249-343;
`state_out`, 298, is the output of its last round. -/
structure Row.HoldsGadget (r : Row) (rounds : Nat → Groestl.Round) : Prop where
  stateIn : r.stateIn = joined r.left r.right
  permutation : Groestl.Holds .P r.stateIn rounds
  stateOut : r.stateOut = (rounds 9).stateOut
  depth : r.childDepth.toNat + 256 * r.carryOut.toNat = r.parentDepth.toNat + 1

/-- `self.permutation.populate(witness)`, crates/m3/src/gadgets/merkle_tree/mod.rs:527, up to the columns of the output, by
bytes. -/
def populated (b : Fin 64 → Byte) : Fin 64 → Byte := ofRows8 (Groestl.populate .P (toRows8 b) 9).stateOut

end Verif.M3.Merkle
