import Verif.Field.ModelAes
import Verif.Hash.SpecGroestl

/-! Specification of the compression of digests in the Merkle tree gadget. -/

namespace Verif.M3.Merkle

/-- The compression of Grøstl of two digests of 32 bytes, which are elements of the binary tower: they are converted to the field
of AES, on which Grøstl is defined, and back, by the isomorphisms of C08. -/
def groestlCompress (l r : Fin 32 → BitVec 8) : Fin 32 → BitVec 8 := fun k =>
  let aes := Field.Aes.transform8 Field.Aes.binaryToAesBases
  Field.Aes.transform8 Field.Aes.aesToBinaryBases
    ((Hash.Groestl.compress2 ((List.ofFn l).map aes) ((List.ofFn r).map aes)).getD k.val 0)

end Verif.M3.Merkle
