import Verif.Field.ModelPackedOps

/-!
# Multiplicative generators (model)
-/

namespace Verif.Field

/-- `MULTIPLICATIVE_GENERATOR` of each field of the binary tower, by tower level,
`binary_field.rs:740-747`. -/
def multiplicativeGenerator : (k : Fin 8) → U k
  | 0 => 0x1#1
  | 1 => 0x2#2
  | 2 => 0x5#4
  | 3 => 0x2D#8
  | 4 => 0xE2DE#16
  | 5 => 0x03E21CEA#32
  | 6 => 0x070F870DCD9C1D88#64
  | 7 => 0x2E895399AF449ACE499596F6E5FCCAFA#128

end Verif.Field
