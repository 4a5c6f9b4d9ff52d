import Verif.Transcript.ModelTranscript
import Verif.Utils.SpecSerialization

/-! # Matching steps (specification) -/

namespace Verif.Transcript

/-- The read that matches a write. -/
def Step.matching : Step → VStep
  | .write ch t _ => .read ch t
  | .writeSlice ch t xs => .readVec ch t xs.length
  | .writeBytes ch bs => .readBytes ch bs.length
  | .writeDebug ch msg => .readDebug ch msg
  | .observe t x => .observe t x
  | .observeBytes bs => .observeBytes bs
  | .sample f => .sample f
  | .sampleBits bits => .sampleBits bits

/-- The types written have at most 256 variants per enum, and `SmallU<w>` has `w < 8`: see
`Verif.Ser.Ty.Supported`. -/
def Step.Supported : Step → Prop
  | .write _ t _ => t.Supported
  | .writeSlice _ t _ => t.Supported
  | _ => True

/-- A step other than a debug mark. -/
def Step.NotDebug : Step → Prop
  | .writeDebug _ _ => False
  | _ => True

end Verif.Transcript
