import Verif.Spec.File
import Verif.Spec.MaskBlock

/-!
# The flags of layers and masks
-/

namespace Psd.Spec

/-- The flags of the mask: none without mask data. -/
def MaskSpec.flagBits : MaskSpec → Nat
  | .absent => 0
  | .short _ _ f _ _ => f.toNat
  | .full _ _ f _ _ _ _ => f.toNat
  | .block b => MaskBlock.flags b

/-- The flags of the real user mask: none without one. -/
def MaskSpec.realFlagBits : MaskSpec → Nat
  | .absent => 0
  | .short .. => 0
  | .full _ _ _ _ rf _ _ => rf.toNat
  | .block b => MaskBlock.realFlags b

end Psd.Spec
