import Verif.Spec.RoundingErrors
import Verif.Spec.LeapfrogConvergence
/-! # Bounds for the rounding errors of Leapfrog runs -/

namespace Verif

/-- The states that two Leapfrogs remember: both none, or states at most `E` apart. -/
def CloseOld (I : (String → Nat) → Prop) (w : String → Rat) (E : Rat) : Option (EState DataArray) → Option (EState DataArray) → Prop
  | none, none => True
  | some x, some y => CloseStates I w E x y
  | _, _ => False

end Verif
