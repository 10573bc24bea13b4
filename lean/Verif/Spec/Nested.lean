import Verif.Spec.Wrappers
import Verif.Model.Nested
/-!
# Specification of nested wrappers
-/

namespace Verif

/-- `p` is `o` in one or more ScalingWrappers and UpdateFrequencyWrappers. -/
inductive WrapOf (o : Obj) : Obj → Prop
  | scaling : WrapOf o (scalingObj o)
  | update : WrapOf o (updateObj o)
  | scalingMore {p : Obj} : WrapOf o p → WrapOf o (scalingObj p)
  | updateMore {p : Obj} : WrapOf o p → WrapOf o (updateObj p)

/-- The product of the factors that are given; none if none is. -/
def combinedFactor : List (Option Rat) → Option Rat
  | [] => none
  | none :: l => combinedFactor l
  | some c :: l => some (c * (combinedFactor l).getD 1)

/-- `d'` is `d` with every entry multiplied by its factor, if it has one. -/
def ScaledBy (f : String → Option Rat) (d d' : State) : Prop :=
  Dict.keys d' = Dict.keys d ∧
  ∀ k x, Dict.get? d k = some x → ∃ y, Dict.get? d' k = some y ∧ ScaledEntry (f k) x y

/-- The two kinds with tendencies. -/
def TendencyLike (k : Kind) : Prop := k = .tendency ∨ k = .implicit

instance (k : Kind) : Decidable (TendencyLike k) := by unfold TendencyLike; infer_instance

end Verif
