import Verif.Spec.Confined
/-!
# Quantities that influence no other quantity (C125)
-/

namespace Verif

/-- The two states have the same names in the same order and the same time, and agree in every quantity whose name is
not one of `Q`: the same axes, lengths, attributes and elements.  Quantities named in `Q` have the same axes, lengths
and attributes; their elements may be any. -/
abbrev SameBut {F : Type} (Q : String → Prop) (y y' : EState (ElemArray F)) : Prop :=
  PairRel Eq (fun k => AgreeOff fun _ => Q k) y y'

/-- Components for which the quantities `Q` are passive: on states that agree in all other quantities, they return
tendencies and diagnostics that agree in all names not in `Q`, or raise the same exception.  `Z` says the same of what they
remember. -/
abbrev PassiveFor {F σ : Type} (Q : String → Prop) (Z : σ → σ → Prop) (p : ProgOver σ (ElemArray F)) : Prop :=
  ProgPair Eq Z (fun k => AgreeOff fun _ => Q k) (fun k => AgreeOff fun _ => Q k) (fun k => AgreeOff fun _ => Q k) p p

/-- The value of the quantity `k` at the point `ix`: the same in both states. -/
def SameValue {F : Type} (k : String) (y y' : EState (ElemArray F)) : Prop :=
  ∀ a, EState.da y k = .ok a → ∃ b, EState.da y' k = .ok b ∧ a.dims = b.dims ∧ a.shape = b.shape ∧ a.attrs = b.attrs ∧
    ∀ ix, (∀ d ∈ a.dims, ix d < a.len d) → a.at' ix = b.at' ix

end Verif
