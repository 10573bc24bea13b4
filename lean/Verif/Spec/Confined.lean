import Verif.Spec.Alike
import Verif.Model.Elements
/-!
# Arrays that agree outside a region (C122)
-/

namespace Verif

/-- `a` and `b` have the same axes, lengths and attributes, and the same elements at every point of the
grid outside the region `B`.  A point gives an index along every axis that there is; an array that lacks
some of the axes has the same element at all points that differ along those axes only. -/
structure AgreeOff {F : Type} (B : (String → Nat) → Prop) (a b : ElemArray F) : Prop where
  dims : a.dims = b.dims
  shape : a.shape = b.shape
  attrs : a.attrs = b.attrs
  val : ∀ ix, (∀ d ∈ a.dims, ix d < a.len d) → ¬ B ix → a.at' ix = b.at' ix

/-- States that agree outside the region `B`. -/
abbrev StatesAgreeOff {F : Type} (B : (String → Nat) → Prop) (s s' : EState (ElemArray F)) : Prop :=
  PairRel Eq (fun _ => AgreeOff B) s s'

/-- Components that carry nothing out of the region `B`: on states that agree outside `B` they return
tendencies and diagnostics that agree outside `B`, or raise the same exception.  Components that work
point by point do so for every region, components that work on columns for every union of columns.  `Z` says which
worlds of the components agree outside the region. -/
abbrev KeepsRegion {F σ : Type} (B : (String → Nat) → Prop) (Z : σ → σ → Prop) (p : ProgOver σ (ElemArray F)) : Prop :=
  ProgPair Eq Z (fun _ => AgreeOff B) (fun _ => AgreeOff B) (fun _ => AgreeOff B) p p

/-- Worlds of a component in an UpdateFrequencyWrapper that agree outside the region: its own world (`Z`), the interval,
the outputs in the cache and the time of the last update. -/
abbrev CachesAgreeOff {F σ : Type} (B : (String → Nat) → Prop) (Z : σ → σ → Prop) :
    σ × UFW (Dict (ElemArray F) × Dict (ElemArray F)) → σ × UFW (Dict (ElemArray F) × Dict (ElemArray F)) → Prop :=
  UpdatingPair Eq Z (fun _ => AgreeOff B) (fun _ => AgreeOff B)

/-- An element that every operation hands on, like NaN. -/
structure Absorbs {F : Type} (E : Elem F) (x : F) : Prop where
  addl : ∀ y, E.add x y = x
  addr : ∀ y, E.add y x = x
  subl : ∀ y, E.sub x y = x
  subr : ∀ y, E.sub y x = x
  mulc : ∀ c, E.mulc c x = x
  divc : ∀ c, E.divc c x = x
  conv : ∀ u v, E.conv u v x = x

/-- The state has the quantity `q`, and its value at the point `ix` is `x`. -/
def SetAt {F : Type} (q : String) (ix : String → Nat) (x : F) (y : EState (ElemArray F)) : Prop :=
  q ∈ Dict.keys y ∧ ∀ a, (q, Entry.da a) ∈ y → a.at' ix = x

/-- The old state of a Leapfrog, if it has one, has `x` at the point `ix` of `q` wherever it has `q`. -/
def OldSetAt {F : Type} (q : String) (ix : String → Nat) (x : F) (lf : LFOver (ElemArray F)) : Prop :=
  ∀ o, lf.old = some o → ∀ a, (q, Entry.da a) ∈ o → a.at' ix = x

end Verif
