import Verif.Spec.PointRuns
import Verif.Spec.DimsKept
import Verif.Model.Composite
import Verif.Props.Basic
/-!
# C98: what the runs with a relaxation are about

The composite of a TendencyStepper contains one RelaxationTendencyComponent and possibly
other components, which change other quantities.
-/

namespace Verif

/-- Every dimension has the length it has in `L`, and none is called `*`. -/
def OnGrid (L : String → Nat) (a : DataArray) : Prop := a.Sized L ∧ "*" ∉ a.dims

/-- The member of a composite is a RelaxationTendencyComponent for `q`, constructed with the
units `units`. -/
structure IsRelaxation {σ : Type} (R : Registry) (quotient : String → String) (q units : String) (m : Comp σ) : Prop where
  object : isInstance .implicit m.obj = false ∧ isInstance .tendency m.obj = true
  call : ∃ g0 g1 g c i tid name, relaxClass R quotient q units = .ok c ∧ constructRebuilt R g0 c tid name = (g1, .ok i) ∧
    m.callT = callTendency R g c i (relaxCall q)

/-- A component which returns dictionaries, gives no tendency to `q`, its equilibrium and its
timescale, and gives tendencies on the grid for states on the grid. -/
structure Elsewhere {σ : Type} (L : String → Nat) (q : String) (m : Comp σ) : Prop where
  dict : ∀ s state dt r, (implicitCall m state dt s).2 = .ok r → (Dict.keys r.1).Nodup
  others : ∀ s state dt r, (implicitCall m state dt s).2 = .ok r →
    ∀ k, k = q ∨ k = "equilibrium_" ++ q ∨ k = q ++ "_relaxation_timescale" → k ∉ Dict.keys r.1
  grid : ∀ s state dt r, (∀ k a, (k, Val.da a) ∈ state → OnGrid L a) → (implicitCall m state dt s).2 = .ok r →
    ∀ k a, (k, a) ∈ r.1 → OnGrid L a

/-- The situation at one place: in the units of `q` in the state, the equilibrium is `E`
there, and the timescale is `T` seconds. -/
structure Relaxing (R : Registry) (q : String) (ix : String → Nat) (state : State) (E T : Rat) : Prop where
  equilibrium : ∃ u eu, HasUnits state q u ∧ HasUnits state ("equilibrium_" ++ q) eu ∧
    SamePhysical R u E eu (State.val state ("equilibrium_" ++ q) ix)
  timescale : ∃ tu, HasUnits state (q ++ "_relaxation_timescale") tu ∧
    SamePhysical R "s" T tu (State.val state (q ++ "_relaxation_timescale") ix)
  positive : 0 < T
  /-- the registry knows the units of the state divided by seconds -/
  perSecond : ∀ u, HasUnits state q u → QuotientOk R (· ++ " s^-1") u

end Verif
