import Verif.Model.UpdateRuns
import Verif.Props.DuckType
/-!
# Specification of C107: components in UpdateFrequencyWrappers during runs
-/

namespace Verif

/-- A TendencyComponent or an ImplicitTendencyComponent: it is called either without or with a
timestep. -/
structure Comp.Plain {σ : Type} (c : Comp σ) : Prop where
  attrs : Interface .tendency c.obj
  one : isInstance .tendency c.obj ≠ isInstance .implicit c.obj

/-- What the component returns depends on the state it is given (and the timestep), not on
anything remembered. -/
def Comp.Forgetful {σ : Type} (c : Comp σ) : Prop :=
  ∀ s s' state dt, (implicitCall c state dt s).2 = (implicitCall c state dt s').2

/-- The component `c`, given `state` instead of the state of the call. -/
def Comp.given {σ : Type} (state : State) (c : Comp σ) : Comp σ where
  cls := c.cls
  obj := c.obj
  callT := fun s _ => c.callT s state
  callI := fun s _ dt => c.callI s state dt

/-- The components, those marked `true` given the state `src i` for their position `i`, the others
the state of the call. -/
def givenFrom {σ : Type} (src : Nat → State) : Nat → List (Bool × Comp σ) → List (Comp σ)
  | _, [] => []
  | i, (b, c) :: cs => (if b then c.given (src i) else c) :: givenFrom src (i + 1) cs

/-- UpdateFrequencyWrappers that have not been called, with the intervals `delta`. -/
def Unused (delta : Nat → Int) (m : Caches) : Prop := ∀ i, m i = { delta := delta i }

/-- `k` timesteps are the first to be at least the interval. -/
def StepsPerUpdate (dt delta : Int) (k : Nat) : Prop :=
  1 ≤ k ∧ delta ≤ k * dt ∧ ∀ j : Nat, 1 ≤ j → j < k → j * dt < delta

end Verif
