import Verif.Model.TimeSteppers
import Verif.Model.Nested
/-!
# Components in UpdateFrequencyWrappers, given to a time stepper

`sympl/_core/wrappers.py` (UpdateFrequencyWrapper), as called by the composite of a time stepper
(`sympl/_core/composite.py`).
-/

namespace Verif

/-- Calling a component with or without a timestep (base_components.py:808, 1031): TypeError if
the arguments are not those of the component's `__call__`. -/
def Comp.python {σ : Type} (c : Comp σ) (s : σ) (state : State) (dt : Option Int) : σ × Except Err TendOut :=
  match dt with
  | some dt => if isInstance .implicit c.obj then c.callI s state dt else (s, .error .typeError)
  | none => if isInstance .tendency c.obj then c.callT s state else (s, .error .typeError)

/-- The memories of the UpdateFrequencyWrappers in a list of components, by position
(wrappers.py:218-221). -/
abbrev Caches := Nat → UFW TendOut

/-- A call of the wrapper in position `i` (wrappers.py:223-253).  The composite unpacks the result
(composite.py:159, 236, 238): TypeError for None. -/
def updateCall {σ : Type} (i : Nat) (c : Comp σ) (w : σ × Caches) (state : State) (dt : Option Int) :
    (σ × Caches) × Except Err TendOut :=
  let r := (w.2 i).call State.time c.python w.1 state dt
  ((r.2.1, fun j => if j = i then r.1 else w.2 j),
    match r.2.2 with
    | .ok (some o) => .ok o
    | .ok none => .error .typeError
    | .error e => .error e)

/-- A component in an UpdateFrequencyWrapper (wrappers.py:206-256), in position `i` -/
def Comp.updating {σ : Type} (i : Nat) (c : Comp σ) : Comp (σ × Caches) where
  cls := c.cls
  obj := updateObj c.obj
  callT := fun w state => updateCall i c w state none
  callI := fun w state dt => updateCall i c w state (some dt)

/-- A component that is not wrapped, next to others that are: it has nothing to do with their
memories. -/
def Comp.beside {σ : Type} (c : Comp σ) : Comp (σ × Caches) where
  cls := c.cls
  obj := c.obj
  callT := fun w state => (((c.callT w.1 state).1, w.2), (c.callT w.1 state).2)
  callI := fun w state dt => (((c.callI w.1 state dt).1, w.2), (c.callI w.1 state dt).2)

/-- A list of components, some of them (`true`) in UpdateFrequencyWrappers (wrappers.py:206-256), as
given to a time stepper (tendencystepper.py:128-160). -/
def updatingFrom {σ : Type} : Nat → List (Bool × Comp σ) → List (Comp (σ × Caches))
  | _, [] => []
  | i, (b, c) :: cs => (if b then c.updating i else c.beside) :: updatingFrom (i + 1) cs

end Verif
