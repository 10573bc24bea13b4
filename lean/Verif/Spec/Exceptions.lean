import Verif.Spec.Arrays
import Verif.Spec.Tracers
import Verif.Model.Components
/-!
# What is wrong with a state

The faults of a state as the input of a component, by the exception they should
be reported with, without reference to the order in which the code looks for
them.
-/

namespace Verif

/-- A requested quantity is not in the state. -/
def Lacks (state : State) (props : PropDict) : Prop :=
  ∃ kv ∈ props, Dict.get? state kv.1 = none

/-- A requested quantity is not an array. -/
def NotArrays (state : State) (props : PropDict) : Prop :=
  ∃ kv ∈ props, ∃ t, Dict.get? state kv.1 = some (.time t)

/-- Two requested quantities disagree on the length of a dimension. -/
def LengthsClash (state : State) (props : PropDict) : Prop :=
  ∃ q ∈ requested state props, ∃ q' ∈ requested state props, ∃ d,
    d ∈ q.1.dims ∧ d ∈ q'.1.dims ∧ q.1.len d ≠ q'.1.len d

/-- A requested quantity has a dimension which is not asked for. -/
def DimsUnlisted (state : State) (props : PropDict) : Prop :=
  ∃ q ∈ requested state props, "*" ∉ q.2 ∧ ∃ d ∈ q.1.dims, d ∉ q.2

/-- A requested quantity has no units, or units of another dimensionality. -/
def UnitsDiffer (R : Registry) (state : State) (props : PropDict) : Prop :=
  ∃ kv ∈ props, ∃ a, Dict.get? state kv.1 = some (.da a) ∧
    (a.attrs.get? "units" = none ∨
      ∃ own units ua ub, a.attrs.get? "units" = some own ∧ kv.2.units = some units ∧
        R.parse own = some ua ∧ R.parse units = some ub ∧ ua.dim ≠ ub.dim)

/-- A requested quantity has, or is asked for in, units nobody has heard of. -/
def UnitsUnknown (R : Registry) (state : State) (props : PropDict) : Prop :=
  ∃ kv ∈ props, ∃ a own units, Dict.get? state kv.1 = some (.da a) ∧
    a.attrs.get? "units" = some own ∧ kv.2.units = some units ∧
    (R.parse own = none ∨ R.parse units = none)

/-- A dimension taken by the wildcard is also listed beside a wildcard. -/
def WildcardOverlaps (state : State) (props : PropDict) : Prop :=
  ∃ kv ∈ props, ∃ ds, kv.2.dims = some ds ∧ "*" ∈ ds ∧
    ∃ d ∈ wildSpec (requested state props), d ∈ ds

/-- The fault an exception stands for. -/
def Explains (R : Registry) (state : State) (props : PropDict) : Err → Prop
  | .invalidState => LengthsClash state props ∨ DimsUnlisted state props ∨ UnitsDiffer R state props
  | .keyError => Lacks state props
  | .attributeError => NotArrays state props
  | .undefinedUnit => UnitsUnknown R state props
  | .valueError => WildcardOverlaps state props
  | _ => False

/-- Properties with dims (no name twice) and units. -/
def Declared (props : PropDict) : Prop :=
  ∀ kv ∈ props, ∃ ds u, kv.2.dims = some ds ∧ ds.Nodup ∧ kv.2.units = some u

/-- Calling the component raises `e` and does not run `array_call`, whatever
`array_call` and whichever the kind of the component. -/
def CallsRaise (R : Registry) (g : Tracers) (c : Class) (i : Inst) (state : State) (e : Err) : Prop :=
  ∀ (σ : Type) (s : σ),
    (∀ f, callTendency R g c i f s state = (s, .error e)) ∧
    (∀ f dt, callStepper R g c i f s state dt = (s, .error e)) ∧
    (∀ f, callDiagnostic R g c i f s state = (s, .error e))

/-- Calling the component gets as far as `array_call`. -/
def CallsRun (R : Registry) (g : Tracers) (c : Class) (i : Inst) (state : State) : Prop :=
  ∃ raw, ∀ (σ : Type) (s : σ),
    (∀ f, (callTendency R g c i f s state).1 = (f s raw).1) ∧
    (∀ f dt, (callStepper R g c i f s state dt).1 = (f s raw dt).1) ∧
    (∀ f, (callDiagnostic R g c i f s state).1 = (f s raw).1)

/-- The faults of the state among the inputs and the tracers of a component. -/
def Faulty (R : Registry) (g : Tracers) (c : Class) (i : Inst) (state : State) (e : Err) : Prop :=
  Explains R state c.inProps e ∨ ∃ p, i.packer = some p ∧ Explains R state (tracerReq g p) e

end Verif
