import Verif.Model.Combine
import Verif.Model.DuckType
import Verif.Model.Util
/-!
# `sympl/_core/composite.py`

The components are arbitrary: what a component sees, keeps and changes besides its
arguments is an arbitrary world `σ`, shared by all components.
-/

namespace Verif

/-- What a tendency component returns: tendencies and diagnostics. -/
abbrev TendOut := Dict DataArray × Dict DataArray

/-- A component as used by a composite: its class (property dictionaries), what
`isinstance` sees of it, and its `__call__` without and with a timestep. -/
structure Comp (σ : Type) where
  cls : Class
  obj : Obj
  callT : σ → State → σ × Except Err TendOut
  callI : σ → State → Int → σ × Except Err TendOut

/-- A diagnostic component as used by a composite. -/
structure DiagComp (σ : Type) where
  cls : Class
  obj : Obj
  call : σ → State → σ × Except Err (Dict DataArray)

/-! ## Construction -/

/-- The loop of `DiagnosticPropertiesCompositeMixin.diagnostic_properties`
(composite.py:29-31). -/
def compositeDiagLoop : List Class → PropDict → Except Err PropDict
  | [], out => .ok out
  | c :: cs, out =>
    ensureNoSharedKeys c.diagProps out >>= fun _ => compositeDiagLoop cs (out.update c.diagProps)

/-- `DiagnosticPropertiesCompositeMixin.diagnostic_properties` (composite.py:26-36). -/
def compositeDiagProps (cs : List Class) (inProps : PropDict) : Except Err PropDict :=
  compositeDiagLoop cs [] >>= fun d =>
  if ∀ kv ∈ d, kv.2.dims.isSome ∨ kv.1 ∈ inProps.keys then .ok d else .error .invalidPropertyDict

/-- `ensure_components_have_class` (composite.py:94-99): the classes a composite of a
kind accepts (106, 177, 251). -/
def acceptedBy (k : Kind) (o : Obj) : Bool :=
  match k with
  | .implicit => isInstance .tendency o || isInstance .implicit o
  | k => isInstance k o

/-- `__init__` of TendencyComponentComposite, ImplicitTendencyComponentComposite and
DiagnosticComponentComposite (composite.py:14-16, 38-40, 71-91, 113-132, 184-203): the
type check, the two mixins, then `__init__` of the base class with its checkers.  The
result is the class the composite presents.  Simplification: `tendency_properties` is
evaluated before the InputChecker runs. -/
def compositeConstruct (R : Registry) (o : SetOrder) (g : Tracers) (k : Kind)
    (cs : List (Class × Obj)) : Except Err Class :=
  if cs.all (fun c => acceptedBy k c.2) then
    combineInputs R o g (cs.map (·.1)) >>= fun inP =>
    compositeDiagProps (cs.map (·.1)) inP >>= fun diag =>
    (if k = .diagnostic then .ok [] else combineTendencies R o (cs.map (·.1)) inP) >>= fun tend =>
    let c : Class := { kind := k, inProps := inP, outProps := tend, diagProps := diag }
    runCheckers R c >>= fun _ => .ok c
  else .error .typeError

/-! ## Calls -/

/-- The loop of the tendency composites' `__call__` (composite.py:158-164, 229-241)
over the calls of the components. -/
def compositeLoop {σ : Type} (R : Registry) :
    List (σ → σ × Except Err TendOut) → σ → Dict DataArray → Dict DataArray → σ × Except Err TendOut
  | [], s, t, d => (s, .ok (t, d))
  | f :: fs, s, t, d =>
    match (f s).2 with
    | .error e => ((f s).1, .error e)
    | .ok r =>
      match addInto R r.1 t with
      | .error e => ((f s).1, .error e)
      | .ok t' => compositeLoop R fs (f s).1 t' (d.update r.2)

/-- `TendencyComponentComposite.__call__` (composite.py:134-164). -/
def callTendencyComposite {σ : Type} (R : Registry) (cs : List (Comp σ)) (s : σ) (state : State) :
    σ × Except Err TendOut :=
  compositeLoop R (cs.map fun c s => c.callT s state) s [] []

/-- How ImplicitTendencyComponentComposite calls one component (composite.py:235-238).
A component of neither type cannot be in the composite. -/
def implicitCall {σ : Type} (c : Comp σ) (state : State) (dt : Int) (s : σ) : σ × Except Err TendOut :=
  if isInstance .implicit c.obj then c.callI s state dt
  else if isInstance .tendency c.obj then c.callT s state
  else (s, .error .usage)

/-- `ImplicitTendencyComponentComposite.__call__` (composite.py:205-241). -/
def callImplicitComposite {σ : Type} (R : Registry) (cs : List (Comp σ)) (s : σ) (state : State) (dt : Int) :
    σ × Except Err TendOut :=
  compositeLoop R (cs.map fun c => implicitCall c state dt) s [] []

/-- The loop of `DiagnosticComponentComposite.__call__` (composite.py:276-281). -/
def diagnosticLoop {σ : Type} :
    List (σ → σ × Except Err (Dict DataArray)) → σ → Dict DataArray → σ × Except Err (Dict DataArray)
  | [], s, d => (s, .ok d)
  | f :: fs, s, d =>
    match (f s).2 with
    | .error e => ((f s).1, .error e)
    | .ok r =>
      match ensureNoSharedKeys d r with
      | .error e => ((f s).1, .error e)
      | .ok _ => diagnosticLoop fs (f s).1 (d.update r)

/-- `DiagnosticComponentComposite.__call__` (composite.py:253-282). -/
def callDiagnosticComposite {σ : Type} (cs : List (DiagComp σ)) (s : σ) (state : State) :
    σ × Except Err (Dict DataArray) :=
  diagnosticLoop (cs.map fun c s => c.call s state) s []

/-- `MonitorComposite.store` (composite.py:292-309): the monitors are arbitrary. -/
def storeAll {σ : Type} : List (σ → State → σ × Except Err Unit) → σ → State → σ × Except Err Unit
  | [], s, _ => (s, .ok ())
  | m :: ms, s, state =>
    match (m s state).2 with
    | .error e => ((m s state).1, .error e)
    | .ok _ => storeAll ms (m s state).1 state

end Verif
