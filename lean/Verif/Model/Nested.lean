import Verif.Model.Wrappers
/-!
# Wrapped components as components

What `isinstance` sees of ScalingWrapper, UpdateFrequencyWrapper
(`sympl/_core/wrappers.py`) and TimeDifferencingWrapper (`sympl/_components/basic.py`),
whose `__getattr__` passes attributes of the wrapped component on, and the calls of a
ScalingWrapper around a ScalingWrapper.

Simplification: `hasattr` of the private attributes of a wrapper is true, and nothing
else is, apart from what the wrapped component has.
-/

namespace Verif

/-- `__call__(self, state, timestep=None)` (wrappers.py:121); `**kwargs` is not among the
arguments `getargspec` lists (wrappers.py:223). -/
def wrapperCall : ArgSpec := ⟨["self", "state", "timestep"], [true]⟩

/-- An object of a class that inherits from no component class, has attributes of its
own and passes all others on to `o` (`__getattr__`, wrappers.py:118-119, 255-256). -/
def wrapObj (own : List String) (o : Obj) : Obj :=
  { attrs := own ++ o.attrs, bases := [], call := some wrapperCall }

/-- A ScalingWrapper around `o` (wrappers.py:22, 69-119). -/
def scalingObj (o : Obj) : Obj :=
  wrapObj ["_component", "_input_scale_factors", "_diagnostic_scale_factors", "_output_scale_factors",
    "_tendency_scale_factors", "_ensure_fields_have_properties"] o

/-- An UpdateFrequencyWrapper around `o` (wrappers.py:206-221, 255-256). -/
def updateObj (o : Obj) : Obj :=
  wrapObj ["component", "_update_timedelta", "_cached_output", "_last_update_time"] o

/-- A TimeDifferencingWrapper around `o` (basic.py:364-408, 441-448): an
ImplicitTendencyComponent with all attributes of that class; others are passed on to
`o`, except `outputs` and `output_properties`. -/
def differencingObj (o : Obj) : Obj :=
  { attrs := "_implicit" :: requiredAttributes .implicit ++
      o.attrs.filter (fun a => !decide (a ∈ ["outputs", "output_properties"])),
    bases := [.implicit], call := some ⟨["self", "state", "timestep"], []⟩ }

/-- The class a TimeDifferencingWrapper presents (basic.py:377-391).  `uses_tracers` is
found on ImplicitTendencyComponent (base_components.py:935), so `__getattr__`
(basic.py:444-448) is not asked for it and it is False, whatever the Stepper has. -/
def differencingClass (c : Class) : Except Err Class :=
  differencingProps c.outProps >>= fun tp =>
  .ok { kind := .implicit, inProps := c.inProps, outProps := tp, diagProps := c.diagProps }

/-- The new state a Stepper returns, as a state. -/
def stepperState {σ : Type} (f : σ → State → Int → σ × Except Err (Dict DataArray × Dict DataArray))
    (s : σ) (state : State) (dt : Int) : σ × Except Err (Dict DataArray × State) :=
  ((f s state dt).1, (f s state dt).2 >>= fun r => .ok (r.1, Dict.mapVal Val.da r.2))

/-- ScalingWrappers around ScalingWrappers around `o`, the outermost first. -/
def nestedObj (o : Obj) : List Scaling → Obj
  | [] => o
  | _ :: ws => scalingObj (nestedObj o ws)

/-- The call of ScalingWrappers around ScalingWrappers around a component
(wrappers.py:121-189).  `input_properties` is that of the component for all of them
(wrappers.py:118-119). -/
def nestedCall {σ : Type} (o : Obj) (inKeys : List String) (comp : WComp σ) : List Scaling → WComp σ
  | [] => comp
  | w :: ws => fun m s dt => w.call (nestedObj o ws) inKeys (nestedCall o inKeys comp ws) m s dt

end Verif
