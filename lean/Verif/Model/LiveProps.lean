import Verif.Model.StepperInit
import Verif.Model.Composite
/-!
# Properties evaluated after construction

The property dictionaries of composites and of TendencySteppers are Python properties:
they are computed again on each access, from the components and from the tracers that
are registered at that moment (`composite.py`, `tendencystepper.py`).  Below `g` is what
is registered when the property is accessed.
-/

namespace Verif

/-- `input_properties` of a composite (composite.py:10-12). -/
def compositeInputs (R : Registry) (o : SetOrder) (g : Tracers) (cs : List Class) : Except Err PropDict :=
  combineInputs R o g cs

/-- `tendency_properties` of the tendency composites (composite.py:108-111, 179-182). -/
def compositeTendencies (R : Registry) (o : SetOrder) (g : Tracers) (cs : List Class) : Except Err PropDict :=
  compositeInputs R o g cs >>= combineTendencies R o cs

/-- `diagnostic_properties` of a composite (composite.py:27-36): `input_properties` is
only evaluated for a diagnostic without dims. -/
def compositeDiagnostics (R : Registry) (o : SetOrder) (g : Tracers) (cs : List Class) : Except Err PropDict :=
  compositeDiagLoop cs [] >>= fun d =>
  if ∀ kv ∈ d, kv.2.dims.isSome then .ok d
  else compositeInputs R o g cs >>= fun inP =>
    if ∀ kv ∈ d, kv.2.dims.isSome ∨ kv.1 ∈ inP.keys then .ok d else .error .invalidPropertyDict

/-- `TendencyStepper.__call__` (tendencystepper.py:172-228) for any `_call`, with the
properties evaluated where the code evaluates them: after the step, and only with
tendencies in diagnostics (207-208). -/
def tsCallLive {τ σ : Type} (R : Registry) (o : SetOrder) (g : Tracers) (cs : List Class) (inst : String) (tid : Bool)
    (call : τ → σ → State → Int → τ × σ × State × Except Err (Dict DataArray × State))
    (x : τ) (s : σ) (state : State) (dt : Int) : τ × σ × State × Except Err (Dict DataArray × State) :=
  let r := call x s state dt
  (r.1, r.2.1, r.2.2.1, r.2.2.2 >>= fun out =>
    let new := copyUntouched r.2.2.1 out.2
    (if tid then
      tsOutputProps R o g cs >>= fun outP => tsInputProps R o g cs >>= fun inP =>
      insertNet R inP inst r.2.2.1 new dt outP.keys out.1
    else .ok out.1) >>= fun diag =>
    .ok (diag, new))

end Verif
