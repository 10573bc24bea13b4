import Verif.Model.TimeSteppers
/-!
# `TendencyStepper.__init__` (`sympl/_core/tendencystepper.py`)

`input_properties`, `output_properties` and `diagnostic_properties` of a TendencyStepper
build a new dictionary on every access.
-/

namespace Verif

/-- Loop of `TendencyStepper.diagnostic_properties` (tendencystepper.py:69-70) -/
def tsDiagLoop : List Class → PropDict → PropDict
  | [], out => out
  | c :: cs, out => tsDiagLoop cs (out.update c.diagProps)

/-- `_insert_tendencies_to_diagnostic_properties` (tendencystepper.py:76-83) -/
def insertTsTendencies (inst : String) : PropDict → PropDict → Except Err PropDict
  | [], diag => .ok diag
  | (n, p) :: rest, diag =>
    match p.units, p.dims with
    | some u, some d =>
      insertTsTendencies inst rest (diag.set (tendencyName n inst) { dims := some d, units := some u })
    | _, _ => .error .keyError

/-- `TendencyStepper.diagnostic_properties` (tendencystepper.py:66-74) -/
def tsDiagProps (R : Registry) (o : SetOrder) (g : Tracers) (cs : List Class) (tid : Bool) (inst : String) :
    Except Err PropDict :=
  if tid then tsTendencyProps R o g cs >>= fun t => insertTsTendencies inst t (tsDiagLoop cs [])
  else .ok (tsDiagLoop cs [])

/-- The class a TendencyStepper presents to the checkers of Stepper. -/
def tsClass (R : Registry) (o : SetOrder) (g : Tracers) (cs : List Class) (tid : Bool) (inst : String) :
    Except Err Class :=
  tsInputProps R o g cs >>= fun inP =>
  tsDiagProps R o g cs tid inst >>= fun diag =>
  tsOutputProps R o g cs >>= fun outP =>
  .ok { kind := .stepper, inProps := inP, outProps := outP, diagProps := diag }

/-- `TendencyStepper.__init__` (tendencystepper.py:124-159): the composite of the
components, `Stepper.__init__` (base_components.py:483-516) on the properties of the
stepper, and the final check.  The result is the class the stepper presents.
Simplifications: the properties are evaluated before the checkers run, and once (what
`_insert_tendency_properties` writes is lost, base_components.py:518-558). -/
def tsConstruct (R : Registry) (o : SetOrder) (g : Tracers) (cs : List (Class × Obj)) (tid : Bool) (inst : String) :
    Except Err Class :=
  compositeConstruct R o g .implicit cs >>= fun comp =>
  tsClass R o g (cs.map (·.1)) tid inst >>= fun c =>
  (construct R g c tid inst).2.2 >>= fun _ =>
  if ∀ n ∈ comp.outProps.keys, n ∈ c.outProps.keys then .ok c else .error .invalidPropertyDict

end Verif
