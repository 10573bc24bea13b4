import Verif.Model.Components
/-!
# Basic components (`sympl/_components/basic.py:10-361`)

The property dictionaries of these components are Python properties that build a new
dictionary on every access, so `tendencies_in_diagnostics` does not change them
(`constructRebuilt`).
-/

namespace Verif

/-- Construction of a component whose property dictionaries are built on every access: what
`_insert_tendency_properties` writes (base_components.py:776-789) is lost. -/
def constructRebuilt (R : Registry) (g : Tracers) (c : Class) (tid : Bool) (name : String) : Tracers × Except Err Inst :=
  ((construct R g c tid name).1, (construct R g c tid name).2.2)

/-! ## Constant components -/

/-- `tendency_properties` and `diagnostic_properties` of the constant components
(basic.py:63-81, 175-183) -/
def constantProps : Dict DataArray → Except Err PropDict
  | [] => .ok []
  | (n, a) :: rest =>
    Dict.get a.attrs "units" >>= fun u =>
    constantProps rest >>= fun ps =>
    .ok ((n, { dims := some a.dims, units := some u }) :: ps)

/-- The values of arrays: `data_array.values` for each (basic.py:128-134, 211-214) -/
def arraysOf (d : Dict DataArray) : Dict NDArray := Dict.mapVal (·.arr) d

/-- `ConstantTendencyComponent` (basic.py:10-134) as a class. -/
def constantTendencyClass (tends diags : Dict DataArray) : Except Err Class :=
  constantProps tends >>= fun t =>
  constantProps diags >>= fun d =>
  .ok { kind := .tendency, inProps := [], outProps := t, diagProps := d }

/-- `ConstantTendencyComponent.array_call` (basic.py:127-134) -/
def constantTendencyCall {σ : Type} (tends diags : Dict DataArray) (s : σ) (_ : RawState) :
    σ × Except Err (Dict NDArray × Dict NDArray) := (s, .ok (arraysOf tends, arraysOf diags))

/-- `ConstantDiagnosticComponent` (basic.py:137-214) as a class. -/
def constantDiagnosticClass (diags : Dict DataArray) : Except Err Class :=
  constantProps diags >>= fun d =>
  .ok { kind := .diagnostic, inProps := [], outProps := [], diagProps := d }

/-- `ConstantDiagnosticComponent.array_call` (basic.py:210-214) -/
def constantDiagnosticCall {σ : Type} (diags : Dict DataArray) (s : σ) (_ : RawState) :
    σ × Except Err (Dict NDArray) := (s, .ok (arraysOf diags))

/-! ## RelaxationTendencyComponent -/

/-- `"equilibrium_{}".format(...)` (basic.py:272, 358) -/
def equilibriumName (q : String) : String := "equilibrium_" ++ q

/-- `"{}_relaxation_timescale".format(...)` (basic.py:276, 359) -/
def timescaleName (q : String) : String := q ++ "_relaxation_timescale"

/-- `input_properties` (basic.py:265-281) -/
def relaxInputs (q units : String) : PropDict :=
  [(q, { dims := some ["*"], units := some units }),
   (equilibriumName q, { dims := some ["*"], units := some units }),
   (timescaleName q, { dims := some ["*"], units := some "s" })]

/-- `str(ureg(self._units) / ureg("s"))` (basic.py:288).  `quotient` is pint's string for the
unit per second; pint does not divide units with an offset (OffsetUnitCalculusError, a
TypeError). -/
def relaxRate (R : Registry) (quotient : String → String) (units : String) : Except Err String :=
  R.unit units >>= fun u =>
  if u.offset ≠ 0 then .error .typeError
  else R.unit "s" >>= fun _ => .ok (quotient units)

/-- The property dictionaries (basic.py:265-294), given the units of the tendency. -/
def relaxWith (q units rate : String) : Class :=
  { kind := .tendency, inProps := relaxInputs q units,
    outProps := [(q, { dims := some ["*"], units := some rate })], diagProps := [] }

/-- `RelaxationTendencyComponent` (basic.py:217-361) as a class. -/
def relaxClass (R : Registry) (quotient : String → String) (q units : String) : Except Err Class :=
  relaxRate R quotient units >>= fun rate => .ok (relaxWith q units rate)

/-- `RelaxationTendencyComponent.array_call` (basic.py:328-361).  Division by zero gives 0
instead of an infinity or nan. -/
def relaxCall {σ : Type} (q : String) (s : σ) (raw : RawState) : σ × Except Err (Dict NDArray × Dict NDArray) :=
  (s,
    Dict.get raw.arrays q >>= fun value =>
    Dict.get raw.arrays (equilibriumName q) >>= fun equilibrium =>
    Dict.get raw.arrays (timescaleName q) >>= fun tau =>
    NDArray.zipWith (fun e v => e - v) equilibrium value >>= fun diff =>
    NDArray.zipWith (fun x t => x / t) diff tau >>= fun tend =>
    .ok ([(q, tend)], []))

end Verif
