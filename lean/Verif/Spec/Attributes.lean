import Verif.Model.Attributes
/-!
# What a wrapper should answer

Written without recursion limits and without `__getattr__`: the layers of a wrapped
component from the outside in.
-/

namespace Verif

/-- One wrapper of a nest: its kind, its instance attributes other than the one that
holds what is inside, and its class attributes. -/
structure Layer where
  kind : WrapperKind
  inst : List (String × PyOb)
  cls : List (String × PyOb)

/-- The component `f` inside all of the wrappers, the outermost first. -/
def nest (f : String → Except Err PyOb) : List Layer → PyOb
  | [] => .comp f
  | l :: ls => .wrap l.kind ((slotOf l.kind, nest f ls) :: l.inst) l.cls

/-- An attribute of the layer itself -/
def Layer.own (l : Layer) (item : String) : Option PyOb := (Dict.get? l.inst item).or (Dict.get? l.cls item)

/-- Properties of a TimeDifferencingWrapper that are computed. -/
def computed : List String :=
  ["input_properties", "diagnostic_properties", "tendency_properties", "tendencies_in_diagnostics"]

/-- What is found in a layer itself, given what is found inside it. -/
def ofLayer (l : Layer) (inside : PyOb) (seen : String → Except Err PyOb) (item : String) : Except Err PyOb :=
  if item = slotOf l.kind then .ok inside
  else
    match l.own item with
    | some v => .ok v
    | none => if l.kind = .differencing ∧ (item = "outputs" ∨ item = "output_properties") then .error .attributeError
        else seen item

/-- `a`, or `b` if `a` is an AttributeError -/
def orElse' (a b : Except Err PyOb) : Except Err PyOb :=
  match a with
  | .error .attributeError => b
  | r => r

/-- What should be found as `item` on the nest. -/
def expected (f : String → Except Err PyOb) : List Layer → String → Except Err PyOb
  | [], item => f item
  | l :: ls, item =>
    if l.kind = .differencing ∧ item ∈ computed then
      if item = "tendency_properties" then
        orElse' (expected f ls "output_properties" >>= tendenciesOf) (expected f ls item)
      else if item = "tendencies_in_diagnostics" then
        orElse' (ofLayer l (nest f ls) (expected f ls) "_tendencies_in_diagnostics") (expected f ls item)
      else expected f ls item
    else ofLayer l (nest f ls) (expected f ls) item

/-- With room for enough nested lookups, the lookup ends with `r`. -/
def Settles (x : PyOb) (item : String) (r : Except Err PyOb) : Prop := ∃ n0, ∀ n, n0 ≤ n → getAttr n x item = r

/-- `hasattr` of the attributes `isinstance` asks for agrees with the list that
`isinstance` is modelled with (`__call__` is seen from its argument specification). -/
def SeenAs (x : PyOb) (o : Obj) : Prop :=
  ∀ a ∈ checkAttributes, a ≠ "__call__" →
    (a ∈ o.attrs → ∃ v, Settles x a (.ok v)) ∧ (a ∉ o.attrs → Settles x a (.error .attributeError))

/-- The layers that ScalingWrapper, UpdateFrequencyWrapper and TimeDifferencingWrapper
make. -/
def scalingLayer (i d o t : PyOb) : Layer where
  kind := .scaling
  inst := [("_input_scale_factors", i), ("_diagnostic_scale_factors", d), ("_output_scale_factors", o),
    ("_tendency_scale_factors", t)]
  cls := [("_ensure_fields_have_properties", .other "method"), ("__call__", .other "method")]

def updateLayer (delta : String) : Layer where
  kind := .frequency
  inst := [("_update_timedelta", .other delta), ("_cached_output", .other "None"), ("_last_update_time", .other "None")]
  cls := [("__call__", .other "method")]

def differencingLayer : Layer where
  kind := .differencing
  inst := []
  cls := [("name", .other "None"), ("uses_tracers", .other "False"), ("tracer_tendency_time_unit", .other "s^-1"),
    ("__call__", .other "method"), ("array_call", .other "method")]

end Verif
