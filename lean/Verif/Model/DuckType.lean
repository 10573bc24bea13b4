import Verif.Model.Components
/-!
# `isinstance` against the component base classes

Model of `ComponentMeta.__instancecheck__` (base_components.py:47-94) and
`get_kwarg_defaults` (37-44).

Simplifications: an object is what the check can see of it: the attributes for which
`hasattr` is true, the base classes its class inherits from, and the argument
specification of its `__call__`.  A default value is represented by whether it is
`None`.  Callables for which `getargspec` raises are not modelled.
-/

namespace Verif

/-- `getargspec(f)`: positional argument names and the default values (is it
`None`?) of the last ones. -/
structure ArgSpec where
  args : List String
  defaultsNone : List Bool
  deriving DecidableEq

/-- What `isinstance` can see of an object. -/
structure Obj where
  attrs : List String
  bases : List Kind
  call : Option ArgSpec

/-- `hasattr(obj, a)`; `__call__` is present iff it has an argument specification. -/
def Obj.has (o : Obj) (a : String) : Bool :=
  if a = "__call__" then o.call.isSome else a ∈ o.attrs

/-- Attributes of the base classes among those checked: base_components.py:447-458,
564, 581, 645 (Stepper, which has no class attribute `name`), 697-712, 773, 808, 869
(TendencyComponent), 922-937, 996, 1031, 1095 (ImplicitTendencyComponent), 1138-1145,
1191, 1227 (DiagnosticComponent). -/
def classAttrs : Kind → List String
  | .stepper => ["input_properties", "diagnostic_properties", "output_properties", "__call__",
      "array_call", "tendencies_in_diagnostics"]
  | .tendency => ["input_properties", "tendency_properties", "diagnostic_properties", "__call__",
      "array_call", "tendencies_in_diagnostics", "name"]
  | .implicit => ["input_properties", "tendency_properties", "diagnostic_properties", "__call__",
      "array_call", "tendencies_in_diagnostics", "name"]
  | .diagnostic => ["input_properties", "diagnostic_properties", "__call__", "array_call"]

/-- Arguments of `cls.__call__` (base_components.py:581, 808, 1031, 1191). -/
def classCallArgs : Kind → List String
  | .stepper => ["self", "state", "timestep"]
  | .tendency => ["self", "state"]
  | .implicit => ["self", "state", "timestep"]
  | .diagnostic => ["self", "state"]

/-- The `check_attributes` of `__get_attribute_requirements` (base_components.py:75-84). -/
def checkAttributes : List String :=
  ["input_properties", "tendency_properties", "diagnostic_properties", "output_properties",
   "__call__", "array_call", "tendencies_in_diagnostics", "name"]

/-- `required_attributes` (base_components.py:85-87). -/
def requiredAttributes (k : Kind) : List String := checkAttributes.filter (· ∈ classAttrs k)

/-- `disallowed_attributes` (base_components.py:88-92). -/
def disallowedAttributes (k : Kind) : List String :=
  (checkAttributes.filter (· ∉ requiredAttributes k)).erase "name"

/-- The loop of `get_kwarg_defaults` (base_components.py:42-43): `i` counts from the
last default backwards. -/
def kwargLoop (args : List String) : Nat → List Bool → Dict Bool → Dict Bool
  | _, [], d => d
  | i, b :: bs, d => kwargLoop args (i + 1) bs (d.set (args.getD (args.length - 1 - i) "") b)

/-- `get_kwarg_defaults` (base_components.py:37-44). -/
def kwargDefaults (s : ArgSpec) : Dict Bool := kwargLoop s.args 0 s.defaultsNone.reverse []

/-- `isinstance(o, cls)` for a base class `cls` (base_components.py:49-72). -/
def isInstance (k : Kind) (o : Obj) : Bool :=
  if !o.bases.isEmpty then k ∈ o.bases
  else
    let hasAttributes := (requiredAttributes k).all o.has && !((disallowedAttributes k).any o.has)
    match o.call with
    | none => false
    | some spec =>
      let inClass : Bool := "timestep" ∈ classCallArgs k
      let inInstance : Bool := "timestep" ∈ spec.args
      let optional : Bool := (kwargDefaults spec).get? "timestep" = some true
      hasAttributes && (inClass == inInstance || optional)

end Verif
