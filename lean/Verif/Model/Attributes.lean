import Verif.Model.Nested
/-!
# Attribute lookup on wrapped components

`__getattr__` of ScalingWrapper, UpdateFrequencyWrapper (`sympl/_core/wrappers.py`) and
TimeDifferencingWrapper (`sympl/_components/basic.py`), as Python calls it: after the
ordinary lookup has raised AttributeError, be it because there is no such attribute or
because a property raised it.  A lookup made during a lookup is one deeper; the depth is
limited (`sys.getrecursionlimit`).

Simplifications: RecursionError is a RuntimeError.  What a component without
`__getattr__` answers to a lookup is any function of the name.  Of the attributes of a
wrapper those every Python object has (`__class__`, `__dict__`, ...) are left out.
-/

namespace Verif

inductive WrapperKind where
  | scaling | frequency | differencing
  deriving DecidableEq

/-- Python objects as far as lookups go: a component (or anything else) without
`__getattr__`, a wrapper with its instance and class attributes, a dictionary of
properties, or some other value. -/
inductive PyOb where
  | comp (attr : String → Except Err PyOb)
  | wrap (k : WrapperKind) (inst cls : List (String × PyOb))
  | dict (d : PropDict)
  | other (s : String)

/-- The attribute a wrapper keeps its component in (wrappers.py:69, 218; basic.py:408). -/
def slotOf : WrapperKind → String
  | .scaling => "_component"
  | .frequency => "component"
  | .differencing => "_implicit"

/-- An attribute of the instance or its class. -/
def ownAttr (inst cls : List (String × PyOb)) (item : String) : Except Err PyOb :=
  match Dict.get? inst item with
  | some v => .ok v
  | none =>
    match Dict.get? cls item with
    | some v => .ok v
    | none => .error .attributeError

/-- `TimeDifferencingWrapper.tendency_properties` (basic.py:381-387) of what is found as
`output_properties`; only a dictionary has `items`. -/
def tendenciesOf : PyOb → Except Err PyOb
  | .dict d => differencingProps d >>= fun p => .ok (.dict p)
  | _ => .error .attributeError

/-- The ordinary lookup (`object.__getattribute__`); properties of
TimeDifferencingWrapper are found before instance attributes (basic.py:377-391,
base_components.py:996-998). -/
def findAttr (look : PyOb → String → Except Err PyOb) (x : PyOb) (item : String) : Except Err PyOb :=
  match x with
  | .comp f => f item
  | .dict _ => .error .attributeError
  | .other _ => .error .attributeError
  | .wrap .differencing inst cls =>
    if item = "input_properties" ∨ item = "diagnostic_properties" then
      look (.wrap .differencing inst cls) "_implicit" >>= fun c => look c item
    else if item = "tendency_properties" then
      look (.wrap .differencing inst cls) "_implicit" >>= fun c => look c "output_properties" >>= tendenciesOf
    else if item = "tendencies_in_diagnostics" then
      look (.wrap .differencing inst cls) "_tendencies_in_diagnostics"
    else ownAttr inst cls item
  | .wrap _ inst cls => ownAttr inst cls item

/-- `__getattr__` (wrappers.py:118-119, 255-256, basic.py:444-448) -/
def getattrHook (look : PyOb → String → Except Err PyOb) (x : PyOb) (item : String) : Except Err PyOb :=
  match x with
  | .wrap k inst cls =>
    if k = .differencing ∧ (item = "outputs" ∨ item = "output_properties") then .error .attributeError
    else look (.wrap k inst cls) (slotOf k) >>= fun c => look c item
  | _ => .error .attributeError

/-- `getattr(x, item)` with room for `n` nested lookups. -/
def getAttr : Nat → PyOb → String → Except Err PyOb
  | 0, _, _ => .error .runtimeError
  | n + 1, x, item =>
    match findAttr (getAttr n) x item with
    | .error .attributeError => getattrHook (getAttr n) x item
    | r => r

/-- `hasattr(x, item)`: exceptions other than AttributeError pass through. -/
def hasAttr (n : Nat) (x : PyOb) (item : String) : Except Err Bool :=
  match getAttr n x item with
  | .ok _ => .ok true
  | .error .attributeError => .ok false
  | .error e => .error e

/-- A ScalingWrapper around `c` (wrappers.py:69-108) with the scale factors `i`, `d`, `o`
and `t`. -/
def scalingOb (c i d o t : PyOb) : PyOb :=
  .wrap .scaling
    [("_component", c), ("_input_scale_factors", i), ("_diagnostic_scale_factors", d), ("_output_scale_factors", o),
      ("_tendency_scale_factors", t)]
    [("_ensure_fields_have_properties", .other "method"), ("__call__", .other "method")]

/-- An UpdateFrequencyWrapper around `c` (wrappers.py:218-221) -/
def updateOb (c : PyOb) (delta : String) : PyOb :=
  .wrap .frequency
    [("component", c), ("_update_timedelta", .other delta), ("_cached_output", .other "None"),
      ("_last_update_time", .other "None")]
    [("__call__", .other "method")]

/-- A TimeDifferencingWrapper around `c` (basic.py:408): its `__init__` does not call
that of ImplicitTendencyComponent, whose class attributes (base_components.py:934-936)
are found first. -/
def differencingOb (c : PyOb) : PyOb :=
  .wrap .differencing [("_implicit", c)]
    [("name", .other "None"), ("uses_tracers", .other "False"), ("tracer_tendency_time_unit", .other "s^-1"),
      ("__call__", .other "method"), ("array_call", .other "method")]

/-- The names `object.__reduce_ex__` looks for on the instance (the last before Python
3.11). -/
def reduceNames : List String := ["__getnewargs_ex__", "__getnewargs__", "__getstate__"]

/-- None of the names is found on `x`; objects that have them are not modelled. -/
def noneFound (n : Nat) (x : PyOb) : List String → Except Err Unit
  | [] => .ok ()
  | a :: as => hasAttr n x a >>= fun b => if b then .error .usage else noneFound n x as

/-- `copy.copy(x)`, and `pickle.loads(pickle.dumps(x))` as far as lookups go: what to
copy is asked of `x`, then a new instance without instance attributes is asked for
`__setstate__`, then its dictionary is filled. -/
def copyOb (n : Nat) : PyOb → Except Err PyOb
  | .wrap k inst cls =>
    noneFound n (.wrap k inst cls) reduceNames >>= fun _ =>
    hasAttr n (.wrap k [] cls) "__setstate__" >>= fun b =>
    if b then .error .usage else .ok (.wrap k inst cls)
  | x => .ok x

end Verif
