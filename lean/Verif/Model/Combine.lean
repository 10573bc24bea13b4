import Verif.Model.Components
/-!
# `sympl/_core/combine_properties.py`

The iteration order of a Python `set` of strings is unspecified (hashes are
randomised), so the functions below take it as a parameter `order`, a function that
permutes the deduplicated list it is given.

Simplification: dims are lists; a tuple and a list with the same entries compare
unequal in Python (`dims1 == dims2`) and are then combined as sets.
-/

namespace Verif

/-- An iteration order for sets of strings. -/
structure SetOrder where
  f : List String → List String
  perm : ∀ l, (f l).Perm l

/-- `set(l)`, as a list without duplicates, then `discard('*')`. -/
def dimSet (l : List String) : List String := l.eraseDups.filter (· ≠ "*")

/-- `set1 == set2` for lists without duplicates. -/
def sameSet (a b : List String) : Bool := a.all (· ∈ b) && b.all (· ∈ a)

/-- `combine_dims` (combine_properties.py:6-54).  `shared` is
`set(dims2).intersection(dims2)` as written, which is just `dims2`. -/
def combineDims (order : SetOrder) (d1 d2 : List String) : Except Err (List String) :=
  if d1 = d2 then .ok d1
  else
    let s1 := dimSet d1
    let s2 := dimSet d2
    let unmatched := order.f ((s1 ++ s2).eraseDups)
    let shared := s2.filter (· ∈ s2)
    if "*" ∈ d1 ∧ "*" ∈ d2 then .ok ("*" :: unmatched)
    else if "*" ∉ d1 ∧ "*" ∉ d2 then
      if !sameSet shared s1 || !sameSet shared s2 then .error .invalidPropertyDict else .ok unmatched
    else if "*" ∈ d1 then
      if !sameSet shared s2 then .error .invalidPropertyDict else .ok unmatched
    else
      if !sameSet shared s1 then .error .invalidPropertyDict else .ok unmatched

/-- `properties['dims']` or the dims of the input of the same name
(combine_properties.py:82-86, 95-100). -/
def combineEffDims (inProps : PropDict) (name : String) (p : QProps) : Option (List String) :=
  match p.dims with
  | some d => some d
  | none =>
    match inProps.get? name with
    | some ip => ip.dims
    | none => none

/-- Body of the inner loop of `combine_properties` (combine_properties.py:79-107). -/
def combineEntry (R : Registry) (order : SetOrder) (inProps : PropDict) (out : PropDict)
    (name : String) (p : QProps) : Except Err PropDict :=
  match out.get? name with
  | none =>
    match combineEffDims inProps name p with
    | some d => .ok (out.set name { p with dims := some d })
    | none => .error .invalidPropertyDict
  | some r =>
    match p.units, r.units with
    | some u, some v =>
      R.unitsAreCompatible u v >>= fun ok =>
      if !ok then .error .invalidPropertyDict
      else
        match combineEffDims inProps name p, r.dims with
        | some d, some rd =>
          combineDims order rd d >>= fun dims =>
          .ok (out.set name { r with dims := some dims })
        | none, _ => .error .invalidPropertyDict
        | some _, none => .error .keyError
    | _, _ => .error .keyError

/-- Inner loop of `combine_properties`. -/
def combineDict (R : Registry) (order : SetOrder) (inProps : PropDict) :
    PropDict → PropDict → Except Err PropDict
  | [], out => .ok out
  | (n, p) :: rest, out => combineEntry R order inProps out n p >>= combineDict R order inProps rest

/-- Outer loop of `combine_properties` (combine_properties.py:76-108). -/
def combineLoop (R : Registry) (order : SetOrder) (inProps : PropDict) :
    List PropDict → PropDict → Except Err PropDict
  | [], out => .ok out
  | d :: rest, out => combineDict R order inProps d out >>= combineLoop R order inProps rest

/-- `combine_properties` (combine_properties.py:73-108). -/
def combineProperties (R : Registry) (order : SetOrder) (l : List PropDict) (inProps : PropDict := []) :
    Except Err PropDict := combineLoop R order inProps l []

/-- The input properties a component contributes: its own, and those of the tracers
if it uses them (combine_properties.py:57-70).  AttributeError/TypeError of a missing
`tracer_dims` as in `list(component.tracer_dims)`. -/
def inputContribution (g : Tracers) (c : Class) : Except Err (List PropDict) :=
  if c.usesTracers then
    match c.tracerDims with
    | none => .error (if c.kind = .stepper then .typeError else .attributeError)
    | some td =>
      if "tracer" ∉ td then .error .invalidPropertyDict
      else .ok [c.inProps, tracerProps g c.prepend (td.erase "tracer")]
  else .ok [c.inProps]

/-- `combine_component_properties(components, 'input_properties')`
(combine_properties.py:57-70). -/
def combineInputs (R : Registry) (order : SetOrder) (g : Tracers) (cs : List Class) : Except Err PropDict :=
  cs.mapM (inputContribution g) >>= fun ls => combineProperties R order ls.flatten

/-- `combine_component_properties(components, 'tendency_properties', input_properties)`. -/
def combineTendencies (R : Registry) (order : SetOrder) (cs : List Class) (inProps : PropDict) :
    Except Err PropDict :=
  combineProperties R order (cs.map (·.outProps)) inProps

end Verif
