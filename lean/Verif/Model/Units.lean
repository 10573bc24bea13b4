import Verif.Py.Dict
/-!
# Units (`sympl/_core/units.py`)

pint is a parameter: a `Registry` gives the meaning of unit strings.
Not modelled: pint's expression parser, dimensionless prefixes, magnitudes in
unit strings, context conversions, and rounding.  `unit_registry(...)` replaces
`%` and `°` in its argument (units.py:7-13) while `Quantity.to` does not; the
model uses one `parse` for both (Model/UnitStrings distinguishes them, and
`unit_strings_partial` says when this makes no difference).
-/

namespace Verif

/-- Meaning of a unit string: exponents of the base dimensions and the affine
map to base units, `base = value * scale + offset` (offset ≠ 0 for degC, degF). -/
structure PintUnit where
  dim : List Int
  scale : Rat
  offset : Rat
  scale_pos : 0 < scale

/-- A pint unit registry: `parse` is `unit_registry(s)` (none: UndefinedUnitError)
and `clean` is `str(unit_registry(s).to_base_units().units)`. -/
structure Registry where
  parse : String → Option PintUnit
  clean : String → String

namespace PintUnit

/-- Value in base units. -/
def toBase (u : PintUnit) (x : Rat) : Rat := x * u.scale + u.offset

/-- `Quantity(x, u).to(v).magnitude` for dimensionally compatible units. -/
def convert (u v : PintUnit) (x : Rat) : Rat := (u.toBase x - v.offset) / v.scale

/-- `unit_registry(a) == unit_registry(b)`: pint compares the quantities `1 a`
and `1 b`, in base units if the dimensions agree. -/
def sameQty (u v : PintUnit) : Bool :=
  decide (u.dim = v.dim) && decide (u.toBase 1 = v.toBase 1)

end PintUnit

namespace Registry

/-- `unit_registry(s)` (units.py:5-16) -/
def unit (R : Registry) (s : String) : Except Err PintUnit :=
  match R.parse s with
  | some u => .ok u
  | none => .error .undefinedUnit

/-- `units_are_compatible` (units.py:22-40) -/
def unitsAreCompatible (R : Registry) (u1 u2 : String) : Except Err Bool :=
  R.unit u1 >>= fun a =>
  R.unit u2 >>= fun b =>
  .ok (decide (a.dim = b.dim))

/-- `units_are_same` (units.py:43-57) -/
def unitsAreSame (R : Registry) (u1 u2 : String) : Except Err Bool :=
  R.unit u1 >>= fun a =>
  R.unit u2 >>= fun b =>
  .ok (a.sameQty b)

/-- `clean_units` (units.py:60-61) -/
def cleanUnits (R : Registry) (u : String) : Except Err String :=
  R.unit u >>= fun _ => .ok (R.clean u)

/-- `is_valid_unit` (units.py:64-74) -/
def isValidUnit (R : Registry) (u : String) : Bool := (R.parse u).isSome

/-- `from_unit_to_another` (units.py:89-90).  `unit_registry(original)*value`
multiplies the quantity `1 original` by the value; for offset units pint raises
OffsetUnitCalculusError, modelled as a ValueError-free `Err.dimensionality`
(pint: OffsetUnitCalculusError is a PintTypeError). -/
def fromUnitToAnother (R : Registry) (value : Rat) (orig new : String) : Except Err Rat :=
  R.unit orig >>= fun a =>
  if a.offset ≠ 0 then .error .typeError else
  R.unit new >>= fun b =>
  if a.dim ≠ b.dim then .error .dimensionality else
  .ok (a.convert b value)

end Registry
end Verif
