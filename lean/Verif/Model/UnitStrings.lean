import Verif.Model.DataArray
/-!
# The signs `%` and `°` in unit strings (`sympl/_core/units.py`)

The rest of the model reads unit strings with one function.  In the code
`unit_registry(s)` replaces `%` and `°` before pint reads `s` (units.py:7-13), but
`.to(s)` and `unit_registry.Quantity(x, s)` give `s` to pint as it is.  Here pint's own
reading is a parameter, and the functions of units.py and dataarray.py use it where the
code does.

Simplification: whatever pint raises for a string it cannot read is UndefinedUnitError.
-/

namespace Verif

/-- pint: how it reads a string, and the base units' text for a string it can read. -/
structure Pint where
  raw : String → Option PintUnit
  clean : String → String

/-- `s.replace(sign, word)` for a sign of one character. -/
def replaceSign (sign : Char) (word s : String) : String :=
  String.ofList (s.toList.flatMap fun c => if c = sign then word.toList else [c])

/-- `input_string.replace('%', 'percent').replace('°', 'degree')` (units.py:9-12, 66-68) -/
def spellOut (s : String) : String := replaceSign '°' "degree" (replaceSign '%' "percent" s)

namespace Pint

/-- pint reads the string itself. -/
def own (P : Pint) (s : String) : Except Err PintUnit :=
  match P.raw s with
  | some u => .ok u
  | none => .error .undefinedUnit

/-- `unit_registry(s)` (units.py:7-13) -/
def call (P : Pint) (s : String) : Except Err PintUnit := P.own (spellOut s)

/-- The registry of the rest of the model. -/
def registry (P : Pint) : Registry := ⟨fun s => P.raw (spellOut s), fun s => P.clean (spellOut s)⟩

/-- `units_are_compatible` (units.py:22-40) -/
def unitsAreCompatible (P : Pint) (u1 u2 : String) : Except Err Bool :=
  P.call u1 >>= fun a =>
  P.own u2 >>= fun b =>
  .ok (decide (a.dim = b.dim))

/-- `units_are_same` (units.py:43-57) -/
def unitsAreSame (P : Pint) (u1 u2 : String) : Except Err Bool :=
  P.call u1 >>= fun a =>
  P.call u2 >>= fun b =>
  .ok (a.sameQty b)

/-- `clean_units` (units.py:60-61) -/
def cleanUnits (P : Pint) (u : String) : Except Err String :=
  P.call u >>= fun _ => .ok (P.clean (spellOut u))

/-- `is_valid_unit` (units.py:64-74) -/
def isValidUnit (P : Pint) (u : String) : Bool :=
  match P.call (spellOut u) with
  | .ok _ => true
  | .error _ => false

/-- `data_array_to_units` (units.py:77-86) -/
def dataArrayToUnits (P : Pint) (v : DataArray) (units : String) : Except Err DataArray :=
  match v.attrs.get? "units" with
  | none => .error .typeError
  | some mine =>
    P.call mine >>= fun a =>
    P.call units >>= fun b =>
    if a.sameQty b then .ok v
    else
      P.own mine >>= fun a =>
      P.own units >>= fun b =>
      if a.dim = b.dim then
        .ok { v with arr := v.arr.map (a.convert b), attrs := v.attrs.set "units" units }
      else .error .dimensionality

/-- `DataArray.to_units` (dataarray.py:24-54) -/
def toUnits (P : Pint) (v : DataArray) (units : String) : Except Err DataArray :=
  match v.attrs.get? "units" with
  | none => .error .keyError
  | some _ =>
    match P.dataArrayToUnits v units with
    | .error .dimensionality => .error .valueError
    | r => r

/-- `from_unit_to_another` (units.py:89-90); see `Registry.fromUnitToAnother`. -/
def fromUnitToAnother (P : Pint) (value : Rat) (orig new : String) : Except Err Rat :=
  P.call orig >>= fun a =>
  if a.offset ≠ 0 then .error .typeError else
  P.own new >>= fun b =>
  if a.dim ≠ b.dim then .error .dimensionality else
  .ok (a.convert b value)

end Pint

end Verif
