import Verif.Model.NDArray
import Verif.Model.Units
/-!
# DataArrays and states (`sympl/_core/dataarray.py`, `units.py`, `state.py`)

`xarray.DataArray` is modelled by dims, values and attributes (string valued).
Not modelled: coordinates (so no index alignment in arithmetic), names, dtype.
-/

namespace Verif

structure DataArray where
  dims : List String
  arr : NDArray
  attrs : Dict String

namespace DataArray

/-- One name per axis and no repeated name (xarray's own invariant). -/
def WF (a : DataArray) : Prop := a.dims.length = a.arr.shape.length ∧ a.dims.Nodup

/-- Value at named coordinates. -/
def at' (a : DataArray) (ix : String → Nat) : Rat := a.arr.get (a.dims.map ix)

/-- Named coordinates within the bounds of the array. -/
def InBounds (a : DataArray) (ix : String → Nat) : Prop := InB (a.dims.map ix) a.arr.shape

/-- `xr.DataArray(data, dims=dims, attrs=attrs)`: ValueError if the number of
dims differs from the number of axes (xarray `as_compatible_data`/`Variable`). -/
def mk' (data : NDArray) (dims : List String) (attrs : Dict String) : Except Err DataArray :=
  if dims.length = data.shape.length then .ok { dims := dims, arr := data, attrs := attrs }
  else .error .valueError

/-- Position of each name in an index for `dims` (0 for absent names). -/
def named (dims : List String) (idx : List Nat) (d : String) : Nat := idx.getD (dims.idxOf d) 0

/-- Length of a named dimension (`a.sizes[d]`), 0 if absent. -/
def len (a : DataArray) (d : String) : Nat := named a.dims a.arr.shape d

/-- xarray binary operation: dims of the left operand followed by the unseen
dims of the right one; ValueError if a shared dimension has different lengths. -/
def binop (f : Rat → Rat → Rat) (a b : DataArray) : Except Err DataArray :=
  let dims := a.dims ++ b.dims.filter (fun d => d ∉ a.dims)
  if ∀ d ∈ b.dims, d ∈ a.dims → b.len d = a.len d then
    .ok { dims := dims
          arr := { shape := dims.map (fun d => if d ∈ a.dims then a.len d else b.len d)
                   get := fun idx => f (a.at' (named dims idx)) (b.at' (named dims idx)) }
          attrs := [] }
  else .error .valueError

/-- `DataArray.__add__` (dataarray.py:10-15): left attributes are kept. -/
def add (a b : DataArray) : Except Err DataArray :=
  binop (· + ·) a b >>= fun r => .ok { r with attrs := a.attrs }

/-- `DataArray.__sub__` (dataarray.py:17-22) -/
def sub (a b : DataArray) : Except Err DataArray :=
  binop (· - ·) a b >>= fun r => .ok { r with attrs := a.attrs }

/-- `scalar * array`; xarray drops attributes of the result by default. -/
def smul (c : Rat) (a : DataArray) : DataArray := { a with arr := a.arr.map (c * ·), attrs := [] }

/-- `data_array_to_units` (units.py:77-86). -/
def dataArrayToUnits (R : Registry) (v : DataArray) (units : String) : Except Err DataArray :=
  match v.attrs.get? "units" with
  | none => .error .typeError
  | some own =>
    R.unit own >>= fun a =>
    R.unit units >>= fun b =>
    if a.sameQty b then .ok v
    else if a.dim = b.dim then
      .ok { v with arr := v.arr.map (a.convert b), attrs := v.attrs.set "units" units }
    else .error .dimensionality

/-- `DataArray.to_units` (dataarray.py:24-54). -/
def toUnits (R : Registry) (v : DataArray) (units : String) : Except Err DataArray :=
  match v.attrs.get? "units" with
  | none => .error .keyError
  | some _ =>
    match dataArrayToUnits R v units with
    | .error .dimensionality => .error .valueError
    | r => r

end DataArray

/-- An entry of a state dictionary: a quantity or the model time. -/
inductive Val where
  | da (a : DataArray)
  | time (t : Int)

abbrev State := Dict Val

/-- `state[name]` used as a DataArray; KeyError if absent, AttributeError if it
is the model time (a datetime has no `dims`). -/
def State.da (s : State) (name : String) : Except Err DataArray :=
  match Dict.get? s name with
  | some (.da a) => .ok a
  | some (.time _) => .error .attributeError
  | none => .error .keyError

/-- `state['time']` as a time -/
def State.time (s : State) : Except Err Int :=
  match Dict.get? s "time" with
  | some (.time t) => .ok t
  | some (.da _) => .error .typeError
  | none => .error .keyError

/-- Properties of one quantity in a property dictionary.  Only the keys used by
the modelled functions are present; `none` means the key is absent. -/
structure QProps where
  dims : Option (List String) := none
  units : Option String := none
  aliasName : Option String := none
  tracer : Bool := false
  deriving DecidableEq, Inhabited

abbrev PropDict := Dict QProps

end Verif
