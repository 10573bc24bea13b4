import Verif.Model.SteppersOver
/-!
# DataArrays with elements of any type (`sympl/_core/dataarray.py`, `units.py`)

`Verif/Model/DataArray.lean` has rational elements.  Here the elements are of any type `F`, with
any operations on them: floating-point numbers that are rounded, infinities, NaN, masked elements.
The time steppers of `Verif/Model/SteppersOver.lean` over these arrays compute what the code computes
with elements of that type.  With rational elements and exact operations they are those of
`Verif/Model/TimeSteppers.lean` (`exactElem_stand` in `Verif/Props/Confined.lean`).

Not modelled: coordinates, names; that an operation may change the type of the elements.
-/

namespace Verif

/-- The operations of numpy on elements. -/
structure Elem (F : Type) where
  /-- `x + y` -/
  add : F → F → F
  /-- `x - y` -/
  sub : F → F → F
  /-- `c * x` for a float `c` of the code -/
  mulc : Rat → F → F
  /-- `x / c * 1.` -/
  divc : Rat → F → F
  /-- `Quantity(x, u).to(v).magnitude` -/
  conv : PintUnit → PintUnit → F → F

/-- A DataArray with elements of type `F`. -/
structure ElemArray (F : Type) where
  dims : List String
  shape : List Nat
  get : List Nat → F
  attrs : Dict String

namespace ElemArray
variable {F : Type}

/-- Value at named coordinates. -/
def at' (a : ElemArray F) (ix : String → Nat) : F := a.get (a.dims.map ix)

/-- Length of a named dimension (`a.sizes[d]`), 0 if absent. -/
def len (a : ElemArray F) (d : String) : Nat := DataArray.named a.dims a.shape d

/-- A function applied to every element. -/
def map (f : F → F) (a : ElemArray F) : ElemArray F := { a with get := fun idx => f (a.get idx) }

/-- xarray binary operation: dims of the left operand followed by the unseen
dims of the right one; ValueError if a shared dimension has different lengths. -/
def binop (f : F → F → F) (a b : ElemArray F) : Except Err (ElemArray F) :=
  let dims := a.dims ++ b.dims.filter (fun d => d ∉ a.dims)
  if ∀ d ∈ b.dims, d ∈ a.dims → b.len d = a.len d then
    .ok { dims := dims
          shape := dims.map (fun d => if d ∈ a.dims then a.len d else b.len d)
          get := fun idx => f (a.at' (DataArray.named dims idx)) (b.at' (DataArray.named dims idx))
          attrs := a.attrs }
  else .error .valueError

/-- `data_array_to_units` (units.py:77-86). -/
def dataArrayToUnits (R : Registry) (E : Elem F) (v : ElemArray F) (units : String) : Except Err (ElemArray F) :=
  match v.attrs.get? "units" with
  | none => .error .typeError
  | some own =>
    R.unit own >>= fun a =>
    R.unit units >>= fun b =>
    if a.sameQty b then .ok v
    else if a.dim = b.dim then .ok { v.map (E.conv a b) with attrs := v.attrs.set "units" units }
    else .error .dimensionality

/-- `DataArray.to_units` (dataarray.py:24-54). -/
def toUnits (R : Registry) (E : Elem F) (v : ElemArray F) (units : String) : Except Err (ElemArray F) :=
  match v.attrs.get? "units" with
  | none => .error .keyError
  | some _ =>
    match dataArrayToUnits R E v units with
    | .error .dimensionality => .error .valueError
    | r => r

end ElemArray

/-- The operations of DataArrays with such elements (dataarray.py:10-22; `a += b`: ValueError if `b` has a
dimension that `a` lacks). -/
def elemArith {F : Type} (R : Registry) (E : Elem F) : Arith (ElemArray F) where
  add := ElemArray.binop E.add
  sub := ElemArray.binop E.sub
  iadd a b := if ∀ d ∈ b.dims, d ∈ a.dims then ElemArray.binop E.add a b else .error .valueError
  smul c a := { a.map (E.mulc c) with attrs := [] }
  divide a c := { a.map (E.divc c) with attrs := [] }
  toUnits := ElemArray.toUnits R E
  attrs a := a.attrs
  setAttrs a m := { a with attrs := m }
  isContainer _ := true

/-! ## Composites of components over any arrays -/

/-- `update_dict_by_adding_another` (util.py:195-220); as in `addInto` of `Verif/Model/Util.lean`, addition in
place and the fallback `dict1[key] + ...` give the same value. -/
def addIntoO {V : Type} (A : Arith V) : Dict V → Dict V → Except Err (Dict V)
  | [], d1 => .ok d1
  | (k, v) :: rest, d1 =>
    match d1.get? k with
    | none => addIntoO A rest (d1.set k v)
    | some w =>
      match (A.attrs w).get? "units", (A.attrs v).get? "units" with
      | some u, some _ =>
        A.toUnits v u >>= fun v' => A.add w v' >>= fun s => addIntoO A rest (d1.set k s)
      | _, _ => .error .invalidState

/-- The loop of the tendency composites' `__call__` (composite.py:158-164, 229-241). -/
def compositeLoopO {V σ : Type} (A : Arith V) :
    List (σ → σ × Except Err (Dict V × Dict V)) → σ → Dict V → Dict V → σ × Except Err (Dict V × Dict V)
  | [], s, t, d => (s, .ok (t, d))
  | f :: fs, s, t, d =>
    match (f s).2 with
    | .error e => ((f s).1, .error e)
    | .ok r =>
      match addIntoO A r.1 t with
      | .error e => ((f s).1, .error e)
      | .ok t' => compositeLoopO A fs (f s).1 t' (d.update r.2)

/-- `ImplicitTendencyComponentComposite.__call__` (composite.py:205-241): a component that takes no timestep
ignores it. -/
def compositeO {V σ : Type} (A : Arith V) (cs : List (ProgOver σ V)) : ProgOver σ V := fun s state dt =>
  compositeLoopO A (cs.map fun p s => p s state dt) s [] []

end Verif
