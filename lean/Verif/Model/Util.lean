import Verif.Model.DataArray
/-!
# `sympl/_core/util.py`

`get_numpy_array`, `restore_dimensions` and the small helpers of util.py.
Coordinates are not modelled, so `len(a.coords[name])` is the length of the
dimension `name` (xarray supplies a default coordinate for every dimension).
-/

namespace Verif

/-- `xr.DataArray.transpose(*order)`: no arguments reverse the dims; ValueError
unless the names given are exactly the dims of the array. -/
def DataArray.transposeDims (a : DataArray) (order : List String) : Except Err DataArray :=
  let order' := if order = [] then a.dims.reverse else order
  if order'.isPerm a.dims then
    a.arr.transpose (order'.map a.dims.idxOf) >>= fun arr =>
    .ok { dims := order', arr := arr, attrs := a.attrs }
  else .error .valueError

/-- First loop of `get_input_array_dim_names` (util.py:252-264), with
`dim_names[direction] = [direction]` as set up by both callers
(util.py:82-85, 156-159). -/
def dimNamesLoop (dims : List String) : List String → Dict (List String) →
    Except Err (Dict (List String))
  | [], out => .ok out
  | dir :: rest, out =>
    if dir = "*" then dimNamesLoop dims rest out
    else
      let names := dims.filter (fun d => d = dir)
      if dir ∉ ["x", "y", "z", "*"] ∧ names = [] then .error .noMatchForDirection
      else dimNamesLoop dims rest (out.set dir names)

/-- `get_input_array_dim_names` (util.py:234-272) -/
def inputArrayDimNames (dims outDims : List String) : Except Err (Dict (List String)) :=
  dimNamesLoop dims outDims [] >>= fun out =>
  if "*" ∈ outDims then
    .ok (out.set "*" (dims.filter fun d => d ∉ out.flatMap (·.2)))
  else .ok out

/-- `same_list` (util.py:188-192) -/
def sameList (l1 l2 : List String) : Bool :=
  decide (l1.length = l2.length) && l1.all (fun x => l2.contains x) && l2.all (fun x => l1.contains x)

/-- The loop over `require_wildcard_matches` (util.py:88-99). -/
def requireMatches (req : Dict (List String)) :
    List String → Dict (List String) → Except Err (Dict (List String))
  | [], names => .ok names
  | dir :: rest, names =>
    match req.get? dir with
    | none => requireMatches req rest names
    | some r =>
      names.get dir >>= fun n =>
      requireMatches req rest (if sameList n r then names.set dir r else names)

/-- `get_target_dimension_order` (util.py:275-285) -/
def targetOrder (outDims : List String) (names : Dict (List String)) : Except Err (List String) :=
  outDims.mapM (fun d => names.get d) >>= fun l => .ok l.flatten

/-- Shape contributed by one direction to `values[tuple(slices_or_none)]`
(util.py:288-310): a length-1 axis for None, else the named axes; ValueError if a
direction other than `*` has several names. -/
def sliceShape (a : DataArray) (names : Dict (List String)) (dir : String) : Except Err (List Nat) :=
  names.get dir >>= fun ns =>
  if ns = [] then .ok [1]
  else if dir ≠ "*" ∧ ns.length > 1 then .error .valueError
  else .ok (ns.map a.len)

/-- One entry of `get_final_shape` (util.py:313-328) -/
def finalLen (a : DataArray) (names : Dict (List String)) (dir : String) : Except Err Nat :=
  names.get dir >>= fun ns => .ok (if ns = [] then 1 else size (ns.map a.len))

/-- `get_numpy_array` (util.py:34-116), returning the wildcard matches too.
Indexing with None and full slices is modelled as a reshape inserting length-1
axes. -/
def utilGetNumpyArray (a : DataArray) (outDims : List String)
    (req : Option (Dict (List String))) : Except Err (NDArray × Option (List String)) :=
  if a.arr.shape.length = 0 ∧ outDims.length = 0 then .ok (a.arr, none)
  else
    inputArrayDimNames a.dims outDims >>= fun names0 =>
    (match req with
     | none => .ok names0
     | some r => requireMatches r outDims names0) >>= fun names =>
    targetOrder outDims names >>= fun target =>
    if a.dims.all (fun d => target.contains d) then
      outDims.mapM (sliceShape a names) >>= fun slices =>
      outDims.mapM (finalLen a names) >>= fun final =>
      a.transposeDims target >>= fun t =>
      t.arr.reshape slices.flatten >>= fun v =>
      v.reshape final >>= fun r =>
      .ok (r, names.get? "*")
    else .error .dimNotInOutDims

/-- The names collected by the loop of `restore_dimensions`
(util.py:165-170). -/
def originalDims (fromDims : List String) (names : Dict (List String)) : List String :=
  fromDims.flatMap fun d => (names.get? d).getD []

/-- `restore_dimensions` (util.py:119-180).  Constructing the intermediate
DataArray raises ValueError on repeated dims in `transpose`. -/
def restoreDimensions (arr : NDArray) (fromDims : List String) (like : DataArray)
    (attrs : Option (Dict String)) : Except Err DataArray :=
  inputArrayDimNames like.dims fromDims >>= fun names =>
  let odims := originalDims fromDims names
  let oshape := odims.map like.len
  if size arr.shape ≠ size oshape then .error .shapeMismatch
  else
    arr.reshape oshape >>= fun v =>
    DataArray.mk' v odims [] >>= fun d =>
    d.transposeDims like.dims >>= fun t =>
    .ok (match attrs with | some at' => { t with attrs := at' } | none => t)

/-- `update_dict_by_adding_another` for DataArray values (util.py:195-220), as a
pure function: in-place addition and the fallback `dict1[key] + ...` give the same
value.  Simplification: xarray's in-place addition of an operand whose dims are
in a different order gives the dims of the left operand, as does `+`. -/
def addInto (R : Registry) : Dict DataArray → Dict DataArray → Except Err (Dict DataArray)
  | [], d1 => .ok d1
  | (k, v) :: rest, d1 =>
    match d1.get? k with
    | none => addInto R rest (d1.set k v)
    | some w =>
      match w.attrs.get? "units", v.attrs.get? "units" with
      | some u, some _ =>
        v.toUnits R u >>= fun v' =>
        w.add v' >>= fun s => addInto R rest (d1.set k s)
      | _, _ => .error .invalidState

/-- `ensure_no_shared_keys` (util.py:223-231) -/
def ensureNoSharedKeys {α β : Type} (d1 : Dict α) (d2 : Dict β) : Except Err Unit :=
  if d1.keys.any (fun k => d2.keys.contains k) then .error .sharedKey else .ok ()

/-- Inner loop of `get_component_aliases` (util.py:359-361) -/
def collectAliases : PropDict → Dict String → Dict String
  | [], out => out
  | (name, p) :: rest, out =>
    match p.aliasName with
    | some al => collectAliases rest (out.set name al)
    | none => collectAliases rest out

/-- The property dictionaries of an object; `none` when it lacks the attribute. -/
structure HasProps where
  tendency : Option PropDict := none
  diagnostic : Option PropDict := none
  output : Option PropDict := none
  input : Option PropDict := none

/-- Loop over the components for one property type (util.py:356-361). -/
def aliasesOfType (sel : HasProps → Option PropDict) : List HasProps → Dict String → Dict String
  | [], out => out
  | c :: rest, out =>
    match sel c with
    | some p => aliasesOfType sel rest (collectAliases p out)
    | none => aliasesOfType sel rest out

/-- `get_component_aliases` (util.py:331-362) -/
def getComponentAliases (args : List HasProps) : Dict String :=
  aliasesOfType (·.input) args
    (aliasesOfType (·.output) args
      (aliasesOfType (·.diagnostic) args
        (aliasesOfType (·.tendency) args [])))

end Verif
