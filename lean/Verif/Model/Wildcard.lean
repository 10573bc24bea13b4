import Verif.Model.DataArray
/-!
# Wildcard dims and raw arrays

`sympl/_core/wildcard.py`, `sympl/_core/backend.py` (default backend),
`sympl/_core/get_np_arrays.py`, `sympl/_core/restore_dataarray.py`,
`sympl/_core/init_np_arrays.py` (without the tracer part, which is in
`Verif/Model/Tracers.lean`).
-/

namespace Verif

/-- `ensure_properties_have_dims_and_units` (wildcard.py:101-109), returning the
dims and units it checked for. -/
def ensureDimsUnits (p : QProps) : Except Err (List String × String) :=
  match p.dims, p.units with
  | none, _ => .error .invalidPropertyDict
  | some _, none => .error .invalidPropertyDict
  | some d, some u => .ok (d, u)

/-- Inner loop over one quantity's dims (wildcard.py:16-23). -/
def learnLens : List (String × Nat) → Dict Nat → Except Err (Dict Nat)
  | [], lens => .ok lens
  | (d, n) :: rest, lens =>
    match lens.get? d with
    | none => learnLens rest (lens.set d n)
    | some m => if n ≠ m then .error .invalidState else learnLens rest lens

/-- Loop of `get_wildcard_matches_and_dim_lengths` (wildcard.py:12-35) with
the accumulators `wildcard_names` and `dim_lengths`. -/
def matchLoop (state : State) : PropDict → List String → Dict Nat →
    Except Err (List String × Dict Nat)
  | [], wild, lens => .ok (wild, lens)
  | (name, p) :: rest, wild, lens =>
    ensureDimsUnits p >>= fun du =>
    state.da name >>= fun a =>
    learnLens (a.dims.zip a.arr.shape) lens >>= fun lens' =>
    let new := a.dims.filter (fun d => d ∉ du.1)
    if new ≠ [] ∧ "*" ∉ du.1 then .error .invalidState
    else matchLoop state rest (wild ++ new.filter (fun d => d ∉ wild)) lens'

/-- `"dims" in p.keys() and "*" in p["dims"]` (wildcard.py:37) -/
def hasStar (p : QProps) : Bool :=
  match p.dims with
  | some d => decide ("*" ∈ d)
  | none => false

/-- `get_wildcard_matches_and_dim_lengths` (wildcard.py:7-44); the names are
`none` (Python None) when no dims list has a wildcard. -/
def getWildcard (state : State) (props : PropDict) :
    Except Err (Option (List String) × Dict Nat) :=
  matchLoop state props [] [] >>= fun r =>
  if props.any (fun kv => hasStar kv.2)
  then .ok (some r.1, r.2)
  else .ok (none, r.2)

/-- `flatten_wildcard_dims` (wildcard.py:47-69) -/
def flattenWildcardDims (a : NDArray) (iStart iEnd : Nat) : Except Err NDArray :=
  if iEnd > a.shape.length then .error .valueError
  else if iStart > iEnd then .error .valueError
  else if iStart = iEnd then a.reshape (a.shape.take iStart ++ [1] ++ a.shape.drop iStart)
  else a.reshape (a.shape.take iStart ++ [size ((a.shape.take iEnd).drop iStart)] ++
    a.shape.drop iEnd)

/-- `dim_to_axis = {dim: i for i, dim in enumerate(current_dims)}`
(backend.py:133) -/
def dimToAxis (dims : List String) : Dict Nat :=
  dims.zipIdx.foldl (fun d ni => d.set ni.1 ni.2) []

/-- `dim_to_axis[dim]`, with the KeyError turned into ValueError
(backend.py:134-142) -/
def axisOf (dims : List String) (d : String) : Except Err Nat :=
  match (dimToAxis dims).get? d with
  | some i => .ok i
  | none => .error .valueError

/-- `DataArrayBackend._get_numpy_array` (backend.py:108-164); identical to
`get_numpy_array` in get_np_arrays.py:39-96. -/
def getNumpyArray (a : DataArray) (outDims : List String) (lens : Dict Nat) :
    Except Err NDArray :=
  if a.arr.shape.length = 0 ∧ outDims.length = 0 then .ok a.arr
  else if a.dims = outDims then .ok a.arr
  else
    let missing := outDims.filter (fun d => d ∉ a.dims)
    (if missing ≠ [] then
      a.arr.reshape (List.replicate missing.length 1 ++ a.arr.shape) >>= fun v =>
      .ok (v, missing.reverse ++ a.dims)
     else .ok (a.arr, a.dims)) >>= fun vc =>
    let values := vc.1
    let current := vc.2
    let extra := current.filter (fun d => d ∉ outDims)
    let target := outDims ++ extra
    (if current = target then .ok values
     else
      target.mapM (axisOf current) >>= fun axes =>
      values.transpose axes) >>= fun arr =>
    if missing = [] then .ok arr
    else
      let outShape := outDims.map (fun n => (lens.get? n).getD 1) ++
        arr.shape.drop outDims.length
      if outShape = arr.shape then .ok arr else arr.broadcastTo outShape

/-- `DataArrayBackend.get_array` (backend.py:75-86, 103-107) -/
def getArray (R : Registry) (a : DataArray) (units : String) (outDims : List String)
    (lens : Dict Nat) : Except Err NDArray :=
  match a.attrs.get? "units" with
  | none => .error .invalidState
  | some _ =>
    match a.toUnits R units with
    | .error .valueError => .error .invalidState
    | .error e => .error e
    | .ok q => getNumpyArray q outDims lens

/-- One iteration of the loop of `get_numpy_arrays_with_properties`
(get_np_arrays.py:15-35): the raw array and the key it is stored under. -/
def rawInput (R : Registry) (state : State) (wild : List String) (lens : Dict Nat)
    (name : String) (p : QProps) : Except Err (String × NDArray) :=
  ensureDimsUnits p >>= fun du =>
  state.da name >>= fun a =>
  (if "*" ∈ du.1 then
    let i := du.1.idxOf "*"
    let outDims := du.1.take i ++ wild ++ du.1.drop (i + 1)
    getArray R a du.2 outDims lens >>= fun arr =>
    flattenWildcardDims arr i (i + wild.length)
   else getArray R a du.2 du.1 lens) >>= fun arr =>
  .ok (p.aliasName.getD name, arr)

/-- Loop of `get_numpy_arrays_with_properties` (get_np_arrays.py:15-35).
`wild` is only read when a dims list has a wildcard, in which case the matched
names are not None. -/
def rawInputs (R : Registry) (state : State) (wild : List String) (lens : Dict Nat) :
    PropDict → Dict NDArray → Except Err (Dict NDArray)
  | [], out => .ok out
  | (name, p) :: rest, out =>
    rawInput R state wild lens name p >>= fun r =>
    rawInputs R state wild lens rest (out.set r.1 r.2)

/-- `get_numpy_arrays_with_properties` (get_np_arrays.py:8-36) -/
def getNumpyArrays (R : Registry) (state : State) (props : PropDict) :
    Except Err (Dict NDArray) :=
  getWildcard state props >>= fun wl =>
  rawInputs R state (wl.1.getD []) wl.2 props []

/-! ## Restoring DataArrays -/

/-- `get_alias_or_name` (restore_dataarray.py:18-25); called only with
`name in output_properties`. -/
def getAliasOrName (name : String) (outProps inProps : PropDict) : String :=
  match (outProps.get? name).bind (·.aliasName) with
  | some al => al
  | none =>
    match (inProps.get? name).bind (·.aliasName) with
    | some al => al
    | none => name

/-- `extract_output_dims_properties` (restore_dataarray.py:140-157) -/
def extractOutDims (inProps : PropDict) (ignore : List String) :
    PropDict → Dict (List String) → Except Err (Dict (List String))
  | [], out => .ok out
  | (name, p) :: rest, out =>
    if name ∈ ignore then extractOutDims inProps ignore rest out
    else match p.dims with
      | some d => extractOutDims inProps ignore rest (out.set name d)
      | none =>
        match inProps.get? name with
        | none => .error .invalidPropertyDict
        | some ip =>
          match ip.dims with
          | none => .error .invalidPropertyDict
          | some d => extractOutDims inProps ignore rest (out.set name d)

/-- `check_array_shape` (restore_dataarray.py:28-43) -/
def checkArrayShape (outDims : List String) (shape : List Nat) (lens : Dict Nat) :
    Except Err Unit :=
  if outDims.length ≠ shape.length then .error .invalidPropertyDict
  else if ∀ dn ∈ outDims.zip shape, ∀ m, lens.get? dn.1 = some m → m = dn.2 then .ok ()
  else .error .invalidPropertyDict

/-- The loop at restore_dataarray.py:117-119: lengths of unknown named dims are
taken from the raw array. -/
def learnOutLens : List (String × Nat) → Dict Nat → Dict Nat
  | [], lens => lens
  | (d, n) :: rest, lens =>
    if d ∉ lens.keys ∧ d ≠ "*" then learnOutLens rest (lens.set d n)
    else learnOutLens rest lens

/-- `fill_dims_wildcard` with `expand_wildcard=True` (wildcard.py:72-85): only
the first `*` is the wildcard; any other entry is looked up in `dim_lengths`. -/
def fillDims (outDims : List String) (lens : Dict Nat) (wild : List String) :
    Except Err (List String × List Nat) :=
  let i := outDims.idxOf "*"
  let dims := outDims.take i ++ wild ++ outDims.drop (i + 1)
  dims.mapM (fun d => lens.get d) >>= fun shape => .ok (dims, shape)

/-- One iteration of the loop of `restore_data_arrays_with_properties`
(restore_dataarray.py:112-136).  Returns the updated `dim_lengths` too. -/
def restoreOne (raw : Dict NDArray) (outProps inProps : PropDict)
    (wild : Option (List String)) (lens : Dict Nat) (name : String) (outDims : List String) :
    Except Err (DataArray × Dict Nat) :=
  let rawName := getAliasOrName name outProps inProps
  raw.get rawName >>= fun a =>
  (if "*" ∈ outDims then
    let lens' := learnOutLens (outDims.zip a.shape) lens
    match wild with
    | none =>
      (outDims.take (outDims.idxOf "*")).mapM (fun d => lens'.get d) >>= fun _ =>
      .error .typeError
    | some w =>
      fillDims outDims lens' w >>= fun ds =>
      match a.reshape ds.2 with
      | .error _ => .error .invalidPropertyDict
      | .ok arr => .ok (ds.1, arr, lens')
   else
    checkArrayShape outDims a.shape lens >>= fun _ => .ok (outDims, a, lens)) >>= fun r =>
  match (outProps.get? name).bind (·.units) with
  | none => .error .keyError
  | some units => DataArray.mk' r.2.1 r.1 [("units", units)] >>= fun da => .ok (da, r.2.2)

/-- Loop of `restore_data_arrays_with_properties`. -/
def restoreLoop (raw : Dict NDArray) (outProps inProps : PropDict)
    (wild : Option (List String)) (ignore : List String) :
    Dict (List String) → Dict Nat → Dict DataArray → Except Err (Dict DataArray)
  | [], _, out => .ok out
  | (name, d) :: rest, lens, out =>
    if name ∈ ignore then restoreLoop raw outProps inProps wild ignore rest lens out
    else
      restoreOne raw outProps inProps wild lens name d >>= fun r =>
      restoreLoop raw outProps inProps wild ignore rest r.2 (out.set name r.1)

/-- `restore_data_arrays_with_properties` (restore_dataarray.py:46-137).
`ensure_values_are_arrays` is the identity here: raw values are arrays. -/
def restoreDataArrays (raw : Dict NDArray) (outProps : PropDict) (state : State)
    (inProps : PropDict) (ignoreNames : List String) (ignoreMissing : Bool) :
    Except Err (Dict DataArray) :=
  let ignore := if ignoreMissing
    then outProps.keys.filter (fun n => n ∉ raw.keys) ++ ignoreNames else ignoreNames
  getWildcard state inProps >>= fun wl =>
  extractOutDims inProps ignore outProps [] >>= fun dimsOf =>
  restoreLoop raw outProps inProps wl.1 ignore dimsOf wl.2 []

/-! ## Allocating output arrays -/

/-- Inner loop of `get_dim_lengths_from_raw_input` (init_np_arrays.py:69-77):
`properties['dims']` enumerated against `raw_input[name].shape[i]`
(IndexError if the array has fewer axes). -/
def learnRawLens : List String → List Nat → Dict Nat → Except Err (Dict Nat)
  | [], _, lens => .ok lens
  | _ :: _, [], _ => .error .indexError
  | d :: ds, n :: ns, lens =>
    match lens.get? d with
    | some m => if n ≠ m then .error .invalidState else learnRawLens ds ns lens
    | none => learnRawLens ds ns (lens.set d n)

/-- `get_dim_lengths_from_raw_input` (init_np_arrays.py:62-78).  Simplification:
a missing raw input is a KeyError even when its dims list is empty. -/
def rawDimLens (raw : Dict NDArray) : PropDict → Dict Nat → Except Err (Dict Nat)
  | [], lens => .ok lens
  | (name, p) :: rest, lens =>
    if p.tracer then rawDimLens raw rest lens
    else match p.dims with
      | none => .error .keyError
      | some d =>
        raw.get (p.aliasName.getD name) >>= fun a =>
        learnRawLens d a.shape lens >>= fun lens' => rawDimLens raw rest lens'

/-- Loop of `initialize_numpy_arrays_with_properties` (init_np_arrays.py:46-52);
`skip` are the tracer names left out when tracer_dims is given. -/
def initLoop (lens : Dict Nat) (skip : List String) :
    Dict (List String) → Dict NDArray → Except Err (Dict NDArray)
  | [], out => .ok out
  | (name, d) :: rest, out =>
    if name ∈ skip then initLoop lens skip rest out
    else
      d.mapM (fun x => lens.get x) >>= fun shape =>
      initLoop lens skip rest (out.set name (NDArray.zeros shape))

/-- `initialize_numpy_arrays_with_properties` (init_np_arrays.py:7-59).
`registered` is `get_tracer_names()`, `prepended` the prepended tracer names. -/
def initArrays (outProps : PropDict) (raw : Dict NDArray) (inProps : PropDict)
    (tracerDims : Option (List String)) (registered prepended : List String) :
    Except Err (Dict NDArray) :=
  rawDimLens raw inProps [] >>= fun lens =>
  extractOutDims inProps [] outProps [] >>= fun dimsOf =>
  let tracerNames := registered ++ prepended
  initLoop lens (if tracerDims.isSome then tracerNames else []) dimsOf [] >>= fun out =>
  match tracerDims with
  | none => .ok out
  | some td =>
    td.mapM (fun x => (lens.set "tracer" tracerNames.length).get x) >>= fun shape =>
    .ok (out.set "tracers" (NDArray.zeros shape))

end Verif
