import Verif.Model.Components
import Verif.Model.Wrappers
/-!
# Which memory `array_call` works on

The rest of the model gives `array_call` copies.  numpy does not: `transpose`, slices and most
calls of `reshape` return views on the memory of the array, so that `array_call` may change the
arrays of the state.  Here every array given to `array_call` says of which element of the
array in the state each of its elements is, if it is a view (`sympl/_core/get_np_arrays.py`,
`sympl/_core/backend.py`, `sympl/_core/wildcard.py`, `sympl/_core/units.py`,
`sympl/_core/tracers.py`, `sympl/_core/base_components.py`).

Simplification: whether `reshape` copies when it merges axes depends on the strides, which are not
modelled; `copies` says it for each quantity.
-/

namespace Verif

/-- A numpy array; `pos`: the element of the array in the state that each element is, `none` if the
array has memory of its own. -/
structure VArray where
  arr : NDArray
  pos : Option (List Nat → List Nat)

namespace VArray

/-- `array.reshape(shape)`: a view unless numpy must copy. -/
def reshape (copy : Bool) (v : VArray) (shape : List Nat) : Except Err VArray :=
  v.arr.reshape shape >>= fun b =>
  .ok ⟨b, if copy then none else v.pos.map fun p idx => p (unravel v.arr.shape (ravel shape idx))⟩

/-- `array.transpose(axes)`: always a view. -/
def transpose (v : VArray) (axes : List Nat) : Except Err VArray :=
  v.arr.transpose axes >>= fun b =>
  .ok ⟨b, v.pos.map fun p idx => p ((List.range v.arr.shape.length).map fun i => idx.getD (axes.idxOf i) 0)⟩

/-- `out = np.empty(shape); out[:] = array`: new memory. -/
def spread (v : VArray) (shape : List Nat) : Except Err VArray :=
  v.arr.broadcastTo shape >>= fun b => .ok ⟨b, none⟩

end VArray

/-- `flatten_wildcard_dims` (wildcard.py:47-69); axes are merged only if there are at least two. -/
def flattenWildcardDimsV (copy : Bool) (v : VArray) (iStart iEnd : Nat) : Except Err VArray :=
  if iEnd > v.arr.shape.length then .error .valueError
  else if iStart > iEnd then .error .valueError
  else if iStart = iEnd then v.reshape false (v.arr.shape.take iStart ++ [1] ++ v.arr.shape.drop iStart)
  else v.reshape (copy && decide (iStart + 1 < iEnd))
    (v.arr.shape.take iStart ++ [size ((v.arr.shape.take iEnd).drop iStart)] ++ v.arr.shape.drop iEnd)

/-- `DataArrayBackend._get_numpy_array` (backend.py:108-164): `values` is the memory of the
DataArray; the axes of length 1 that are put in front never need a copy. -/
def getNumpyArrayV (a : DataArray) (outDims : List String) (lens : Dict Nat) : Except Err VArray :=
  if a.arr.shape.length = 0 ∧ outDims.length = 0 then .ok ⟨a.arr, some id⟩
  else if a.dims = outDims then .ok ⟨a.arr, some id⟩
  else
    let missing := outDims.filter (fun d => d ∉ a.dims)
    (if missing ≠ [] then
      VArray.reshape false ⟨a.arr, some id⟩ (List.replicate missing.length 1 ++ a.arr.shape) >>= fun v =>
      .ok (v, missing.reverse ++ a.dims)
     else .ok (⟨a.arr, some id⟩, a.dims)) >>= fun vc =>
    let values := vc.1
    let current := vc.2
    let extra := current.filter (fun d => d ∉ outDims)
    let target := outDims ++ extra
    (if current = target then .ok values
     else
      target.mapM (axisOf current) >>= fun axes =>
      values.transpose axes) >>= fun v =>
    if missing = [] then .ok v
    else
      let outShape := outDims.map (fun n => (lens.get? n).getD 1) ++
        v.arr.shape.drop outDims.length
      if outShape = v.arr.shape then .ok v else v.spread outShape

/-- `unit_registry(own) != unit_registry(units)` (units.py:81): the array is converted, which
makes a new one. -/
def converted (R : Registry) (own units : String) : Bool :=
  match R.parse own, R.parse units with
  | some a, some b => !a.sameQty b
  | _, _ => true

/-- `DataArrayBackend.get_array` (backend.py:75-86, 103-107) -/
def getArrayV (R : Registry) (a : DataArray) (units : String) (outDims : List String)
    (lens : Dict Nat) : Except Err VArray :=
  match a.attrs.get? "units" with
  | none => .error .invalidState
  | some own =>
    match a.toUnits R units with
    | .error .valueError => .error .invalidState
    | .error e => .error e
    | .ok q => getNumpyArrayV q outDims lens >>= fun v =>
        .ok (if converted R own units then ⟨v.arr, none⟩ else v)

/-- One iteration of the loop of `get_numpy_arrays_with_properties` (get_np_arrays.py:15-35): the
key, the quantity and its array. -/
def rawInputV (R : Registry) (copies : String → Bool) (state : State) (wild : List String) (lens : Dict Nat)
    (name : String) (p : QProps) : Except Err (String × String × VArray) :=
  ensureDimsUnits p >>= fun du =>
  state.da name >>= fun a =>
  (if "*" ∈ du.1 then
    let i := du.1.idxOf "*"
    let outDims := du.1.take i ++ wild ++ du.1.drop (i + 1)
    getArrayV R a du.2 outDims lens >>= fun v =>
    flattenWildcardDimsV (copies name) v i (i + wild.length)
   else getArrayV R a du.2 du.1 lens) >>= fun v =>
  .ok (p.aliasName.getD name, name, v)

/-- Loop of `get_numpy_arrays_with_properties` (get_np_arrays.py:15-35) -/
def rawInputsV (R : Registry) (copies : String → Bool) (state : State) (wild : List String) (lens : Dict Nat) :
    PropDict → Dict (String × VArray) → Except Err (Dict (String × VArray))
  | [], out => .ok out
  | (name, p) :: rest, out =>
    rawInputV R copies state wild lens name p >>= fun r =>
    rawInputsV R copies state wild lens rest (out.set r.1 r.2)

/-- `get_numpy_arrays_with_properties` (get_np_arrays.py:8-36): for each key the quantity and its
array. -/
def getNumpyArraysV (R : Registry) (copies : String → Bool) (state : State) (props : PropDict) :
    Except Err (Dict (String × VArray)) :=
  getWildcard state props >>= fun wl =>
  rawInputsV R copies state (wl.1.getD []) wl.2 props []

/-- The arrays that exist, by number. -/
abbrev Cells := Nat → DataArray

/-- A state dictionary: which array each quantity is, and the time. -/
structure Held where
  refs : Dict Nat
  time : Int

/-- What the state reads as. -/
def Held.look (h : Held) (m : Cells) : State := h.refs.mapVal (fun l => Val.da (m l)) ++ [("time", .time h.time)]

/-- `array[idx] = x` -/
def DataArray.put (a : DataArray) (idx : List Nat) (x : Rat) : DataArray :=
  { a with arr := { a.arr with get := fun j => if j = idx then x else a.arr.get j } }

/-- A change that `array_call` makes to an array it was given. -/
structure Poke where
  key : String
  idx : List Nat
  val : Rat

/-- What a change does to the arrays of the state. -/
def Poke.run (h : Held) (raws : Dict (String × VArray)) (m : Cells) (w : Poke) : Cells :=
  match raws.get? w.key with
  | none => m
  | some (n, v) =>
    match v.pos, h.refs.get? n with
    | some p, some l => fun k => if k = l then (m l).put (p w.idx) w.val else m k
    | _, _ => m

/-- The arrays given to `array_call` as they are when it has returned. -/
def rawAfter (h : Held) (m : Cells) (ws : List Poke) (key : String) (nv : String × VArray) : NDArray :=
  match nv.2.pos, h.refs.get? nv.1 with
  | some p, some l => { nv.2.arr with get := fun idx => (m l).arr.get (p idx) }
  | _, _ => ws.foldl (fun a w => if w.key = key then
      { a with get := fun j => if j = w.idx then w.val else a.get j } else a) nv.2.arr

/-- `__call__` before `array_call` (base_components.py:611-616, 837-842, 1062-1067, 1215-1218); the
array of the tracers is new (tracers.py:198). -/
def prepareV (R : Registry) (copies : String → Bool) (g : Tracers) (c : Class) (i : Inst) (state : State) :
    Except Err (Dict (String × VArray) × Val) :=
  checkInputs c.inProps state >>= fun _ =>
  getNumpyArraysV R copies state c.inProps >>= fun raws =>
  (match i.packer with
   | some p => p.pack R g state >>= fun t => .ok (raws.set "tracers" ("tracers", ⟨t, none⟩))
   | none => .ok raws) >>= fun raws' =>
  Dict.get state "time" >>= fun t =>
  .ok (raws', t)

/-- What `array_call` reads before it changes anything. -/
def asRaw (r : Dict (String × VArray) × Val) : RawState := { arrays := r.1.mapVal (·.2.arr), time := r.2 }

/-- `TendencyComponent.__call__` and `ImplicitTendencyComponent.__call__` (base_components.py:808-861,
1031-1087) with an `array_call` that also says which elements of its arrays it has changed.  Returned
arrays are given as they are at the return. -/
def callTendencyV {σ : Type} (R : Registry) (copies : String → Bool) (g : Tracers) (c : Class) (i : Inst)
    (arrayCall : σ → RawState → σ × List Poke × Except Err (Dict NDArray × Dict NDArray)) (s : σ)
    (h : Held) (m : Cells) : σ × Cells × Except Err (Dict DataArray × Dict DataArray) :=
  match prepareV R copies g c i (h.look m) with
  | .error e => (s, m, .error e)
  | .ok raws =>
    let r := arrayCall s (asRaw raws)
    let m' := r.2.1.foldl (Poke.run h raws.1) m
    (r.1, m', r.2.2 >>= fun o => finishTendency g c i (h.look m') o.1 o.2)

/-- `Stepper.__call__` (base_components.py:581-634): with `tendencies_in_diagnostics` the differences are
taken from the arrays that `array_call` was given, as they are then. -/
def callStepperV {σ : Type} (R : Registry) (copies : String → Bool) (g : Tracers) (c : Class) (i : Inst)
    (arrayCall : σ → RawState → Int → σ × List Poke × Except Err (Dict NDArray × Dict NDArray)) (s : σ)
    (h : Held) (m : Cells) (dt : Int) : σ × Cells × Except Err (Dict DataArray × Dict DataArray) :=
  match prepareV R copies g c i (h.look m) with
  | .error e => (s, m, .error e)
  | .ok raws =>
    let r := arrayCall s (asRaw raws) dt
    let m' := r.2.1.foldl (Poke.run h raws.1) m
    (r.1, m', r.2.2 >>= fun o =>
      finishStepper g c i (h.look m') dt (raws.1.map fun kv => (kv.1, rawAfter h m' r.2.1 kv.1 kv.2)) o.1 o.2)

/-- `DiagnosticComponent.__call__` (base_components.py:1191-1224) -/
def callDiagnosticV {σ : Type} (R : Registry) (copies : String → Bool) (g : Tracers) (c : Class) (i : Inst)
    (arrayCall : σ → RawState → σ × List Poke × Except Err (Dict NDArray)) (s : σ)
    (h : Held) (m : Cells) : σ × Cells × Except Err (Dict DataArray) :=
  match prepareV R copies g c i (h.look m) with
  | .error e => (s, m, .error e)
  | .ok raws =>
    let r := arrayCall s (asRaw raws)
    let m' := r.2.1.foldl (Poke.run h raws.1) m
    (r.1, m', r.2.2 >>= fun o => finishDiagnostic c i (h.look m') o)

/-- `TimeDifferencingWrapper.__call__` (basic.py:410-439) around a Stepper that may change the state: the differences
are taken from the state as it is after the call of the Stepper. -/
def differencingCallV {σ : Type} (R : Registry) (outProps : PropDict)
    (stepper : σ → Held → Cells → Int → σ × Cells × Except Err (Dict DataArray × State)) (s : σ) (h : Held) (m : Cells)
    (dt : Int) : σ × Cells × Except Err TendOut :=
  let r := stepper s h m dt
  (r.1, r.2.1, r.2.2 >>= fun o => differenceLoop R outProps (h.look r.2.1) dt o.2 [] >>= fun t => .ok (t, o.1))

end Verif
