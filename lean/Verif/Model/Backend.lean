import Verif.Model.TimeSteppers
/-!
# State backends (`sympl/_core/backend.py`)

`V` is the type of the values found in a state under some backend: containers of
quantities, and the model time.  The functions below are those of `Verif/Model/Wildcard.lean`,
`Tracers.lean`, `Components.lean`, `Composite.lean` and `TimeSteppers.lean` as the code is written, with the
backend in place of DataArrays.

Simplification: raw arrays are numpy arrays (`ensure_values_are_arrays`, restore_dataarray.py:12-15,
turns other raw outputs into numpy arrays before the backend sees them).
-/

namespace Verif

/-- `StateBackend` (backend.py:9-66): the abstract methods, which may raise. -/
structure Backend (V : Type) where
  /-- `get_array(state_value, name, target_units, target_dims, dim_lengths)` (backend.py:13-27) -/
  getArray : V → String → String → List String → Dict Nat → Except Err NDArray
  /-- `create_quantity(data, name, units, dims, reference_state)` (backend.py:29-45) -/
  create : NDArray → String → String → List String → Dict V → Except Err V
  /-- `get_dims` (backend.py:47-52) -/
  dims : V → Except Err (List String)
  /-- `get_shape` (backend.py:54-59) -/
  shape : V → Except Err (List Nat)
  /-- `isinstance(value, backend.get_container_type())` (backend.py:61-66) -/
  isContainer : V → Bool

/-- `DataArrayBackend` (backend.py:69-164) -/
def dataArrayBackend (R : Registry) : Backend Val where
  getArray v _ units dims lens := match v with
    | .da a => getArray R a units dims lens
    | .time _ => .error .attributeError
  create data _ units dims _ := DataArray.mk' data dims [("units", units)] >>= fun a => .ok (.da a)
  dims v := match v with
    | .da a => .ok a.dims
    | .time _ => .error .attributeError
  shape v := match v with
    | .da a => .ok a.arr.shape
    | .time _ => .error .attributeError
  isContainer v := match v with
    | .da _ => true
    | .time _ => false

/-- `set_backend` (backend.py:174-178): `none` is an object that is not a StateBackend.
Returns the backend then in use, which `get_backend` (170-171) gives. -/
def setBackend {β : Type} (current : β) (new : Option β) : β × Except Err Unit :=
  match new with
  | some b => (b, .ok ())
  | none => (current, .error .typeError)

/-- Successive calls of `set_backend`, whose TypeErrors the caller handles. -/
def setBackends {β : Type} : List (Option β) → β → β
  | [], b => b
  | new :: rest, b => setBackends rest (setBackend b new).1

section
variable {V : Type} (B : Backend V)

/-- Loop of `get_wildcard_matches_and_dim_lengths` (wildcard.py:12-35) -/
def matchLoopB (state : Dict V) : PropDict → List String → Dict Nat → Except Err (List String × Dict Nat)
  | [], wild, lens => .ok (wild, lens)
  | (name, p) :: rest, wild, lens =>
    ensureDimsUnits p >>= fun du =>
    state.get name >>= fun v =>
    B.dims v >>= fun dims =>
    B.shape v >>= fun shape =>
    learnLens (dims.zip shape) lens >>= fun lens' =>
    let new := dims.filter (fun d => d ∉ du.1)
    if new ≠ [] ∧ "*" ∉ du.1 then .error .invalidState
    else matchLoopB state rest (wild ++ new.filter (fun d => d ∉ wild)) lens'

/-- `get_wildcard_matches_and_dim_lengths` (wildcard.py:7-44) -/
def getWildcardB (state : Dict V) (props : PropDict) : Except Err (Option (List String) × Dict Nat) :=
  matchLoopB B state props [] [] >>= fun r =>
  if props.any (fun kv => hasStar kv.2)
  then .ok (some r.1, r.2)
  else .ok (none, r.2)

/-- One iteration of the loop of `get_numpy_arrays_with_properties` (get_np_arrays.py:15-35) -/
def rawInputB (state : Dict V) (wild : List String) (lens : Dict Nat) (name : String) (p : QProps) :
    Except Err (String × NDArray) :=
  ensureDimsUnits p >>= fun du =>
  state.get name >>= fun v =>
  (if "*" ∈ du.1 then
    let i := du.1.idxOf "*"
    let outDims := du.1.take i ++ wild ++ du.1.drop (i + 1)
    B.getArray v name du.2 outDims lens >>= fun arr =>
    flattenWildcardDims arr i (i + wild.length)
   else B.getArray v name du.2 du.1 lens) >>= fun arr =>
  .ok (p.aliasName.getD name, arr)

/-- Loop of `get_numpy_arrays_with_properties` (get_np_arrays.py:15-35) -/
def rawInputsB (state : Dict V) (wild : List String) (lens : Dict Nat) :
    PropDict → Dict NDArray → Except Err (Dict NDArray)
  | [], out => .ok out
  | (name, p) :: rest, out =>
    rawInputB B state wild lens name p >>= fun r =>
    rawInputsB state wild lens rest (out.set r.1 r.2)

/-- `get_numpy_arrays_with_properties` (get_np_arrays.py:8-36) -/
def getNumpyArraysB (state : Dict V) (props : PropDict) : Except Err (Dict NDArray) :=
  getWildcardB B state props >>= fun wl => rawInputsB B state (wl.1.getD []) wl.2 props []

/-- One iteration of the loop of `restore_data_arrays_with_properties`
(restore_dataarray.py:112-136): the array to wrap is as in `restoreOne`. -/
def restoreOneB (raw : Dict NDArray) (outProps inProps : PropDict) (state : Dict V)
    (wild : Option (List String)) (lens : Dict Nat) (name : String) (outDims : List String) :
    Except Err (V × Dict Nat) :=
  let rawName := getAliasOrName name outProps inProps
  raw.get rawName >>= fun a =>
  (if "*" ∈ outDims then
    let lens' := learnOutLens (outDims.zip a.shape) lens
    match wild with
    | none =>
      (outDims.take (outDims.idxOf "*")).mapM (fun d => lens'.get d) >>= fun _ =>
      .error .typeError
    | some w =>
      fillDims outDims lens' w >>= fun ds =>
      match a.reshape ds.2 with
      | .error _ => .error .invalidPropertyDict
      | .ok arr => .ok (ds.1, arr, lens')
   else
    checkArrayShape outDims a.shape lens >>= fun _ => .ok (outDims, a, lens)) >>= fun r =>
  match (outProps.get? name).bind (·.units) with
  | none => .error .keyError
  | some units => B.create r.2.1 name units r.1 state >>= fun v => .ok (v, r.2.2)

/-- Loop of `restore_data_arrays_with_properties` (restore_dataarray.py:109-136) -/
def restoreLoopB (raw : Dict NDArray) (outProps inProps : PropDict) (state : Dict V)
    (wild : Option (List String)) (ignore : List String) :
    Dict (List String) → Dict Nat → Dict V → Except Err (Dict V)
  | [], _, out => .ok out
  | (name, d) :: rest, lens, out =>
    if name ∈ ignore then restoreLoopB raw outProps inProps state wild ignore rest lens out
    else
      restoreOneB B raw outProps inProps state wild lens name d >>= fun r =>
      restoreLoopB raw outProps inProps state wild ignore rest r.2 (out.set name r.1)

/-- `restore_data_arrays_with_properties` (restore_dataarray.py:46-137) -/
def restoreB (raw : Dict NDArray) (outProps : PropDict) (state : Dict V) (inProps : PropDict)
    (ignoreNames : List String) (ignoreMissing : Bool) : Except Err (Dict V) :=
  let ignore := if ignoreMissing
    then outProps.keys.filter (fun n => n ∉ raw.keys) ++ ignoreNames else ignoreNames
  getWildcardB B state inProps >>= fun wl =>
  extractOutDims inProps ignore outProps [] >>= fun dimsOf =>
  restoreLoopB B raw outProps inProps state wl.1 ignore dimsOf wl.2 []

/-- `TracerPacker.pack` (tracers.py:180-203) -/
def packB (g : Tracers) (p : Packer) (state : Dict V) : Except Err NDArray :=
  quantityDims p.dims >>= fun qdims =>
  getNumpyArraysB B state (tracerProps g p.prepend qdims) >>= fun raw =>
  match tracerNames g p with
  | [] => .ok (NDArray.zeros (p.dims.map fun _ => 0))
  | first :: rest =>
    raw.get first >>= fun a =>
    let shape := a.shape.insertIdx p.index (first :: rest).length
    (first :: rest).mapM (fun n => raw.get n >>= fun b => b.broadcastTo a.shape) >>= fun slices =>
    .ok (NDArray.stack shape p.index slices)

/-- `TracerPacker.unpack` (tracers.py:205-238) -/
def unpackB (g : Tracers) (p : Packer) (arr : NDArray) (state : Dict V) (multiply : String) :
    Except Err (Dict V) :=
  quantityDims p.dims >>= fun qdims =>
  let props := tracerProps g p.prepend qdims
  readSlices arr p.index (tracerNames g p) 0 [] >>= fun raw =>
  restoreB B raw (props.mapVal fun q => { q with units := q.units.map (mulUnit · multiply) })
    state props [] false

/-- What `array_call` receives. -/
structure RawB (V : Type) where
  arrays : Dict NDArray
  time : V

/-- The part of `__call__` before `array_call` (base_components.py:611-616,
837-842, 1062-1067, 1215-1218) -/
def prepareB (g : Tracers) (c : Class) (i : Inst) (state : Dict V) : Except Err (RawB V) :=
  (if ∀ k ∈ c.inProps.keys, k ∈ state.keys then .ok () else .error .invalidState) >>= fun _ =>
  getNumpyArraysB B state c.inProps >>= fun raw =>
  (match i.packer with
   | some p => packB B g p state >>= fun t => .ok (raw.set "tracers" t)
   | none => .ok raw) >>= fun raw' =>
  state.get "time" >>= fun t =>
  .ok { arrays := raw', time := t }

/-- `raw.pop('tracers')` and unpacking (base_components.py:618-622, 844-849, 1069-1074) -/
def takeTracersB (g : Tracers) (i : Inst) (raw : Dict NDArray) (state : Dict V) (multiply : String) :
    Except Err (Dict V × Dict NDArray) :=
  match i.packer with
  | none => .ok ([], raw)
  | some p =>
    raw.get "tracers" >>= fun t =>
    unpackB B g p t state multiply >>= fun out => .ok (out, raw.erase "tracers")

/-- `_insert_tendencies_to_diagnostics` (base_components.py:863-866, 1089-1092) -/
def insertTendenciesB (inst : String) : Dict V → Dict V → Dict V
  | [], diag => diag
  | (name, v) :: rest, diag => insertTendenciesB inst rest (diag.set (tendencyName name inst) v)

/-- `__call__` of the tendency components after `array_call` (base_components.py:844-861, 1069-1087) -/
def finishTendencyB (g : Tracers) (c : Class) (i : Inst) (state : Dict V) (rawT rawD : Dict NDArray) :
    Except Err (Dict V × Dict V) :=
  takeTracersB B g i rawT state c.tendencyTimeUnit >>= fun tr =>
  checkRaw c.inProps c.outProps [] tr.2 >>= fun _ =>
  checkRaw c.inProps c.diagProps i.ignored rawD >>= fun _ =>
  restoreB B tr.2 c.outProps state c.inProps [] false >>= fun tend =>
  restoreB B rawD c.diagProps state c.inProps i.ignored false >>= fun diag =>
  let out := tr.1.update tend
  .ok (out, if i.tid then insertTendenciesB i.name out diag else diag)

/-- `Stepper.__call__` after `array_call` (base_components.py:618-634) -/
def finishStepperB (g : Tracers) (c : Class) (i : Inst) (state : Dict V) (dt : Int)
    (rawS rawD rawN : Dict NDArray) : Except Err (Dict V × Dict V) :=
  takeTracersB B g i rawN state "" >>= fun tr =>
  checkRaw c.inProps c.diagProps i.ignored rawD >>= fun _ =>
  checkRaw c.inProps c.outProps [] tr.2 >>= fun _ =>
  (if i.tid then insertDifferences i.name rawS tr.2 dt c.outProps.keys rawD else .ok rawD) >>= fun rawD' =>
  restoreB B rawD' c.diagProps state c.inProps [] false >>= fun diag =>
  restoreB B tr.2 c.outProps state c.inProps [] false >>= fun new =>
  .ok (diag, tr.1.update new)

/-- `DiagnosticComponent.__call__` after `array_call` (base_components.py:1220-1224) -/
def finishDiagnosticB (c : Class) (i : Inst) (state : Dict V) (rawD : Dict NDArray) : Except Err (Dict V) :=
  checkRaw c.inProps c.diagProps i.ignored rawD >>= fun _ =>
  restoreB B rawD c.diagProps state c.inProps [] false

/-- `TendencyComponent.__call__` (base_components.py:808-861) and
`ImplicitTendencyComponent.__call__` (1031-1087) -/
def callTendencyB {σ : Type} (g : Tracers) (c : Class) (i : Inst)
    (arrayCall : σ → RawB V → σ × Except Err (Dict NDArray × Dict NDArray)) (s : σ)
    (state : Dict V) : σ × Except Err (Dict V × Dict V) :=
  match prepareB B g c i state with
  | .error e => (s, .error e)
  | .ok raw => ((arrayCall s raw).1,
      (arrayCall s raw).2 >>= fun r => finishTendencyB B g c i state r.1 r.2)

/-- `Stepper.__call__` (base_components.py:581-634) -/
def callStepperB {σ : Type} (g : Tracers) (c : Class) (i : Inst)
    (arrayCall : σ → RawB V → Int → σ × Except Err (Dict NDArray × Dict NDArray)) (s : σ)
    (state : Dict V) (dt : Int) : σ × Except Err (Dict V × Dict V) :=
  match prepareB B g c i state with
  | .error e => (s, .error e)
  | .ok raw => ((arrayCall s raw dt).1,
      (arrayCall s raw dt).2 >>= fun r => finishStepperB B g c i state dt raw.arrays r.1 r.2)

/-- `DiagnosticComponent.__call__` (base_components.py:1191-1224) -/
def callDiagnosticB {σ : Type} (g : Tracers) (c : Class) (i : Inst)
    (arrayCall : σ → RawB V → σ × Except Err (Dict NDArray)) (s : σ)
    (state : Dict V) : σ × Except Err (Dict V) :=
  match prepareB B g c i state with
  | .error e => (s, .error e)
  | .ok raw => ((arrayCall s raw).1, (arrayCall s raw).2 >>= fun r => finishDiagnosticB B c i state r)

/-! ## What is done to containers without the backend -/

/-- Attributes and methods of the values of a state that composites and time steppers use
directly; an object without one of them raises AttributeError (TypeError for an operator). -/
structure ContainerOps (V : Type) where
  attrs : V → Except Err (Dict String)
  toUnits : V → String → Except Err V
  iadd : V → V → Except Err V
  add : V → V → Except Err V
  /-- `x.copy()`, or `x` itself if it has no `copy` (util.py:205-208) -/
  copy : V → Except Err V

/-- The operations of DataArrays (dataarray.py:7-54). -/
def dataArrayOps (R : Registry) : ContainerOps Val where
  attrs v := match v with
    | .da a => .ok a.attrs
    | .time _ => .error .attributeError
  toUnits v u := match v with
    | .da a => a.toUnits R u >>= fun r => .ok (.da r)
    | .time _ => .error .attributeError
  iadd v w := match v, w with
    | .da a, .da b => a.iadd b >>= fun r => .ok (.da r)
    | _, _ => .error .typeError
  add v w := match v, w with
    | .da a, .da b => a.add b >>= fun r => .ok (.da r)
    | _, _ => .error .typeError
  copy v := .ok v

/-- The entry for a key of both dictionaries in `update_dict_by_adding_another` (util.py:210-219) -/
def addEntryB (O : ContainerOps V) (w v : V) : Except Err V :=
  if B.isContainer w && B.isContainer v then
    O.attrs w >>= fun aw =>
    match aw.get? "units" with
    | none => .error .invalidState
    | some u =>
      O.attrs v >>= fun av =>
      match av.get? "units" with
      | none => .error .invalidState
      | some _ =>
        match O.toUnits v u >>= fun v' => O.iadd w v' with
        | .error .valueError => O.toUnits v u >>= fun v' => O.add w v'
        | r => r
  else O.iadd w v

/-- `update_dict_by_adding_another` (util.py:195-220) -/
def addIntoB (O : ContainerOps V) : Dict V → Dict V → Except Err (Dict V)
  | [], d1 => .ok d1
  | (k, v) :: rest, d1 =>
    match d1.get? k with
    | none => O.copy v >>= fun v' => addIntoB O rest (d1.set k v')
    | some w => addEntryB B O w v >>= fun s => addIntoB O rest (d1.set k s)

/-- Loop of the tendency composites' `__call__` (composite.py:158-164, 229-241) -/
def compositeLoopB {σ : Type} (O : ContainerOps V) :
    List (σ → σ × Except Err (Dict V × Dict V)) → σ → Dict V → Dict V → σ × Except Err (Dict V × Dict V)
  | [], s, t, d => (s, .ok (t, d))
  | f :: fs, s, t, d =>
    match (f s).2 with
    | .error e => ((f s).1, .error e)
    | .ok r =>
      match addIntoB B O r.1 t with
      | .error e => ((f s).1, .error e)
      | .ok t' => compositeLoopB O fs (f s).1 t' (d.update r.2)

/-- One entry of `convert_tendencies_units_for_state` (timesteppers.py:170-173) -/
def convertTendencyB (O : ContainerOps V) (state : Dict V) (q : String) (v : V) : Except Err V :=
  if B.isContainer v then
    O.attrs v >>= fun av =>
    match av.get? "units" with
    | none => .ok v
    | some _ => state.get q >>= fun s => O.attrs s >>= fun as => as.get "units" >>= fun u =>
      O.toUnits v (u ++ " s^-1")
  else .ok v

/-- `convert_tendencies_units_for_state` (timesteppers.py:163-173) -/
def convertTendenciesB (O : ContainerOps V) (state : Dict V) : Dict V → Except Err (Dict V)
  | [] => .ok []
  | (q, v) :: rest =>
    convertTendencyB B O state q v >>= fun v' =>
    convertTendenciesB O state rest >>= fun rest' => .ok ((q, v') :: rest')

end

end Verif
