import Verif.Model.Wildcard
/-!
# Tracers (`sympl/_core/tracers.py`)

The module globals `_tracer_unit_dict`, `_tracer_names`, `_packers` are the
fields of `Tracers`; functions that change them return the new value, also when
they raise.
-/

namespace Verif

/-- A `TracerPacker` (tracers.py:104-124).  `outNames` are the keys of the
component's `tendency_properties` if it has that attribute, else of its
`output_properties` (tracers.py:126-130); simplification: these keys do not
change after the packer is created. -/
structure Packer where
  prepend : List (String × String)
  dims : List String
  outNames : List String

/-- The module globals (tracers.py:7-9).  `_packers` is a set; the order of this
list only affects which of several packers raises first (the class is the same). -/
structure Tracers where
  units : Dict String := []
  names : List String := []
  packers : List Packer := []

/-- `get_quantity_dims` (tracers.py:96-101); `list.remove` removes the first
occurrence. -/
def quantityDims (tracerDims : List String) : Except Err (List String) :=
  if "tracer" ∈ tracerDims then .ok (tracerDims.erase "tracer") else .error .valueError

/-- `ensure_tracer_not_in_outputs` (tracers.py:126-150) -/
def Packer.ensureNotOutput (p : Packer) (name : String) : Except Err Unit :=
  if name ∈ p.outNames then .error .invalidPropertyDict else .ok ()

/-- A loop calling a check for each element, stopping at the first exception. -/
def forM' {α : Type} (f : α → Except Err Unit) : List α → Except Err Unit
  | [] => .ok ()
  | a :: l => f a >>= fun _ => forM' f l

/-- `register_tracer` (tracers.py:25-44): units and name are recorded before the
packers are asked. -/
def registerTracer (R : Registry) (g : Tracers) (name units : String) :
    Tracers × Except Err Unit :=
  let check : Except Err Unit :=
    match g.units.get? name with
    | none => .ok ()
    | some old => R.unitsAreSame old units >>= fun same =>
        if same then .ok () else .error .valueError
  match check with
  | .error e => (g, .error e)
  | .ok _ =>
    ({ g with units := g.units.set name units, names := g.names ++ [name] },
     forM' (fun p => p.ensureNotOutput name) g.packers)

/-- `TracerPacker.__init__` (tracers.py:106-124) for a component that has outputs
or tendencies (`prepend_tracers or ()`). -/
def createPacker (g : Tracers) (outNames tracerDims : List String)
    (prepend : List (String × String)) : Tracers × Except Err Packer :=
  let p : Packer := { prepend := prepend, dims := tracerDims, outNames := outNames }
  let checks : Except Err Unit :=
    quantityDims tracerDims >>= fun _ =>
    forM' (fun nu => if nu.1 ∉ g.units.keys then p.ensureNotOutput nu.1 else .ok ()) prepend >>= fun _ =>
    forM' (fun nu => p.ensureNotOutput nu.1) g.units
  match checks with
  | .error e => (g, .error e)
  | .ok _ => ({ g with packers := g.packers ++ [p] }, .ok p)

/-- `reset_tracers` (tracers.py:12-17) -/
def resetTracers (g : Tracers) : Tracers := { g with units := [], names := [] }

/-- `reset_packers` (tracers.py:20-22) -/
def resetPackers (g : Tracers) : Tracers := { g with packers := [] }

/-- `get_tracer_unit_dict` (tracers.py:47-57): a new dictionary -/
def getTracerUnitDict (g : Tracers) : Dict String := Dict.update [] g.units

/-- `get_tracer_names` (tracers.py:60-67) -/
def getTracerNames (g : Tracers) : List String := g.names

/-- `get_tracer_input_properties` (tracers.py:70-93) -/
def tracerProps (g : Tracers) (prepend : List (String × String)) (dims : List String) : PropDict :=
  ((Dict.update [] g.units).update (Dict.update [] prepend)).mapVal fun u =>
    { dims := some (dims.erase "tracer"), units := some u }

/-- The loop of `TracerPacker.tracer_names` over registered names
(tracers.py:169-174) -/
def addNew : List String → List String → List String
  | acc, [] => acc
  | acc, n :: l => if n ∈ acc then addNew acc l else addNew (acc ++ [n]) l

/-- `TracerPacker.tracer_names` (tracers.py:166-174) -/
def tracerNames (g : Tracers) (p : Packer) : List String :=
  addNew (p.prepend.map (·.1)) g.names

/-- `_tracer_index` (tracers.py:176-178) -/
def Packer.index (p : Packer) : Nat := p.dims.idxOf "tracer"

/-- `array[tracer_slice]`: axis `k` fixed at `i`. -/
def NDArray.slice (a : NDArray) (k i : Nat) : NDArray :=
  { shape := a.shape.eraseIdx k, get := fun idx => a.get (idx.insertIdx k i) }

/-- `np.empty(shape)` with the slices along axis `k` assigned in turn. -/
def NDArray.stack (shape : List Nat) (k : Nat) (slices : List NDArray) : NDArray :=
  { shape := shape
    get := fun idx =>
      match slices[idx.getD k 0]? with
      | some s => s.get (idx.eraseIdx k)
      | none => 0 }

/-- `TracerPacker.pack` (tracers.py:180-203) -/
def Packer.pack (R : Registry) (g : Tracers) (p : Packer) (state : State) : Except Err NDArray :=
  quantityDims p.dims >>= fun qdims =>
  getNumpyArrays R state (tracerProps g p.prepend qdims) >>= fun raw =>
  match tracerNames g p with
  | [] => .ok (NDArray.zeros (p.dims.map fun _ => 0))
  | first :: rest =>
    raw.get first >>= fun a =>
    let shape := a.shape.insertIdx p.index (first :: rest).length
    (first :: rest).mapM (fun n => raw.get n >>= fun b => b.broadcastTo a.shape) >>= fun slices =>
    .ok (NDArray.stack shape p.index slices)

/-- One slice read by `TracerPacker.unpack` (tracers.py:226-228): IndexError if
the array has no such axis or position. -/
def readSlice (arr : NDArray) (k i : Nat) : Except Err NDArray :=
  match arr.shape[k]? with
  | none => .error .indexError
  | some n => if i < n then .ok (arr.slice k i) else .error .indexError

/-- Loop of `TracerPacker.unpack` (tracers.py:225-228) -/
def readSlices (arr : NDArray) (k : Nat) : List String → Nat → Dict NDArray →
    Except Err (Dict NDArray)
  | [], _, raw => .ok raw
  | n :: l, i, raw => readSlice arr k i >>= fun s => readSlices arr k l (i + 1) (raw.set n s)

/-- `'{} {}'.format(units, multiply_unit)` unless multiply_unit is '' (tracers.py:232-234) -/
def mulUnit (units multiply : String) : String :=
  if multiply = "" then units else units ++ " " ++ multiply

/-- `TracerPacker.unpack` (tracers.py:205-238) -/
def Packer.unpack (g : Tracers) (p : Packer) (arr : NDArray) (state : State) (multiply : String) :
    Except Err (Dict DataArray) :=
  quantityDims p.dims >>= fun qdims =>
  let props := tracerProps g p.prepend qdims
  readSlices arr p.index (tracerNames g p) 0 [] >>= fun raw =>
  restoreDataArrays raw (props.mapVal fun q => { q with units := q.units.map (mulUnit · multiply) })
    state props [] false

end Verif
