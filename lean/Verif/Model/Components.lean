import Verif.Model.Tracers
/-!
# Components (`sympl/_core/base_components.py`)

A component class declares property dictionaries (`Class`).  They are class-level
dictionaries shared by all instances of the class, and creating an instance may
change them in place, so `construct` returns the changed class and the call
functions read the class as it is at the time of the call.  (A component that
builds its own dictionaries in `__init__` is a class with one instance.)

`array_call` is arbitrary user code with arbitrary internal state `σ`: it takes
the internal state and the raw state and returns the new internal state and
either raw outputs or an exception.
-/

namespace Verif

/-- The four component base classes. -/
inductive Kind where
  | stepper | tendency | implicit | diagnostic
  deriving DecidableEq, Repr

/-- A component class.  `outProps` is `output_properties` for a Stepper,
`tendency_properties` for the tendency components, and unused for a
DiagnosticComponent.  `tracerDims = none` is `tracer_dims = None` (Stepper) or an
undefined attribute (tendency components). -/
structure Class where
  kind : Kind
  inProps : PropDict
  outProps : PropDict
  diagProps : PropDict
  usesTracers : Bool := false
  tracerDims : Option (List String) := none
  prepend : List (String × String) := []
  tendencyTimeUnit : String := "s^-1"

/-- An instance: what `__init__` stores on `self`. -/
structure Inst where
  name : String
  tid : Bool            -- tendencies_in_diagnostics
  ignored : List String -- DiagnosticChecker._ignored_diagnostics
  packer : Option Packer

/-! ## Checkers -/

/-- `check_overlapping_aliases` (base_components.py:96-107) -/
def checkAliases : PropDict → List String → Except Err Unit
  | [], _ => .ok ()
  | (_, p) :: rest, seen =>
    match p.aliasName with
    | none => checkAliases rest seen
    | some al => if al ∈ seen then .error .invalidPropertyDict else checkAliases rest (al :: seen)

/-- Loop of `InputChecker.__init__` (base_components.py:126-133) -/
def checkInputEntries : PropDict → Except Err Unit
  | [] => .ok ()
  | (_, p) :: rest =>
    match p.units, p.dims with
    | none, _ => .error .invalidPropertyDict
    | some _, none => .error .invalidPropertyDict
    | some _, some _ => checkInputEntries rest

/-- `InputChecker.__init__` (base_components.py:112-135) for a component whose
`input_properties` is a dict. -/
def inputChecker (inProps : PropDict) : Except Err Unit :=
  checkInputEntries inProps >>= fun _ => checkAliases inProps []

/-- `InputChecker.check_inputs` (base_components.py:137-140) -/
def checkInputs (inProps : PropDict) (state : State) : Except Err Unit :=
  if ∀ k ∈ inProps.keys, k ∈ Dict.keys state then .ok () else .error .invalidState

/-- The loop common to TendencyChecker, DiagnosticChecker and OutputChecker
(base_components.py:189-196, 266-273, 346-353) -/
def checkOutEntries (inProps : PropDict) : PropDict → Except Err Unit
  | [] => .ok ()
  | (name, p) :: rest =>
    match p.units with
    | none => .error .invalidPropertyDict
    | some _ =>
      if p.dims.isNone ∧ name ∉ inProps.keys then .error .invalidPropertyDict
      else checkOutEntries inProps rest

/-- `units + ' s^-1'`, or `'s^-1'` for the empty unit string
(base_components.py:164-167, 522-525) -/
def perSecond (u : String) : String := if u = "" then "s^-1" else u ++ " s^-1"

/-- `get_name_with_incompatible_units` and
`get_tendency_name_with_incompatible_units` (base_components.py:143-170), with
`f` applied to the input units.  The set of shared names is iterated in
dictionary order here; Python's order is arbitrary, which only affects whether an
unknown unit or an incompatibility is noticed first. -/
def checkUnits (R : Registry) (f : String → String) (inProps : PropDict) :
    PropDict → Except Err Unit
  | [] => .ok ()
  | (name, p) :: rest =>
    match inProps.get? name with
    | none => checkUnits R f inProps rest
    | some ip =>
      match ip.units, p.units with
      | some iu, some u =>
        R.unitsAreCompatible (f iu) u >>= fun ok =>
        if ok then checkUnits R f inProps rest else .error .invalidPropertyDict
      | _, _ => .error .keyError

/-- `TendencyChecker.__init__` (base_components.py:175-208) -/
def tendencyChecker (R : Registry) (inProps outProps : PropDict) : Except Err Unit :=
  checkOutEntries inProps outProps >>= fun _ =>
  checkAliases outProps [] >>= fun _ =>
  checkUnits R perSecond inProps outProps

/-- `DiagnosticChecker.__init__` (base_components.py:251-283) -/
def diagnosticChecker (R : Registry) (inProps diagProps : PropDict) : Except Err Unit :=
  checkOutEntries inProps diagProps >>= fun _ =>
  checkUnits R id inProps diagProps >>= fun _ =>
  checkAliases diagProps []

/-- `OutputChecker.__init__` (base_components.py:332-365) -/
def outputChecker (R : Registry) (inProps outProps : PropDict) : Except Err Unit :=
  checkOutEntries inProps outProps >>= fun _ =>
  checkAliases outProps [] >>= fun _ =>
  checkUnits R id inProps outProps

/-- The names under which a quantity may be returned besides its own:
`_wanted_*_aliases` (base_components.py:209-219, 285-296, 366-377) -/
def wantedAliases (inProps : PropDict) (name : String) (p : QProps) : List String :=
  p.aliasName.toList ++ ((inProps.get? name).bind (·.aliasName)).toList

/-- `_check_missing_*` (base_components.py:221-230, 298-308, 379-389); `ignored`
is empty for tendencies and outputs. -/
def checkMissing (inProps props : PropDict) (ignored : List String) (raw : Dict NDArray) :
    Except Err Unit :=
  if ∀ kv ∈ props, kv.1 ∈ raw.keys ∨ kv.1 ∈ ignored ∨
      ∃ al ∈ wantedAliases inProps kv.1 kv.2, al ∈ raw.keys
  then .ok () else .error .missingOutput

/-- `_check_extra_*` (base_components.py:232-242, 310-320, 391-401) -/
def checkExtra (inProps props : PropDict) (raw : Dict NDArray) : Except Err Unit :=
  if ∀ k ∈ raw.keys, k ∈ props.keys ∨ ∃ kv ∈ props, k ∈ wantedAliases inProps kv.1 kv.2
  then .ok () else .error .extraOutput

/-- `check_tendencies`, `check_diagnostics`, `check_outputs`
(base_components.py:244-246, 325-327, 403-405) -/
def checkRaw (inProps props : PropDict) (ignored : List String) (raw : Dict NDArray) :
    Except Err Unit :=
  checkMissing inProps props ignored raw >>= fun _ => checkExtra inProps props raw

/-! ## Construction -/

/-- `_get_tendency_name` (base_components.py:560-561, 791-792, 1014-1015;
tendencystepper.py:169-170) -/
def tendencyName (name inst : String) : String := name ++ "_tendency_from_" ++ inst

/-- dims of an output for the inserted diagnostic
(base_components.py:526-529, 781-784): KeyError cannot occur after the checks. -/
def insertedDims (inProps : PropDict) (name : String) (p : QProps) : Except Err (List String) :=
  match p.dims with
  | some d => .ok d
  | none =>
    match (inProps.get? name).bind (·.dims) with
    | some d => .ok d
    | none => .error .keyError

/-- `_insert_tendency_properties` of the tendency components
(base_components.py:776-789, 999-1012): changes `diagnostic_properties`. -/
def insertTendencyProps (inst : String) (inProps : PropDict) :
    PropDict → PropDict → List String → Except Err (PropDict × List String)
  | [], diag, added => .ok (diag, added)
  | (name, p) :: rest, diag, added =>
    insertedDims inProps name p >>= fun d =>
    insertTendencyProps inst inProps rest
      (diag.set (tendencyName name inst) { dims := some d, units := p.units })
      (added ++ [tendencyName name inst])

/-- `_insert_tendency_properties` of Stepper (base_components.py:518-558): changes
`diagnostic_properties` and `input_properties`, also when it raises (first
components of the result). -/
def insertStepperProps (inst : String) :
    PropDict → PropDict → PropDict → List String →
    PropDict × PropDict × Except Err (List String)
  | [], diag, inp, added => (diag, inp, .ok added)
  | (name, p) :: rest, diag, inp, added =>
    match p.units, insertedDims inp name p with
    | none, _ => (diag, inp, .error .keyError)
    | some _, .error e => (diag, inp, .error e)
    | some u, .ok d =>
      let diag' := diag.set (tendencyName name inst) { dims := some d, units := some (perSecond u) }
      let added' := added ++ [tendencyName name inst]
      match inp.get? name with
      | none => insertStepperProps inst rest diag'
          (inp.set name { dims := some d, units := some u }) added'
      | some ip =>
        if ip.dims ≠ some d then (diag', inp, .error .invalidPropertyDict)
        else if ip.units ≠ some u then (diag', inp, .error .invalidPropertyDict)
        else insertStepperProps inst rest diag' inp added'

/-- The checks at the start of `__init__`, in the order of each base class
(base_components.py:501-503, 753-755, 978-980, 1172-1173) -/
def runCheckers (R : Registry) (c : Class) : Except Err Unit :=
  inputChecker c.inProps >>= fun _ =>
  match c.kind with
  | .stepper => diagnosticChecker R c.inProps c.diagProps >>= fun _ =>
      outputChecker R c.inProps c.outProps
  | .tendency => tendencyChecker R c.inProps c.outProps >>= fun _ =>
      diagnosticChecker R c.inProps c.diagProps
  | .implicit => diagnosticChecker R c.inProps c.diagProps >>= fun _ =>
      tendencyChecker R c.inProps c.outProps
  | .diagnostic => diagnosticChecker R c.inProps c.diagProps

/-- The `if tendencies_in_diagnostics` step of `__init__`: the changed class and
the names added. -/
def insertProps (c : Class) (inst : String) : Class × Except Err (List String) :=
  match c.kind with
  | .stepper =>
    let r := insertStepperProps inst c.outProps c.diagProps c.inProps []
    ({ c with diagProps := r.1, inProps := r.2.1 }, r.2.2)
  | .diagnostic => (c, .ok [])
  | _ =>
    match insertTendencyProps inst c.inProps c.outProps c.diagProps [] with
    | .ok r => ({ c with diagProps := r.1 }, .ok r.2)
    | .error e => (c, .error e)

/-- The `if self.uses_tracers` step of `__init__`. -/
def makePacker (g : Tracers) (c : Class) : Tracers × Except Err (Option Packer) :=
  if c.kind ≠ .diagnostic ∧ c.usesTracers then
    match c.tracerDims with
    | none => (g, .error (if c.kind = .stepper then .valueError else .attributeError))
    | some td =>
      let r := createPacker g c.outProps.keys td c.prepend
      (r.1, r.2 >>= fun p => .ok (some p))
  else (g, .ok none)

/-- `__init__` of the four base classes (base_components.py:483-516, 737-770,
961-994, 1168-1175).  `name` is the instance name (`name or class name`).
Returns the tracer globals, the class as changed, and the instance. -/
def construct (R : Registry) (g : Tracers) (c : Class) (tid : Bool) (name : String) :
    Tracers × Class × Except Err Inst :=
  match runCheckers R c with
  | .error e => (g, c, .error e)
  | .ok _ =>
    let ins := if tid then insertProps c name else (c, .ok [])
    match ins.2 with
    | .error e => (g, ins.1, .error e)
    | .ok added =>
      let r := makePacker g ins.1
      (r.1, ins.1, r.2 >>= fun p => .ok { name := name, tid := tid, ignored := added, packer := p })

/-! ## Calls -/

/-- What `array_call` receives: arrays by key and the model time. -/
structure RawState where
  arrays : Dict NDArray
  time : Val

/-- The part of `__call__` before `array_call` (base_components.py:611-616,
837-842, 1062-1067, 1215-1218).  Simplification: `raw_state['time']` is kept
apart from the arrays (a quantity keyed `time` would be overwritten). -/
def prepare (R : Registry) (g : Tracers) (c : Class) (i : Inst) (state : State) :
    Except Err RawState :=
  checkInputs c.inProps state >>= fun _ =>
  getNumpyArrays R state c.inProps >>= fun raw =>
  (match i.packer with
   | some p => p.pack R g state >>= fun t => .ok (raw.set "tracers" t)
   | none => .ok raw) >>= fun raw' =>
  Dict.get state "time" >>= fun t =>
  .ok { arrays := raw', time := t }

/-- `raw.pop('tracers')` and unpacking (base_components.py:618-622, 844-849, 1069-1074): the
unpacked tracers and the remaining raw outputs. -/
def takeTracers (g : Tracers) (i : Inst) (raw : Dict NDArray) (state : State) (multiply : String) :
    Except Err (Dict DataArray × Dict NDArray) :=
  match i.packer with
  | none => .ok ([], raw)
  | some p =>
    raw.get "tracers" >>= fun t =>
    p.unpack g t state multiply >>= fun out => .ok (out, raw.erase "tracers")

/-- `_insert_tendencies_to_diagnostics` of the tendency components
(base_components.py:863-866, 1089-1092) -/
def insertTendencies (inst : String) : Dict DataArray → Dict DataArray → Dict DataArray
  | [], diag => diag
  | (name, v) :: rest, diag => insertTendencies inst rest (diag.set (tendencyName name inst) v)

/-- `TendencyComponent.__call__` and `ImplicitTendencyComponent.__call__` after
`array_call` (base_components.py:844-861, 1069-1087) -/
def finishTendency (g : Tracers) (c : Class) (i : Inst) (state : State)
    (rawT rawD : Dict NDArray) : Except Err (Dict DataArray × Dict DataArray) :=
  takeTracers g i rawT state c.tendencyTimeUnit >>= fun tr =>
  checkRaw c.inProps c.outProps [] tr.2 >>= fun _ =>
  checkRaw c.inProps c.diagProps i.ignored rawD >>= fun _ =>
  restoreDataArrays tr.2 c.outProps state c.inProps [] false >>= fun tend =>
  restoreDataArrays rawD c.diagProps state c.inProps i.ignored false >>= fun diag =>
  let out := tr.1.update tend
  .ok (out, if i.tid then insertTendencies i.name out diag else diag)

/-- numpy broadcasting of two shapes, last axis first. -/
def bcRev : List Nat → List Nat → Option (List Nat)
  | [], s => some s
  | s, [] => some s
  | a :: as, b :: bs =>
    if a = b then (bcRev as bs).map (a :: ·)
    else if a = 1 then (bcRev as bs).map (b :: ·)
    else if b = 1 then (bcRev as bs).map (a :: ·)
    else none

/-- index of an operand for an index of the broadcast result -/
def bcIdx (shape idx : List Nat) : List Nat :=
  NDArray.broadcastIdx shape (idx.drop (idx.length - shape.length))

/-- numpy binary operation with broadcasting; ValueError if shapes do not
broadcast. -/
def NDArray.zipWith (f : Rat → Rat → Rat) (a b : NDArray) : Except Err NDArray :=
  match bcRev a.shape.reverse b.shape.reverse with
  | none => .error .valueError
  | some s => .ok { shape := s.reverse
                    get := fun idx => f (a.get (bcIdx a.shape idx)) (b.get (bcIdx b.shape idx)) }

/-- seconds in a timedelta of `dt` microseconds (`total_seconds()`) -/
def seconds (dt : Int) : Rat := (dt : Rat) / 1000000

/-- `_insert_tendencies_to_diagnostics` of Stepper (base_components.py:636-642)
with the default `time_unit_timedelta` of one second.  Simplification: division
by a zero timestep gives 0 instead of inf/nan. -/
def insertDifferences (inst : String) (rawS rawN : Dict NDArray) (dt : Int) :
    List String → Dict NDArray → Except Err (Dict NDArray)
  | [], diag => .ok diag
  | name :: rest, diag =>
    rawN.get name >>= fun new =>
    rawS.get name >>= fun old =>
    NDArray.zipWith (fun x y => (x - y) / seconds dt) new old >>= fun d =>
    insertDifferences inst rawS rawN dt rest (diag.set (tendencyName name inst) d)

/-- `Stepper.__call__` after `array_call` (base_components.py:618-634); returns
diagnostics and new state. -/
def finishStepper (g : Tracers) (c : Class) (i : Inst) (state : State) (dt : Int)
    (rawS : Dict NDArray) (rawD rawN : Dict NDArray) : Except Err (Dict DataArray × Dict DataArray) :=
  takeTracers g i rawN state "" >>= fun tr =>
  checkRaw c.inProps c.diagProps i.ignored rawD >>= fun _ =>
  checkRaw c.inProps c.outProps [] tr.2 >>= fun _ =>
  (if i.tid then insertDifferences i.name rawS tr.2 dt c.outProps.keys rawD else .ok rawD) >>= fun rawD' =>
  restoreDataArrays rawD' c.diagProps state c.inProps [] false >>= fun diag =>
  restoreDataArrays tr.2 c.outProps state c.inProps [] false >>= fun new =>
  .ok (diag, tr.1.update new)

/-- `DiagnosticComponent.__call__` after `array_call` (base_components.py:1220-1224) -/
def finishDiagnostic (c : Class) (i : Inst) (state : State) (rawD : Dict NDArray) :
    Except Err (Dict DataArray) :=
  checkRaw c.inProps c.diagProps i.ignored rawD >>= fun _ =>
  restoreDataArrays rawD c.diagProps state c.inProps [] false

/-- `TendencyComponent.__call__` (base_components.py:808-861), and
`ImplicitTendencyComponent.__call__` (1031-1087) with the timestep inside
`arrayCall`.  `arrayCall` returns (tendencies, diagnostics). -/
def callTendency {σ : Type} (R : Registry) (g : Tracers) (c : Class) (i : Inst)
    (arrayCall : σ → RawState → σ × Except Err (Dict NDArray × Dict NDArray)) (s : σ)
    (state : State) : σ × Except Err (Dict DataArray × Dict DataArray) :=
  match prepare R g c i state with
  | .error e => (s, .error e)
  | .ok raw => ((arrayCall s raw).1,
      (arrayCall s raw).2 >>= fun r => finishTendency g c i state r.1 r.2)

/-- `Stepper.__call__` (base_components.py:581-634); `arrayCall` returns
(diagnostics, new state). -/
def callStepper {σ : Type} (R : Registry) (g : Tracers) (c : Class) (i : Inst)
    (arrayCall : σ → RawState → Int → σ × Except Err (Dict NDArray × Dict NDArray)) (s : σ)
    (state : State) (dt : Int) : σ × Except Err (Dict DataArray × Dict DataArray) :=
  match prepare R g c i state with
  | .error e => (s, .error e)
  | .ok raw => ((arrayCall s raw dt).1,
      (arrayCall s raw dt).2 >>= fun r => finishStepper g c i state dt raw.arrays r.1 r.2)

/-- `DiagnosticComponent.__call__` (base_components.py:1191-1224) -/
def callDiagnostic {σ : Type} (R : Registry) (g : Tracers) (c : Class) (i : Inst)
    (arrayCall : σ → RawState → σ × Except Err (Dict NDArray)) (s : σ)
    (state : State) : σ × Except Err (Dict DataArray) :=
  match prepare R g c i state with
  | .error e => (s, .error e)
  | .ok raw => ((arrayCall s raw).1,
      (arrayCall s raw).2 >>= fun r => finishDiagnostic c i state r)

end Verif
