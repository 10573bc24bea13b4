import Verif.Model.StepperInit
import Verif.Model.TimeSteppers
/-!
# Attributes set by `__init__` (`base_components.py`, `tendencystepper.py`)

`construct` (Model/Components) is `__init__` seen as a whole.  Here it is followed
attribute by attribute, because a subclass need not call it, may call it more than
once, and may catch what it raises and carry on.
-/

namespace Verif

/-- The attributes `__init__` writes to `self`.  `none` and `false` are absent attributes;
`diagC` holds the `_ignored_diagnostics` of the `_diagnostic_checker`; `outC` is
`_output_checker` or `_tendency_checker`; `initialized` is `__initialized`, mangled with
the name of the base class, which is never written otherwise. -/
structure SelfAttrs where
  tid : Option Bool := none
  name : Option String := none
  inputC : Bool := false
  diagC : Option (List String) := none
  outC : Bool := false
  packer : Option Packer := none
  initialized : Bool := false

inductive Checker where
  | input | diag | out

/-- The checkers made by `__init__`, in order (base_components.py:501-503, 753-755,
978-980, 1172-1173). -/
def checkersOf : Kind → List Checker
  | .stepper => [.input, .diag, .out]
  | .tendency => [.input, .out, .diag]
  | .implicit => [.input, .diag, .out]
  | .diagnostic => [.input, .diag]

/-- `__init__` of one checker. -/
def Checker.make (R : Registry) (c : Class) : Checker → Except Err Unit
  | .input => inputChecker c.inProps
  | .diag => diagnosticChecker R c.inProps c.diagProps
  | .out => if c.kind = .stepper then outputChecker R c.inProps c.outProps
      else tendencyChecker R c.inProps c.outProps

/-- `self._..._checker = ...`; a new DiagnosticChecker ignores nothing
(base_components.py:251-254). -/
def Checker.put (x : SelfAttrs) : Checker → SelfAttrs
  | .input => { x with inputC := true }
  | .diag => { x with diagC := some [] }
  | .out => { x with outC := true }

def makeCheckers (R : Registry) (c : Class) : List Checker → SelfAttrs → SelfAttrs × Except Err Unit
  | [], x => (x, .ok ())
  | k :: ks, x =>
    match k.make R c with
    | .error e => (x, .error e)
    | .ok _ => makeCheckers R c ks (k.put x)

/-- The end of `__init__` (base_components.py:507-516, 761-770, 985-994, 1174-1175):
Stepper sets `__initialized` before it creates the TracerPacker, the others after. -/
def finishInit (g : Tracers) (c : Class) (x : SelfAttrs) : Tracers × SelfAttrs × Except Err Unit :=
  let x1 := if c.kind = .stepper then { x with initialized := true } else x
  let r := makePacker g c
  match r.2 with
  | .error e => (r.1, x1, .error e)
  | .ok none => (r.1, { x1 with initialized := true }, .ok ())
  | .ok (some p) => (r.1, { x1 with packer := some p, initialized := true }, .ok ())

/-- `__init__` of the four base classes (base_components.py:483-516, 737-770, 961-994,
1168-1175) on an object with attributes `x`. -/
def initSelf (R : Registry) (g : Tracers) (c : Class) (tid : Bool) (name : String) (x : SelfAttrs) :
    Tracers × Class × SelfAttrs × Except Err Unit :=
  let x0 := if c.kind = .diagnostic then x else { x with tid := some tid, name := some name }
  let r := makeCheckers R c (checkersOf c.kind) x0
  match r.2 with
  | .error e => (g, c, r.1, .error e)
  | .ok _ =>
    if tid ∧ c.kind ≠ .diagnostic then
      let ins := insertProps c name
      match ins.2 with
      | .error e => (g, ins.1, r.1, .error e)
      | .ok added =>
        let f := finishInit g ins.1 { r.1 with diagC := some added }
        (f.1, ins.1, f.2)
    else
      let f := finishInit g c r.1
      (f.1, c, f.2)

/-- `__call__` before `array_call` (base_components.py:567-579, 610-616, 794-806, 836-842,
1017-1029, 1061-1067, 1177-1189, 1214-1218), starting with `_check_self_is_initialized`. -/
def startCall (R : Registry) (g : Tracers) (c : Class) (x : SelfAttrs) (state : State) : Except Err RawState :=
  if ¬ x.initialized then .error .runtimeError
  else if ¬ x.inputC then .error .attributeError
  else
    checkInputs c.inProps state >>= fun _ =>
    getNumpyArrays R state c.inProps >>= fun raw =>
    (if c.kind ≠ .diagnostic ∧ c.usesTracers then
      match x.packer with
      | none => .error .attributeError
      | some p => p.pack R g state >>= fun t => .ok (raw.set "tracers" t)
     else .ok raw) >>= fun raw' =>
    Dict.get state "time" >>= fun t =>
    .ok { arrays := raw', time := t }

/-- The attributes read after `array_call`.  Simplification: that one is missing is noticed
before any of them is used. -/
def readAttrs (c : Class) (x : SelfAttrs) : Except Err Inst :=
  match x.diagC with
  | none => .error .attributeError
  | some ign =>
    if c.kind = .diagnostic then .ok { name := "", tid := false, ignored := ign, packer := none }
    else
      match x.tid, x.name, x.outC with
      | some tid, some name, true =>
        .ok { name := name, tid := tid, ignored := ign, packer := if c.usesTracers then x.packer else none }
      | _, _, _ => .error .attributeError

/-- `__call__` of the four base classes; `arrayCall` has the timestep inside, `finish` is
`finishStepper`, `finishTendency` or `finishDiagnostic`. -/
def callSelf {σ α β : Type} (R : Registry) (g : Tracers) (c : Class) (x : SelfAttrs)
    (arrayCall : σ → RawState → σ × Except Err α) (finish : Inst → RawState → α → Except Err β) (s : σ)
    (state : State) : σ × Except Err β :=
  match startCall R g c x state with
  | .error e => (s, .error e)
  | .ok raw => ((arrayCall s raw).1, (arrayCall s raw).2 >>= fun r => readAttrs c x >>= fun i => finish i raw r)

/-- `TendencyStepper.__init__` (tendencystepper.py:124-159) as far as its own
`__initialized` goes, which `none` leaves absent: it is the last thing written. -/
def tsInitSelf (R : Registry) (o : SetOrder) (g : Tracers) (cs : List (Class × Obj)) (tid : Bool) (inst : String)
    (x : Option Bool) : Option Bool × Except Err Unit :=
  match tsConstruct R o g cs tid inst with
  | .error e => (x, .error e)
  | .ok _ => (some true, .ok ())

/-- `TendencyStepper.__call__` (tendencystepper.py:191-203): reading an absent attribute
raises AttributeError, an `__initialized` that is false would raise AssertionError. -/
def tsCallSelf {τ σ : Type} (initialized : Option Bool)
    (call : τ → σ → State → Int → τ × σ × State × Except Err (Dict DataArray × State))
    (x : τ) (s : σ) (state : State) (dt : Int) : τ × σ × State × Except Err (Dict DataArray × State) :=
  match initialized with
  | none => (x, s, state, .error .attributeError)
  | some false => (x, s, state, .error .assertion)
  | some true => call x s state dt

end Verif
