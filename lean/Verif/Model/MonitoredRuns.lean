import Verif.Model.StepperMemory
import Verif.Model.Monitors
/-!
# Runs with a NetCDFMonitor, with array identity

The main loop of docs/quickstart.rst:44-51 with a time stepper of
`Model/StepperMemory` and a monitor of `Model/Monitors`, which share their arrays.
-/

namespace Verif

/-- A call of a time stepper: its memory, the arrays, the state and the timestep. -/
abbrev HStepper (τ σ : Type) := τ → SMem σ → RState → Int → τ × SMem σ × Except Err (Dict Ref × RState)

/-- `_step_2_stages` (timesteppers.py:65-71); `add` and `multiply` (state.py:7-60) make
new arrays.  Those of the sum are not reachable afterwards and left out. -/
def ssprk2H {σ : Type} (R : Registry) (cs : List (RComp σ)) : HStepper ABH σ := fun ab m state dt =>
  match ABH.call R cs ab m state dt with
  | (ab, m, .error e) => (ab, m, .error e)
  | (ab, m, .ok (diag, state1)) =>
    match ABH.call R cs ab m state1 dt with
    | (ab, m, .error e) => (ab, m, .error e)
    | (ab, m, .ok (_, state2)) =>
      match (addStates (state.read m.ext) (state2.read m.ext) >>= fun x => scaleState (1 / 2) x) with
      | .error e => (ab, m, .error e)
      | .ok out => (ab, (allocState out m).1, .ok (diag, (allocState out m).2))

/-- `_step_3_stages` (timesteppers.py:57-63) -/
def ssprk3H {σ : Type} (R : Registry) (cs : List (RComp σ)) : HStepper ABH σ := fun ab m state dt =>
  match ABH.call R cs ab m state dt with
  | (ab, m, .error e) => (ab, m, .error e)
  | (ab, m, .ok (diag, state1)) =>
    match ABH.call R cs ab m state1 dt with
    | (ab, m, .error e) => (ab, m, .error e)
    | (ab, m, .ok (_, state15)) =>
      match (scaleState (3 / 4) (state.read m.ext) >>= fun x =>
          scaleState (1 / 4) (state15.read m.ext) >>= fun y => addStates x y) with
      | .error e => (ab, m, .error e)
      | .ok state2 =>
        match ABH.call R cs ab (allocState state2 m).1 (allocState state2 m).2 dt with
        | (ab, m, .error e) => (ab, m, .error e)
        | (ab, m, .ok (_, state25)) =>
          match (scaleState (1 / 3) (state.read m.ext) >>= fun x =>
              scaleState (2 / 3) (state25.read m.ext) >>= fun y => addStates x y) with
          | .error e => (ab, m, .error e)
          | .ok out => (ab, (allocState out m).1, .ok (diag, (allocState out m).2))

/-- `SSPRungeKutta._call` (timesteppers.py:52-55) -/
def ssprkH {σ : Type} (R : Registry) (cs : List (RComp σ)) (three : Bool) : HStepper ABH σ :=
  if three then ssprk3H R cs else ssprk2H R cs

/-- `state['time']` -/
def RState.time (s : RState) : Except Err Int :=
  match Dict.get? s "time" with
  | some (.time t) => .ok t
  | some (.ref _) => .error .typeError
  | none => .error .keyError

/-- The entries of a dictionary of diagnostics; composites return the components' own
arrays (`compositeLoopH_diag`), so that no entry is left out. -/
def diagEntries (diag : Dict Ref) : RState :=
  diag.filterMap fun kv =>
    match kv.2 with
    | .ext l => some (kv.1, .ref l)
    | .own _ => none

/-- The state as a monitor gets it. -/
def RVal.held : RVal → HVal
  | .ref l => .ref l
  | .time t => .time t

def RState.held (s : RState) : HState := Dict.mapVal RVal.held s

/-- The variables of the main loop: the time stepper, the arrays, the state of the last
step with its diagnostics (`state` after quickstart.rst:46), and the state to step from
(`next_state`, then `state` in the next round). -/
structure Drive (τ σ : Type) where
  stepper : τ
  mem : SMem σ
  last : Option RState
  state : RState

/-- `diagnostics, next_state = stepper(state, timestep); state.update(diagnostics);
next_state['time'] = state['time'] + timestep` (docs/quickstart.rst:45-51); the time
must be there, as `while state['time'] < …` asks first. -/
def Drive.advance {τ σ : Type} (call : HStepper τ σ) (dt : Int) (d : Drive τ σ) : Drive τ σ × Except Err Unit :=
  match d.state.time with
  | .error e => (d, .error e)
  | .ok t =>
    match call d.stepper d.mem d.state dt with
    | (x, m, .error e) => ({ d with stepper := x, mem := m }, .error e)
    | (x, m, .ok (diag, new)) =>
      ({ stepper := x, mem := m, last := some (Dict.update d.state (diagEntries diag))
         state := Dict.set new "time" (.time (t + dt)) }, .ok ())

/-- What a program does: a step, storing the state about to be stepped, storing the
state of the last step with its diagnostics, writing. -/
inductive MOp where
  | step
  | storeState
  | storeLast
  | write
  deriving DecidableEq

/-- One operation of a program with a NetCDFMonitor (netcdf.py:68-116, 163-186). -/
def MOp.run {τ σ : Type} (order : SetOrder) (call : HStepper τ σ) (dt : Int) (w : Drive τ σ × HNCMon) :
    MOp → (Drive τ σ × HNCMon) × Except Err Unit
  | .step => (((w.1.advance call dt).1, w.2), (w.1.advance call dt).2)
  | .storeState =>
    ((w.1, (ncStoreH order w.1.mem.ext w.2 w.1.state.held).1), (ncStoreH order w.1.mem.ext w.2 w.1.state.held).2)
  | .storeLast =>
    match w.1.last with
    | none => (w, .ok ())
    | some s => ((w.1, (ncStoreH order w.1.mem.ext w.2 s.held).1), (ncStoreH order w.1.mem.ext w.2 s.held).2)
  | .write => ((w.1, (ncWriteH w.1.mem.ext w.2).1), (ncWriteH w.1.mem.ext w.2).2)

/-- A program: where it ends, and what each operation returned or raised. -/
def runMonitored {τ σ : Type} (order : SetOrder) (call : HStepper τ σ) (dt : Int) :
    List MOp → Drive τ σ × HNCMon → (Drive τ σ × HNCMon) × List (Except Err Unit)
  | [], w => (w, [])
  | op :: ops, w =>
    ((runMonitored order call dt ops (op.run order call dt w).1).1,
      (op.run order call dt w).2 :: (runMonitored order call dt ops (op.run order call dt w).1).2)

end Verif
