import Verif.Model.NetCDF
import Verif.Model.TimeSteppers
/-!
# The main loop of the documentation
-/

namespace Verif

/-- The main loop of docs/quickstart.rst:44-51 with a NetCDFMonitor,

    while state['time'] < stop:
        diagnostics, next_state = stepper(state, timestep)
        state.update(diagnostics)
        monitor.store(state)
        next_state['time'] = state['time'] + timestep
        state = next_state

cut off after a number of turns.  `call` is the stepper, or several called one after another;
its third result is the caller's state after the call.  The result is the monitor and, if the
loop ended, its exception or the last state. -/
def documentedLoop {τ σ : Type} (order : SetOrder)
    (call : τ → σ → State → Int → τ × σ × State × Except Err (Dict DataArray × State)) (dt stop : Int) :
    Nat → τ → σ → State → NCMon → NCMon × Option (Except Err State)
  | 0, _, _, _, m => (m, none)
  | n + 1, x, s, state, m =>
    match State.time state with
    | .error e => (m, some (.error e))
    | .ok t =>
      if t < stop then
        match call x s state dt with
        | (_, _, _, .error e) => (m, some (.error e))
        | (x', s', st, .ok (diag, next)) =>
          match ncStore order m (Dict.update st (Dict.mapVal Val.da diag)) with
          | (m', .error e) => (m', some (.error e))
          | (m', .ok ()) =>
            match State.time (Dict.update st (Dict.mapVal Val.da diag)) with
            | .error e => (m', some (.error e))
            | .ok t' => documentedLoop order call dt stop n x' s' (Dict.set next "time" (.time (t' + dt))) m'
      else (m, some (.ok state))

end Verif
