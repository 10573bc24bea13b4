import Verif.Model.SteppersOver
import Verif.Model.Wrappers
/-!
# A component in an UpdateFrequencyWrapper, given to a time stepper over any kind of array

`sympl/_core/wrappers.py` (UpdateFrequencyWrapper), as called by the composite of a time stepper
(`sympl/_core/composite.py`), with the time steppers of `Verif/Model/SteppersOver.lean`.
-/

namespace Verif

/-- `state['time']` -/
def EState.clock {V : Type} (s : EState V) : Except Err Int :=
  match Dict.get? s "time" with
  | some (.time t) => .ok t
  | some (.da _) => .error .typeError
  | none => .error .keyError

/-- `p` in an UpdateFrequencyWrapper (wrappers.py:206-256); `implicit`: `p` takes a timestep, which the
composite then gives (composite.py:234-238), and any other call is a TypeError.  The composite unpacks
the result (TypeError for None). -/
def updatingO {σ V : Type} (implicit : Bool) (p : ProgOver σ V) : ProgOver (σ × UFW (Dict V × Dict V)) V :=
  fun w state dt =>
    let r := w.2.call EState.clock
      (fun s x odt => if odt.isSome = implicit then p s x dt else (s, .error .typeError))
      w.1 state (if implicit then some dt else none)
    ((r.2.1, r.1),
      match r.2.2 with
      | .ok (some o) => .ok o
      | .ok none => .error .typeError
      | .error e => .error e)

end Verif
