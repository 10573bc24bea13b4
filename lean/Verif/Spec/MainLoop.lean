import Verif.Spec.WriteTimes
import Verif.Spec.RunsComplete
/-!
# Specifications for C112: the main loop of the documentation
-/

namespace Verif

/-- The states of a run of `n` steps, each with the diagnostics of its step; the time advances
by `dt` from one to the next. -/
def statesOfRun {τ σ : Type} (call : τ → σ → State → Int → τ × σ × State × Except Err (Dict DataArray × State)) (dt : Int) :
    Nat → Int → τ → σ → State → List State
  | 0, _, _, _, _ => []
  | n + 1, t, x, s, state =>
    match call x s state dt with
    | (x', s', st, .ok (diag, next)) =>
      Dict.update st (Dict.mapVal Val.da diag) ::
        statesOfRun call dt n (t + dt) x' s' (Dict.set next "time" (.time (t + dt)))
    | _ => []

/-- A state for the time `t` with the quantities of `D`, with their dims and attributes, and
with the lengths `L` of dimensions. -/
structure HasQuantities (L : String → Nat) (D : String → Option (List String × Dict String)) (t : Int) (s : State) : Prop where
  keys : (Dict.keys s).Nodup
  time : Dict.get? s "time" = some (.time t)
  absent : ∀ q, q ≠ "time" → D q = none → Dict.get? s q = none
  present : ∀ q ds u, q ≠ "time" → D q = some (ds, u) → ∃ a, Dict.get? s q = some (.da a) ∧
    a.dims = ds ∧ a.attrs = u ∧ a.arr.shape = ds.map L

/-- The file has record `i` for state `i`, and no others: its time `t0 + i * dt`, as a number
of units since `t0` (dates) or zero (timedeltas), and each quantity with its values, dims and
attributes. -/
structure FileOfRun (us : Rat) (deltas : Bool) (t0 dt : Int) (states : List State) (f : NCFile) : Prop where
  ntime : f.ntime = states.length
  timeVar : f.timeVar = some (us, if deltas then 0 else t0)
  times : ∀ i < states.length, ∃ n, f.times i = some n ∧ WholeUnits us (if deltas then 0 else t0) (t0 + i * dt) n
  names : ∀ s ∈ states, ∀ q, q ∈ Dict.keys f.vars ↔ q ∈ Dict.keys s ∧ q ≠ "time"
  values : ∀ (i : Nat) s q a, states[i]? = some s → Dict.get? s q = some (.da a) →
    ∃ v, f.vars.get? q = some v ∧ v.dims = "time" :: a.dims ∧ v.attrs = a.attrs ∧ v.rows i = some a.arr

/-- Diagnostics of the quantities of `G`, with their dims and attributes, and with the lengths
`L` of dimensions. -/
structure DiagnosticsOf (L : String → Nat) (G : String → Option (List String × Dict String)) (d : Dict DataArray) : Prop where
  keys : (Dict.keys d).Nodup
  absent : ∀ q, G q = none → Dict.get? d q = none
  present : ∀ q ds u, G q = some (ds, u) → ∃ a, Dict.get? d q = some a ∧ a.dims = ds ∧ a.attrs = u ∧ a.arr.shape = ds.map L

/-- The state for another time. -/
def State.moved (state : State) (t : Int) : State := Dict.set state "time" (.time t)

/-- The quantities that are in the file: those of the state, with the diagnostics. -/
def withDiagnostics (state0 : State) (G : String → Option (List String × Dict String)) (q : String) :
    Option (List String × Dict String) :=
  (G q).or (match Dict.get? state0 q with
    | some (.da a) => some (a.dims, a.attrs)
    | _ => none)

end Verif
