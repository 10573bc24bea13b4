import Verif.Model.Composite
/-!
# Time steppers (`sympl/_components/timesteppers.py`, `_core/tendencystepper.py`, `_core/state.py`)

`prog` is `self.prognostic(state, timestep)`: an arbitrary function of the components'
world (in particular `callImplicitComposite`).  A stepper's own memory is a record that
each call takes and returns, also when it raises.

Simplifications: floating point coefficients are rational numbers; a state is a value,
so two entries of a state never share an array; adding to or scaling a `datetime` found
under a quantity's name raises AttributeError.
-/

namespace Verif

/-- `self.prognostic(state, timestep)` -/
abbrev Prog (σ : Type) := σ → State → Int → σ × Except Err TendOut

/-! ## `state.py` -/

/-- `copy_untouched_quantities` (state.py:1-4) -/
def copyUntouched : State → State → State
  | [], new => new
  | (k, v) :: old, new =>
    if k ∈ Dict.keys new then copyUntouched old new else copyUntouched old (Dict.set new k v)

/-- Loop of `add` (state.py:11-15) -/
def addStatesLoop (s2 : State) : State → State → Except Err State
  | [], out => .ok out
  | (k, v) :: rest, out =>
    if k = "time" then addStatesLoop s2 rest out
    else
      match v with
      | .time _ => .error .attributeError
      | .da a =>
        State.da s2 k >>= fun b => a.add b >>= fun r =>
        addStatesLoop s2 rest (Dict.set out k (.da { r with attrs := a.attrs }))

/-- the entry `'time'`, first in the new dictionary (state.py:9-10, 21-22) -/
def timeEntry (s : State) : State :=
  match Dict.get? s "time" with
  | some v => [("time", v)]
  | none => []

/-- `add` (state.py:7-16) -/
def addStates (s1 s2 : State) : Except Err State := addStatesLoop s2 s1 (timeEntry s1)

/-- Loop of `multiply` (state.py:23-27) -/
def scaleStateLoop (c : Rat) : State → State → Except Err State
  | [], out => .ok out
  | (k, v) :: rest, out =>
    if k = "time" then scaleStateLoop c rest out
    else
      match v with
      | .time _ => .error .attributeError
      | .da a => scaleStateLoop c rest (Dict.set out k (.da { a.smul c with attrs := a.attrs }))

/-- `multiply` (state.py:19-28) -/
def scaleState (c : Rat) (s : State) : Except Err State := scaleStateLoop c s (timeEntry s)

/-! ## Adams-Bashforth -/

/-- One entry of `convert_tendencies_units_for_state` (timesteppers.py:170-173) -/
def convertTendency (R : Registry) (state : State) (q : String) (v : DataArray) : Except Err DataArray :=
  match v.attrs.get? "units" with
  | none => .ok v
  | some _ =>
    State.da state q >>= fun s => s.attrs.get "units" >>= fun u => v.toUnits R (u ++ " s^-1")

/-- `convert_tendencies_units_for_state` (timesteppers.py:163-173) -/
def convertTendencies (R : Registry) (state : State) : Dict DataArray → Except Err (Dict DataArray)
  | [] => .ok []
  | (q, v) :: rest =>
    convertTendency R state q v >>= fun v' =>
    convertTendencies R state rest >>= fun rest' => .ok ((q, v') :: rest')

/-- `{key: f(key) for key in keys}`, the loops of the schemes below. -/
def stepKeys (f : String → Except Err DataArray) : List String → Except Err State
  | [] => .ok []
  | k :: ks => f k >>= fun v => stepKeys f ks >>= fun rest => .ok ((k, .da v) :: rest)

/-- `step_forward_euler` (timesteppers.py:320-324) -/
def stepEuler (state : State) (t : Dict DataArray) (dt : Int) : Except Err State :=
  stepKeys (fun k => State.da state k >>= fun x => t.get k >>= fun v => x.add (v.smul (seconds dt))) t.keys

/-- `second_bashforth` (timesteppers.py:327-338); `t0` is `tendencies_list[0]`, and
`t2`, `t1` are `tendencies_list[-2]`, `[-1]`. -/
def secondBashforth (state : State) (t0 t2 t1 : Dict DataArray) (dt : Int) : Except Err State :=
  stepKeys (fun k => State.da state k >>= fun x => t1.get k >>= fun v1 => t2.get k >>= fun v2 =>
    (v1.smul (3 / 2)).sub (v2.smul (1 / 2)) >>= fun d => x.add (d.smul (seconds dt))) t0.keys

/-- `third_bashforth` (timesteppers.py:341-352) -/
def thirdBashforth (state : State) (t0 t3 t2 t1 : Dict DataArray) (dt : Int) : Except Err State :=
  stepKeys (fun k => State.da state k >>= fun x => t1.get k >>= fun v1 => t2.get k >>= fun v2 =>
    (v1.smul (23 / 12)).sub (v2.smul (4 / 3)) >>= fun d => t3.get k >>= fun v3 =>
    d.add (v3.smul (5 / 12)) >>= fun d => x.add (d.smul (seconds dt))) t0.keys

/-- `fourth_bashforth` (timesteppers.py:355-366) -/
def fourthBashforth (state : State) (t0 t4 t3 t2 t1 : Dict DataArray) (dt : Int) : Except Err State :=
  stepKeys (fun k => State.da state k >>= fun x => t1.get k >>= fun v1 => t2.get k >>= fun v2 =>
    (v1.smul (55 / 24)).sub (v2.smul (59 / 24)) >>= fun d => t3.get k >>= fun v3 =>
    d.add (v3.smul (37 / 24)) >>= fun d => t4.get k >>= fun v4 =>
    d.sub (v4.smul (3 / 8)) >>= fun d => x.add (d.smul (seconds dt))) t0.keys

/-- Memory of an AdamsBashforth: `_order`, `_timestep`, `_tendencies_list` (oldest
first) (timesteppers.py:96-98). -/
structure AB where
  order : Nat
  timestep : Option Int := none
  hist : List (Dict DataArray) := []

/-- `AdamsBashforth.__init__` for an integer order (timesteppers.py:89-97) -/
def AB.make (order : Int) : Except Err AB :=
  if 1 ≤ order ∧ order ≤ 4 then .ok { order := order.toNat } else .error .valueError

/-- `_perform_step` (timesteppers.py:138-153) -/
def performStep (order : Nat) (hist : List (Dict DataArray)) (state : State) (dt : Int) : Except Err State :=
  match hist, hist.reverse with
  | t0 :: _, t1 :: prev =>
    match min order hist.length, prev with
    | 1, _ => stepEuler state t1 dt
    | 2, t2 :: _ => secondBashforth state t0 t2 t1 dt
    | 3, t2 :: t3 :: _ => thirdBashforth state t0 t3 t2 t1 dt
    | 4, t2 :: t3 :: t4 :: _ => fourthBashforth state t0 t4 t3 t2 t1 dt
    | _, _ => .error .runtimeError
  | _, _ => .error .runtimeError

/-- `AdamsBashforth._call` (timesteppers.py:101-136), with `_ensure_constant_timestep`
(155-160).  Returns the stepper, the
components' world and (diagnostics, new state). -/
def AB.call {σ : Type} (R : Registry) (prog : Prog σ) (ab : AB) (s : σ) (state : State) (dt : Int) :
    AB × σ × Except Err (Dict DataArray × State) :=
  if ab.timestep = none ∨ ab.timestep = some dt then
    let ab1 := { ab with timestep := some dt }
    match (prog s state dt).2 with
    | .error e => (ab1, (prog s state dt).1, .error e)
    | .ok r =>
      match convertTendencies R state r.1 with
      | .error e => (ab1, (prog s state dt).1, .error e)
      | .ok t =>
        let ab2 := { ab1 with hist := ab.hist ++ [t] }
        match performStep ab.order (ab.hist ++ [t]) state dt with
        | .error e => (ab2, (prog s state dt).1, .error e)
        | .ok new =>
          (if (ab.hist ++ [t]).length = ab.order then { ab1 with hist := (ab.hist ++ [t]).tail } else ab2,
            (prog s state dt).1, .ok (r.2, copyUntouched state new))
  else (ab, s, .error .valueError)

/-! ## Leapfrog -/

/-- Memory of a Leapfrog (timesteppers.py:212-215) -/
structure LF where
  strength : Rat := 1 / 20
  alpha : Rat := 1 / 2
  timestep : Option Int := none
  old : Option State := none

/-- `a += b` on a DataArray: ValueError if `b` has a dimension `a` lacks (xarray
`Variable._inplace_binary_op`). -/
def DataArray.iadd (a b : DataArray) : Except Err DataArray :=
  if ∀ d ∈ b.dims, d ∈ a.dims then a.add b else .error .valueError

/-- Body of the loop of `step_leapfrog` (timesteppers.py:309-316): the filtered
current value and the new value (the latter may raise after the former was changed in
place). -/
def leapfrogEntry (strength alpha : Rat) (old x t : DataArray) (dt : Int) :
    Except Err (DataArray × Except Err DataArray) :=
  old.add ((t.smul 2).smul (seconds dt)) >>= fun new =>
  old.sub (x.smul 2) >>= fun d => d.add new >>= fun d =>
  let filt := d.smul (1 / 2 * strength)
  x.iadd (filt.smul alpha) >>= fun x' =>
  .ok (x', if alpha ≠ 1 then new.iadd (filt.smul (alpha - 1)) else .ok new)

/-- Loop of `step_leapfrog` (timesteppers.py:308-317).  The entries of `state` are
changed in place, so the changed state is returned also on an exception. -/
def stepLeapfrog (strength alpha : Rat) (old : State) (t : Dict DataArray) (dt : Int) :
    List String → State → State → State × Except Err State
  | [], state, new => (state, .ok new)
  | k :: ks, state, new =>
    match (State.da old k >>= fun o => State.da state k >>= fun x => t.get k >>= fun v =>
        leapfrogEntry strength alpha o x v dt) with
    | .error e => (state, .error e)
    | .ok r =>
      match r.2 with
      | .error e => (Dict.set state k (.da r.1), .error e)
      | .ok n => stepLeapfrog strength alpha old t dt ks (Dict.set state k (.da r.1)) (Dict.set new k (.da n))

/-- `Leapfrog._call` (timesteppers.py:218-262), with `_ensure_constant_timestep`
(264-269).  Returns the stepper, the components'
world, the caller's state (changed by the filter) and (diagnostics, new state).
Simplification: the order of the keys of the caller's state is as in the copy. -/
def LF.call {σ : Type} (R : Registry) (prog : Prog σ) (lf : LF) (s : σ) (state : State) (dt : Int) :
    LF × σ × State × Except Err (Dict DataArray × State) :=
  if lf.timestep = none ∨ lf.timestep = some dt then
    let lf1 := { lf with timestep := some dt }
    match (prog s state dt).2 with
    | .error e => (lf1, (prog s state dt).1, state, .error e)
    | .ok r =>
      match convertTendencies R state r.1 with
      | .error e => (lf1, (prog s state dt).1, state, .error e)
      | .ok t =>
        match lf.old with
        | none =>
          match stepEuler state t dt with
          | .error e => (lf1, (prog s state dt).1, state, .error e)
          | .ok new => ({ lf1 with old := some state }, (prog s state dt).1, state,
              .ok (r.2, copyUntouched state new))
        | some old =>
          let p := stepLeapfrog lf.strength lf.alpha old t dt t.keys state []
          match p.2 with
          | .error e => (lf1, (prog s state dt).1, p.1, .error e)
          | .ok new => ({ lf1 with old := some p.1 }, (prog s state dt).1, p.1,
              .ok (r.2, copyUntouched p.1 new))
  else (lf, s, state, .error .valueError)

/-! ## SSPRungeKutta -/

/-- `SSPRungeKutta._euler_stepper(state, timestep)`: `TendencyStepper.__call__`
(tendencystepper.py:191-203) of an AdamsBashforth, without tendencies in diagnostics. -/
def eulerCall {σ : Type} (R : Registry) (prog : Prog σ) (ab : AB) (s : σ) (state : State) (dt : Int) :
    AB × σ × Except Err (Dict DataArray × State) :=
  let r := AB.call R prog ab s state dt
  (r.1, r.2.1, r.2.2 >>= fun o => .ok (o.1, copyUntouched state o.2))

/-- `_step_2_stages` (timesteppers.py:65-71) -/
def ssprk2 {σ : Type} (R : Registry) (prog : Prog σ) (ab : AB) (s : σ) (state : State) (dt : Int) :
    AB × σ × Except Err (Dict DataArray × State) :=
  match eulerCall R prog ab s state dt with
  | (ab, s, .error e) => (ab, s, .error e)
  | (ab, s, .ok (diag, state1)) =>
    match eulerCall R prog ab s state1 dt with
    | (ab, s, .error e) => (ab, s, .error e)
    | (ab, s, .ok (_, state2)) =>
      (ab, s, addStates state state2 >>= fun x => scaleState (1 / 2) x >>= fun out => .ok (diag, out))

/-- `_step_3_stages` (timesteppers.py:57-63) -/
def ssprk3 {σ : Type} (R : Registry) (prog : Prog σ) (ab : AB) (s : σ) (state : State) (dt : Int) :
    AB × σ × Except Err (Dict DataArray × State) :=
  match eulerCall R prog ab s state dt with
  | (ab, s, .error e) => (ab, s, .error e)
  | (ab, s, .ok (diag, state1)) =>
    match eulerCall R prog ab s state1 dt with
    | (ab, s, .error e) => (ab, s, .error e)
    | (ab, s, .ok (_, state15)) =>
      match (scaleState (3 / 4) state >>= fun x => scaleState (1 / 4) state15 >>= fun y => addStates x y) with
      | .error e => (ab, s, .error e)
      | .ok state2 =>
        match eulerCall R prog ab s state2 dt with
        | (ab, s, .error e) => (ab, s, .error e)
        | (ab, s, .ok (_, state25)) =>
          (ab, s, scaleState (1 / 3) state >>= fun x => scaleState (2 / 3) state25 >>= fun y =>
            addStates x y >>= fun out => .ok (diag, out))

/-- `SSPRungeKutta._call` (timesteppers.py:52-55), for the two numbers of stages the
constructor accepts (25-27). -/
def ssprkCall {σ : Type} (R : Registry) (prog : Prog σ) (three : Bool) (ab : AB) (s : σ) (state : State) (dt : Int) :
    AB × σ × Except Err (Dict DataArray × State) :=
  if three then ssprk3 R prog ab s state dt else ssprk2 R prog ab s state dt

/-! ## TendencyStepper -/

/-- `TendencyStepper._tendency_properties` (tendencystepper.py:93-100) -/
def tsTendencyProps (R : Registry) (o : SetOrder) (g : Tracers) (cs : List Class) : Except Err PropDict :=
  combineInputs R o g cs >>= fun inP => combineTendencies R o cs inP

/-- Units of one output (tendencystepper.py:88-90) -/
def timesSecond (R : Registry) (p : QProps) : Except Err QProps :=
  match p.units with
  | some u => R.cleanUnits (u ++ " s") >>= fun v => .ok { p with units := some v }
  | none => .error .keyError

/-- `TendencyStepper.output_properties` (tendencystepper.py:85-91) -/
def tsOutputProps (R : Registry) (o : SetOrder) (g : Tracers) (cs : List Class) : Except Err PropDict :=
  tsTendencyProps R o g cs >>= fun t =>
  t.mapM (fun kv => timesSecond R kv.2 >>= fun p => .ok (kv.1, p))

/-- `TendencyStepper.input_properties` (tendencystepper.py:55-59) -/
def tsInputProps (R : Registry) (o : SetOrder) (g : Tracers) (cs : List Class) : Except Err PropDict :=
  combineInputs R o g cs >>= fun inP => tsOutputProps R o g cs >>= fun outP =>
  combineProperties R o [inP, outP]

/-- Body of the loop of `_insert_tendencies_to_diagnostics`
(tendencystepper.py:218-228), with the time unit of one second.  Simplification:
division by a zero timestep gives 0 instead of inf/nan. -/
def netTendency (R : Registry) (inProps : PropDict) (state new : State) (dt : Int) (n : String) :
    Except Err DataArray :=
  inProps.get n >>= fun p =>
  (match p.units with | some u => .ok u | none => .error .keyError) >>= fun base =>
  State.da new n >>= fun a => a.toUnits R base >>= fun a' =>
  State.da state n >>= fun b => b.toUnits R base >>= fun b' =>
  a'.sub b' >>= fun d =>
  .ok { d with arr := d.arr.map (fun x => x / seconds dt * 1), attrs := [("units", perSecond base)] }

/-- Loop of `_insert_tendencies_to_diagnostics` (tendencystepper.py:209-228) -/
def insertNet (R : Registry) (inProps : PropDict) (inst : String) (state new : State) (dt : Int) :
    List String → Dict DataArray → Except Err (Dict DataArray)
  | [], diag => .ok diag
  | n :: rest, diag =>
    if tendencyName n inst ∈ diag.keys then .error .runtimeError
    else netTendency R inProps state new dt n >>= fun d =>
      insertNet R inProps inst state new dt rest (diag.set (tendencyName n inst) d)

/-- `TendencyStepper.__call__` (tendencystepper.py:172-203) for any `_call`.  `inProps`
and `outProps` are the properties as evaluated during the call, needed only with
tendencies in diagnostics. -/
def tsCall {τ σ : Type} (R : Registry) (inProps outProps : PropDict) (inst : String) (tid : Bool)
    (call : τ → σ → State → Int → τ × σ × State × Except Err (Dict DataArray × State))
    (x : τ) (s : σ) (state : State) (dt : Int) : τ × σ × State × Except Err (Dict DataArray × State) :=
  let r := call x s state dt
  (r.1, r.2.1, r.2.2.1, r.2.2.2 >>= fun o =>
    let new := copyUntouched r.2.2.1 o.2
    (if tid then insertNet R inProps inst r.2.2.1 new dt outProps.keys o.1 else .ok o.1) >>= fun diag =>
    .ok (diag, new))

end Verif
