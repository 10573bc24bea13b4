import Verif.Model.TimeSteppers
/-!
# `sympl/_core/wrappers.py` and TimeDifferencingWrapper (`sympl/_components/basic.py`)

ScalingWrapper changes arrays in place, so arrays are objects here: a memory is the
world of the component and a list of arrays, and dictionaries hold positions in it.
`out.values` of xarray shares memory with the DataArray, so a DataArray and its data
are one object.

Simplification: a component does not change the dictionaries it is given.
-/

namespace Verif

/-! ## ScalingWrapper -/

/-- Memory: the world of the component and all arrays. -/
structure WMem (σ : Type) where
  world : σ
  arrays : List DataArray

/-- An entry of a dictionary: an array object or the model time. -/
inductive RVal where
  | ref (l : Nat)
  | time (t : Int)
  deriving DecidableEq

/-- A dictionary of array objects. -/
abbrev RState := Dict RVal

namespace WMem
variable {σ : Type}

/-- The array at a position. -/
def at' (m : WMem σ) (l : Nat) : DataArray := m.arrays.getD l ⟨[], NDArray.zeros [], []⟩

/-- A new array. -/
def alloc (m : WMem σ) (a : DataArray) : WMem σ × Nat :=
  ({ m with arrays := m.arrays ++ [a] }, m.arrays.length)

/-- In-place change of an array. -/
def write (m : WMem σ) (l : Nat) (a : DataArray) : WMem σ := { m with arrays := m.arrays.set l a }

end WMem

/-- `array * float(factor)` with the attributes of `array` put back
(wrappers.py:145-146); also the value of `array` after `array *= float(factor)`, which
keeps attributes. -/
def DataArray.scaled (a : DataArray) (f : Rat) : DataArray := { a.smul f with attrs := a.attrs }

/-- A wrapped component called with a state and perhaps a timestep.  It returns its
two dictionaries: (diagnostics, new state) of a Stepper, (tendencies, diagnostics) of
the tendency components, and (diagnostics, {}) of a DiagnosticComponent. -/
abbrev WComp (σ : Type) := WMem σ → RState → Option Int → WMem σ × Except Err (RState × RState)

/-- What ScalingWrapper stores (wrappers.py:69-108) -/
structure Scaling where
  input : Dict Rat := []
  diagnostic : Dict Rat := []
  output : Dict Rat := []
  tendency : Dict Rat := []

/-- `_ensure_fields_have_properties` and the loop for inputs (wrappers.py:73-76,
110-116) -/
def ensureFields (f : Dict Rat) (p : PropDict) : Except Err Unit :=
  if ∀ k ∈ f.keys, k ∈ p.keys then .ok () else .error .valueError

/-- One optional dictionary of factors: `none` is None; TypeError if the component
lacks the property dictionary (wrappers.py:80-108). -/
def factorsFor (f : Option (Dict Rat)) (p : Option PropDict) : Except Err (Dict Rat) :=
  match f with
  | none => .ok []
  | some f =>
    match p with
    | none => .error .typeError
    | some p => ensureFields f p >>= fun _ => .ok f

/-- `ScalingWrapper.__init__` (wrappers.py:22-108).  A component without
`input_properties` fails `isinstance`. -/
def Scaling.make (o : Obj) (props : HasProps) (inF outF tendF diagF : Option (Dict Rat)) :
    Except Err Scaling :=
  if [Kind.diagnostic, .tendency, .implicit, .stepper].any (fun k => isInstance k o) then
    factorsFor inF (some (props.input.getD [])) >>= fun i =>
    factorsFor diagF props.diagnostic >>= fun d =>
    factorsFor outF props.output >>= fun out =>
    factorsFor tendF props.tendency >>= fun t =>
    .ok { input := i, diagnostic := d, output := out, tendency := t }
  else .error .typeError

/-- The loop building `scaled_state` (wrappers.py:142-148) over
`self.input_properties.keys()`. -/
def scaleInputs {σ : Type} (f : Dict Rat) (state : RState) :
    List String → WMem σ → RState → WMem σ × Except Err RState
  | [], m, out => (m, .ok out)
  | k :: ks, m, out =>
    match Dict.get? state k with
    | none => (m, .error .keyError)
    | some v =>
      match f.get? k with
      | none => scaleInputs f state ks m (out.set k v)
      | some c =>
        match v with
        | .time _ => (m, .error .typeError)
        | .ref l =>
          let a := m.alloc ((m.at' l).scaled c)
          scaleInputs f state ks a.1 (out.set k (.ref a.2))

/-- A loop `d[name] *= float(factor)` (wrappers.py:154-159, 163-168, 174-179, 183-185) -/
def scaleOutputs {σ : Type} : Dict Rat → WMem σ → RState → WMem σ × Except Err Unit
  | [], m, _ => (m, .ok ())
  | (k, c) :: rest, m, d =>
    match Dict.get? d k with
    | none => (m, .error .keyError)
    | some (.time _) => (m, .error .typeError)
    | some (.ref l) => scaleOutputs rest (m.write l ((m.at' l).scaled c)) d

/-- The two loops after the call, and the return. -/
def scaleBoth {σ : Type} (f1 f2 : Dict Rat) (d1 d2 : RState) (m : WMem σ) (out : RState × RState) :
    WMem σ × Except Err (RState × RState) :=
  match scaleOutputs f1 m d1 with
  | (m1, .error e) => (m1, .error e)
  | (m1, .ok _) =>
    match scaleOutputs f2 m1 d2 with
    | (m2, .error e) => (m2, .error e)
    | (m2, .ok _) => (m2, .ok out)

/-- `if 'time' in state: scaled_state['time'] = state['time']` (wrappers.py:139-140) -/
def timeOf (state : RState) : RState :=
  match Dict.get? state "time" with
  | some v => [("time", v)]
  | none => []

/-- `ScalingWrapper.__call__` (wrappers.py:121-189).  `inKeys` are the keys of the
component's `input_properties`. -/
def Scaling.call {σ : Type} (w : Scaling) (o : Obj) (inKeys : List String) (comp : WComp σ)
    (m : WMem σ) (state : RState) (dt : Option Int) : WMem σ × Except Err (RState × RState) :=
  match scaleInputs w.input state inKeys m (timeOf state) with
  | (m1, .error e) => (m1, .error e)
  | (m1, .ok s1) =>
    if isInstance .stepper o then
      match dt with
      | none => (m1, .error .typeError)
      | some dt =>
        match comp m1 s1 (some dt) with
        | (m2, .error e) => (m2, .error e)
        | (m2, .ok r) => scaleBoth w.output w.diagnostic r.2 r.1 m2 r
    else if isInstance .tendency o then
      match comp m1 s1 none with
      | (m2, .error e) => (m2, .error e)
      | (m2, .ok r) => scaleBoth w.tendency w.diagnostic r.1 r.2 m2 r
    else if isInstance .implicit o then
      match dt with
      | none => (m1, .error .typeError)
      | some dt =>
        match comp m1 s1 (some dt) with
        | (m2, .error e) => (m2, .error e)
        | (m2, .ok r) => scaleBoth w.tendency w.diagnostic r.1 r.2 m2 r
    else if isInstance .diagnostic o then
      match comp m1 s1 none with
      | (m2, .error e) => (m2, .error e)
      | (m2, .ok r) => scaleBoth [] w.diagnostic [] r.1 m2 r
    else (m1, .error .runtimeError)

/-! ## UpdateFrequencyWrapper -/

/-- Memory of an UpdateFrequencyWrapper (wrappers.py:218-221) -/
structure UFW (Out : Type) where
  delta : Int
  cached : Option Out := none
  last : Option Int := none

/-- Running the component (wrappers.py:245-251): a TypeError of the call with the
timestep is followed by a call without it. -/
def runComponent {σ S Out : Type} (comp : σ → S → Option Int → σ × Except Err Out) (s : σ) (state : S)
    (dt : Option Int) : σ × Except Err Out :=
  match dt with
  | none => comp s state none
  | some dt =>
    match comp s state (some dt) with
    | (s1, .error .typeError) => comp s1 state none
    | r => r

/-- Running the component and storing its output and then the time
(wrappers.py:245-252). -/
def UFW.refresh {σ S Out : Type} (time : S → Except Err Int)
    (comp : σ → S → Option Int → σ × Except Err Out) (w : UFW Out) (s : σ)
    (state : S) (dt : Option Int) : UFW Out × σ × Except Err (Option Out) :=
  match runComponent comp s state dt with
  | (s1, .error e) => (w, s1, .error e)
  | (s1, .ok out) =>
    match time state with
    | .error e => ({ w with cached := some out }, s1, .error e)
    | .ok t => ({ w with cached := some out, last := some t }, s1, .ok (some out))

/-- `UpdateFrequencyWrapper.__call__` (wrappers.py:223-253).  `time` is
`state['time']`. -/
def UFW.call {σ S Out : Type} (time : S → Except Err Int)
    (comp : σ → S → Option Int → σ × Except Err Out) (w : UFW Out) (s : σ)
    (state : S) (dt : Option Int) : UFW Out × σ × Except Err (Option Out) :=
  match w.last with
  | none => w.refresh time comp s state dt
  | some t0 =>
    match time state with
    | .error e => (w, s, .error e)
    | .ok t => if t ≥ t0 + w.delta then w.refresh time comp s state dt else (w, s, .ok w.cached)

/-! ## TimeDifferencingWrapper -/

/-- Body of the loop of `TimeDifferencingWrapper.__call__` for an output quantity
(basic.py:417-431).  Simplification: division by a zero timestep gives 0. -/
def differencedTendency (R : Registry) (outProps : PropDict) (state : State) (dt : Int) (n : String)
    (a : DataArray) : Except Err DataArray :=
  (if n ∈ Dict.keys state then .ok () else .error .runtimeError) >>= fun _ =>
  State.da state n >>= fun x =>
  a.attrs.get "units" >>= fun u =>
  x.toUnits R u >>= fun x' =>
  a.sub x' >>= fun d =>
  outProps.get n >>= fun p =>
  (match p.units with | some v => .ok v | none => .error .keyError) >>= fun v =>
  DataArray.toUnits R { d with arr := d.arr.map (· / seconds dt), attrs := [("units", perSecond u)] } (v ++ " s^-1")

/-- Loop of `TimeDifferencingWrapper.__call__` (basic.py:414-438) -/
def differenceLoop (R : Registry) (outProps : PropDict) (state : State) (dt : Int) :
    State → Dict DataArray → Except Err (Dict DataArray)
  | [], out => .ok out
  | (n, .da a) :: rest, out =>
    if n ∈ outProps.keys then
      differencedTendency R outProps state dt n a >>= fun t =>
      differenceLoop R outProps state dt rest (out.set n t)
    else differenceLoop R outProps state dt rest out
  | (n, .time _) :: rest, out =>
    if n ≠ "time" then .error .valueError else differenceLoop R outProps state dt rest out

/-- `TimeDifferencingWrapper.__call__` (basic.py:410-439): `stepper` is the wrapped
Stepper, returning (diagnostics, new state). -/
def differencingCall {σ : Type} (R : Registry) (outProps : PropDict)
    (stepper : σ → State → Int → σ × Except Err (Dict DataArray × State)) (s : σ) (state : State) (dt : Int) :
    σ × Except Err TendOut :=
  ((stepper s state dt).1, (stepper s state dt).2 >>= fun r =>
    differenceLoop R outProps state dt r.2 [] >>= fun t => .ok (t, r.1))

/-- `TimeDifferencingWrapper.tendency_properties` (basic.py:381-387); `+= " s^-1"` on a
missing key is a KeyError. -/
def differencingProps (outProps : PropDict) : Except Err PropDict :=
  outProps.mapM fun kv =>
    match kv.2.units with
    | some u => .ok (kv.1, { kv.2 with units := some (u ++ " s^-1") })
    | none => .error .keyError

end Verif
