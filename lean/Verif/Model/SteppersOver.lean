import Verif.Model.TimeSteppers
/-!
# Time steppers over any kind of array (`sympl/_components/timesteppers.py`, `_core/tendencystepper.py`)

The functions of `Verif/Model/TimeSteppers.lean` as the code is written, with the operations
that the code applies to the values of states and tendencies as a parameter: `A : Arith V`.
With `dataArrayArith` they are the functions of that file (`dataArray_stand` in
`Verif/Props/SteppersOver.lean`).
-/

namespace Verif

/-- The operations that time steppers apply to the values of states and tendencies. -/
structure Arith (V : Type) where
  /-- `a + b` -/
  add : V → V → Except Err V
  /-- `a - b` -/
  sub : V → V → Except Err V
  /-- `a += b` -/
  iadd : V → V → Except Err V
  /-- `c * a`, `a * c` for a float `c` -/
  smul : Rat → V → V
  /-- `a / c * 1.` -/
  divide : V → Rat → V
  /-- `a.to_units(units)` -/
  toUnits : V → String → Except Err V
  /-- `a.attrs` -/
  attrs : V → Dict String
  /-- `a.attrs = attrs` -/
  setAttrs : V → Dict String → V
  /-- `isinstance(a, get_backend().get_container_type())` -/
  isContainer : V → Bool

/-- The operations of DataArrays. -/
def dataArrayArith (R : Registry) : Arith DataArray where
  add := DataArray.add
  sub := DataArray.sub
  iadd := DataArray.iadd
  smul c a := a.smul c
  divide a c := { a with arr := a.arr.map (fun x => x / c * 1), attrs := [] }
  toUnits a u := a.toUnits R u
  attrs a := a.attrs
  setAttrs a m := { a with attrs := m }
  isContainer _ := true

/-- An entry of a state: a quantity or the model time. -/
inductive Entry (V : Type) where
  | da (a : V)
  | time (t : Int)

abbrev EState (V : Type) := Dict (Entry V)

/-- `state[name]` used as a quantity -/
def EState.da {V : Type} (s : EState V) (name : String) : Except Err V :=
  match Dict.get? s name with
  | some (.da a) => .ok a
  | some (.time _) => .error .attributeError
  | none => .error .keyError

/-- `self.prognostic(state, timestep)` -/
abbrev ProgOver (σ V : Type) := σ → EState V → Int → σ × Except Err (Dict V × Dict V)

section
variable {V : Type} (A : Arith V)

/-! ## `state.py` -/

/-- `copy_untouched_quantities` (state.py:1-4) -/
def copyUntouchedO : EState V → EState V → EState V
  | [], new => new
  | (k, v) :: old, new =>
    if k ∈ Dict.keys new then copyUntouchedO old new else copyUntouchedO old (Dict.set new k v)

/-- Loop of `add` (state.py:11-15) -/
def addStatesLoopO (s2 : EState V) : EState V → EState V → Except Err (EState V)
  | [], out => .ok out
  | (k, v) :: rest, out =>
    if k = "time" then addStatesLoopO s2 rest out
    else
      match v with
      | .time _ => .error .attributeError
      | .da a =>
        EState.da s2 k >>= fun b => A.add a b >>= fun r =>
        addStatesLoopO s2 rest (Dict.set out k (.da (A.setAttrs r (A.attrs a))))

/-- the entry `'time'` (state.py:9-10, 21-22) -/
def timeEntryO (s : EState V) : EState V :=
  match Dict.get? s "time" with
  | some v => [("time", v)]
  | none => []

/-- `add` (state.py:7-16) -/
def addStatesO (s1 s2 : EState V) : Except Err (EState V) := addStatesLoopO A s2 s1 (timeEntryO s1)

/-- Loop of `multiply` (state.py:23-27) -/
def scaleStateLoopO (c : Rat) : EState V → EState V → Except Err (EState V)
  | [], out => .ok out
  | (k, v) :: rest, out =>
    if k = "time" then scaleStateLoopO c rest out
    else
      match v with
      | .time _ => .error .attributeError
      | .da a => scaleStateLoopO c rest (Dict.set out k (.da (A.setAttrs (A.smul c a) (A.attrs a))))

/-- `multiply` (state.py:19-28) -/
def scaleStateO (c : Rat) (s : EState V) : Except Err (EState V) := scaleStateLoopO A c s (timeEntryO s)

/-! ## Adams-Bashforth -/

/-- One entry of `convert_tendencies_units_for_state` (timesteppers.py:170-173) -/
def convertTendencyO (state : EState V) (q : String) (v : V) : Except Err V :=
  if A.isContainer v then
    match (A.attrs v).get? "units" with
    | none => .ok v
    | some _ =>
      EState.da state q >>= fun s => (A.attrs s).get "units" >>= fun u => A.toUnits v (u ++ " s^-1")
  else .ok v

/-- `convert_tendencies_units_for_state` (timesteppers.py:163-173) -/
def convertTendenciesO (state : EState V) : Dict V → Except Err (Dict V)
  | [] => .ok []
  | (q, v) :: rest =>
    convertTendencyO A state q v >>= fun v' =>
    convertTendenciesO state rest >>= fun rest' => .ok ((q, v') :: rest')

/-- `{key: f(key) for key in keys}` -/
def stepKeysO (f : String → Except Err V) : List String → Except Err (EState V)
  | [] => .ok []
  | k :: ks => f k >>= fun v => stepKeysO f ks >>= fun rest => .ok ((k, .da v) :: rest)

/-- `step_forward_euler` (timesteppers.py:320-324) -/
def stepEulerO (state : EState V) (t : Dict V) (dt : Int) : Except Err (EState V) :=
  stepKeysO (fun k => EState.da state k >>= fun x => t.get k >>= fun v =>
    A.add x (A.smul (seconds dt) v)) t.keys

/-- `second_bashforth` (timesteppers.py:327-338) -/
def secondBashforthO (state : EState V) (t0 t2 t1 : Dict V) (dt : Int) : Except Err (EState V) :=
  stepKeysO (fun k => EState.da state k >>= fun x => t1.get k >>= fun v1 => t2.get k >>= fun v2 =>
    A.sub (A.smul (3 / 2) v1) (A.smul (1 / 2) v2) >>= fun d => A.add x (A.smul (seconds dt) d)) t0.keys

/-- `third_bashforth` (timesteppers.py:341-352) -/
def thirdBashforthO (state : EState V) (t0 t3 t2 t1 : Dict V) (dt : Int) : Except Err (EState V) :=
  stepKeysO (fun k => EState.da state k >>= fun x => t1.get k >>= fun v1 => t2.get k >>= fun v2 =>
    A.sub (A.smul (23 / 12) v1) (A.smul (4 / 3) v2) >>= fun d => t3.get k >>= fun v3 =>
    A.add d (A.smul (5 / 12) v3) >>= fun d => A.add x (A.smul (seconds dt) d)) t0.keys

/-- `fourth_bashforth` (timesteppers.py:355-366) -/
def fourthBashforthO (state : EState V) (t0 t4 t3 t2 t1 : Dict V) (dt : Int) : Except Err (EState V) :=
  stepKeysO (fun k => EState.da state k >>= fun x => t1.get k >>= fun v1 => t2.get k >>= fun v2 =>
    A.sub (A.smul (55 / 24) v1) (A.smul (59 / 24) v2) >>= fun d => t3.get k >>= fun v3 =>
    A.add d (A.smul (37 / 24) v3) >>= fun d => t4.get k >>= fun v4 =>
    A.sub d (A.smul (3 / 8) v4) >>= fun d => A.add x (A.smul (seconds dt) d)) t0.keys

/-- Memory of an AdamsBashforth (timesteppers.py:96-98) -/
structure ABOver (V : Type) where
  order : Nat
  timestep : Option Int := none
  hist : List (Dict V) := []

/-- `_perform_step` (timesteppers.py:138-153) -/
def performStepO (order : Nat) (hist : List (Dict V)) (state : EState V) (dt : Int) : Except Err (EState V) :=
  match hist, hist.reverse with
  | t0 :: _, t1 :: prev =>
    match min order hist.length, prev with
    | 1, _ => stepEulerO A state t1 dt
    | 2, t2 :: _ => secondBashforthO A state t0 t2 t1 dt
    | 3, t2 :: t3 :: _ => thirdBashforthO A state t0 t3 t2 t1 dt
    | 4, t2 :: t3 :: t4 :: _ => fourthBashforthO A state t0 t4 t3 t2 t1 dt
    | _, _ => .error .runtimeError
  | _, _ => .error .runtimeError

/-- `AdamsBashforth._call` (timesteppers.py:101-136), with `_ensure_constant_timestep` (155-160) -/
def ABOver.call {σ : Type} (prog : ProgOver σ V) (ab : ABOver V) (s : σ) (state : EState V) (dt : Int) :
    ABOver V × σ × Except Err (Dict V × EState V) :=
  if ab.timestep = none ∨ ab.timestep = some dt then
    let ab1 := { ab with timestep := some dt }
    match (prog s state dt).2 with
    | .error e => (ab1, (prog s state dt).1, .error e)
    | .ok r =>
      match convertTendenciesO A state r.1 with
      | .error e => (ab1, (prog s state dt).1, .error e)
      | .ok t =>
        let ab2 := { ab1 with hist := ab.hist ++ [t] }
        match performStepO A ab.order (ab.hist ++ [t]) state dt with
        | .error e => (ab2, (prog s state dt).1, .error e)
        | .ok new =>
          (if (ab.hist ++ [t]).length = ab.order then { ab1 with hist := (ab.hist ++ [t]).tail } else ab2,
            (prog s state dt).1, .ok (r.2, copyUntouchedO state new))
  else (ab, s, .error .valueError)

/-! ## Leapfrog -/

/-- Memory of a Leapfrog (timesteppers.py:212-215) -/
structure LFOver (V : Type) where
  strength : Rat := 1 / 20
  alpha : Rat := 1 / 2
  timestep : Option Int := none
  old : Option (EState V) := none

/-- Body of the loop of `step_leapfrog` (timesteppers.py:309-316) -/
def leapfrogEntryO (strength alpha : Rat) (old x t : V) (dt : Int) : Except Err (V × Except Err V) :=
  A.add old (A.smul (seconds dt) (A.smul 2 t)) >>= fun new =>
  A.sub old (A.smul 2 x) >>= fun d => A.add d new >>= fun d =>
  let filt := A.smul (1 / 2 * strength) d
  A.iadd x (A.smul alpha filt) >>= fun x' =>
  .ok (x', if alpha ≠ 1 then A.iadd new (A.smul (alpha - 1) filt) else .ok new)

/-- Loop of `step_leapfrog` (timesteppers.py:308-317) -/
def stepLeapfrogO (strength alpha : Rat) (old : EState V) (t : Dict V) (dt : Int) :
    List String → EState V → EState V → EState V × Except Err (EState V)
  | [], state, new => (state, .ok new)
  | k :: ks, state, new =>
    match (EState.da old k >>= fun o => EState.da state k >>= fun x => t.get k >>= fun v =>
        leapfrogEntryO A strength alpha o x v dt) with
    | .error e => (state, .error e)
    | .ok r =>
      match r.2 with
      | .error e => (Dict.set state k (.da r.1), .error e)
      | .ok n => stepLeapfrogO strength alpha old t dt ks (Dict.set state k (.da r.1)) (Dict.set new k (.da n))

/-- `Leapfrog._call` (timesteppers.py:218-262), with `_ensure_constant_timestep` (264-269) -/
def LFOver.call {σ : Type} (prog : ProgOver σ V) (lf : LFOver V) (s : σ) (state : EState V) (dt : Int) :
    LFOver V × σ × EState V × Except Err (Dict V × EState V) :=
  if lf.timestep = none ∨ lf.timestep = some dt then
    let lf1 := { lf with timestep := some dt }
    match (prog s state dt).2 with
    | .error e => (lf1, (prog s state dt).1, state, .error e)
    | .ok r =>
      match convertTendenciesO A state r.1 with
      | .error e => (lf1, (prog s state dt).1, state, .error e)
      | .ok t =>
        match lf.old with
        | none =>
          match stepEulerO A state t dt with
          | .error e => (lf1, (prog s state dt).1, state, .error e)
          | .ok new => ({ lf1 with old := some state }, (prog s state dt).1, state,
              .ok (r.2, copyUntouchedO state new))
        | some old =>
          let p := stepLeapfrogO A lf.strength lf.alpha old t dt t.keys state []
          match p.2 with
          | .error e => (lf1, (prog s state dt).1, p.1, .error e)
          | .ok new => ({ lf1 with old := some p.1 }, (prog s state dt).1, p.1,
              .ok (r.2, copyUntouchedO p.1 new))
  else (lf, s, state, .error .valueError)

/-! ## SSPRungeKutta -/

/-- `SSPRungeKutta._euler_stepper(state, timestep)` (tendencystepper.py:191-203) -/
def eulerCallO {σ : Type} (prog : ProgOver σ V) (ab : ABOver V) (s : σ) (state : EState V) (dt : Int) :
    ABOver V × σ × Except Err (Dict V × EState V) :=
  let r := ABOver.call A prog ab s state dt
  (r.1, r.2.1, r.2.2 >>= fun o => .ok (o.1, copyUntouchedO state o.2))

/-- `_step_2_stages` (timesteppers.py:65-71) -/
def ssprk2O {σ : Type} (prog : ProgOver σ V) (ab : ABOver V) (s : σ) (state : EState V) (dt : Int) :
    ABOver V × σ × Except Err (Dict V × EState V) :=
  match eulerCallO A prog ab s state dt with
  | (ab, s, .error e) => (ab, s, .error e)
  | (ab, s, .ok (diag, state1)) =>
    match eulerCallO A prog ab s state1 dt with
    | (ab, s, .error e) => (ab, s, .error e)
    | (ab, s, .ok (_, state2)) =>
      (ab, s, addStatesO A state state2 >>= fun x => scaleStateO A (1 / 2) x >>= fun out => .ok (diag, out))

/-- `_step_3_stages` (timesteppers.py:57-63) -/
def ssprk3O {σ : Type} (prog : ProgOver σ V) (ab : ABOver V) (s : σ) (state : EState V) (dt : Int) :
    ABOver V × σ × Except Err (Dict V × EState V) :=
  match eulerCallO A prog ab s state dt with
  | (ab, s, .error e) => (ab, s, .error e)
  | (ab, s, .ok (diag, state1)) =>
    match eulerCallO A prog ab s state1 dt with
    | (ab, s, .error e) => (ab, s, .error e)
    | (ab, s, .ok (_, state15)) =>
      match (scaleStateO A (3 / 4) state >>= fun x => scaleStateO A (1 / 4) state15 >>= fun y =>
          addStatesO A x y) with
      | .error e => (ab, s, .error e)
      | .ok state2 =>
        match eulerCallO A prog ab s state2 dt with
        | (ab, s, .error e) => (ab, s, .error e)
        | (ab, s, .ok (_, state25)) =>
          (ab, s, scaleStateO A (1 / 3) state >>= fun x => scaleStateO A (2 / 3) state25 >>= fun y =>
            addStatesO A x y >>= fun out => .ok (diag, out))

/-- `SSPRungeKutta._call` (timesteppers.py:52-55) -/
def ssprkCallO {σ : Type} (prog : ProgOver σ V) (three : Bool) (ab : ABOver V) (s : σ) (state : EState V) (dt : Int) :
    ABOver V × σ × Except Err (Dict V × EState V) :=
  if three then ssprk3O A prog ab s state dt else ssprk2O A prog ab s state dt

/-- `_call` of AdamsBashforth, which leaves the caller's state alone. -/
def abCallO {σ : Type} (prog : ProgOver σ V) (ab : ABOver V) (s : σ) (state : EState V) (dt : Int) :
    ABOver V × σ × EState V × Except Err (Dict V × EState V) :=
  let r := ABOver.call A prog ab s state dt
  (r.1, r.2.1, state, r.2.2)

/-- `_call` of SSPRungeKutta, which leaves the caller's state alone. -/
def sspCallO {σ : Type} (prog : ProgOver σ V) (three : Bool) (ab : ABOver V) (s : σ) (state : EState V) (dt : Int) :
    ABOver V × σ × EState V × Except Err (Dict V × EState V) :=
  let r := ssprkCallO A prog three ab s state dt
  (r.1, r.2.1, state, r.2.2)

/-! ## TendencyStepper -/

/-- Body of the loop of `_insert_tendencies_to_diagnostics` (tendencystepper.py:218-228) -/
def netTendencyO (inProps : PropDict) (state new : EState V) (dt : Int) (n : String) : Except Err V :=
  inProps.get n >>= fun p =>
  (match p.units with | some u => .ok u | none => .error .keyError) >>= fun base =>
  EState.da new n >>= fun a => A.toUnits a base >>= fun a' =>
  EState.da state n >>= fun b => A.toUnits b base >>= fun b' =>
  A.sub a' b' >>= fun d => .ok (A.setAttrs (A.divide d (seconds dt)) [("units", perSecond base)])

/-- Loop of `_insert_tendencies_to_diagnostics` (tendencystepper.py:209-228) -/
def insertNetO (inProps : PropDict) (inst : String) (state new : EState V) (dt : Int) :
    List String → Dict V → Except Err (Dict V)
  | [], diag => .ok diag
  | n :: rest, diag =>
    if tendencyName n inst ∈ diag.keys then .error .runtimeError
    else netTendencyO A inProps state new dt n >>= fun d =>
      insertNetO inProps inst state new dt rest (diag.set (tendencyName n inst) d)

/-- `TendencyStepper.__call__` (tendencystepper.py:172-203) for any `_call` -/
def tsCallO {τ σ : Type} (inProps outProps : PropDict) (inst : String) (tid : Bool)
    (call : τ → σ → EState V → Int → τ × σ × EState V × Except Err (Dict V × EState V))
    (x : τ) (s : σ) (state : EState V) (dt : Int) : τ × σ × EState V × Except Err (Dict V × EState V) :=
  let r := call x s state dt
  (r.1, r.2.1, r.2.2.1, r.2.2.2 >>= fun o =>
    let new := copyUntouchedO r.2.2.1 o.2
    (if tid then insertNetO A inProps inst r.2.2.1 new dt outProps.keys o.1 else .ok o.1) >>= fun diag =>
    .ok (diag, new))

end

end Verif
