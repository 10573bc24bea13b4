import Verif.Model.Heap
import Verif.Model.Wrappers
/-!
# Time steppers with array identity

As in `Model/Heap`, arrays are objects that can be shared and changed in place: `own`
are the arrays the stepper's composite makes for tendencies, `ext` all others, among
them the arrays of states and diagnostics.  The caller and the components can do
anything to `ext` arrays.  A state is a dictionary of references.  The world of caller
and components has the number of the first array of `ext` not in use.

Simplification: a DataArray and its data are one object; views are not modelled.
-/

namespace Verif

/-- Memory; `world.2` is the first unused array of `ext`. -/
abbrev SMem (σ : Type) := Mem (σ × Nat)

def RVal.read (ext : Ext) : RVal → Val
  | .ref l => .da (ext l)
  | .time t => .time t

/-- What a state contains at the moment. -/
def RState.read (ext : Ext) (s : RState) : State := Dict.mapVal (RVal.read ext) s

/-- A new array that is not the stepper's own. -/
def SMem.new {σ : Type} (m : SMem σ) (a : DataArray) : SMem σ × Nat :=
  ({ m with ext := fun k => if k = m.world.2 then a else m.ext k
            world := (m.world.1, m.world.2 + 1) }, m.world.2)

/-- New arrays for the values of a new state. -/
def allocState {σ : Type} : State → SMem σ → SMem σ × RState
  | [], m => (m, [])
  | (k, .da a) :: rest, m =>
    ((allocState rest (m.new a).1).1, (k, .ref (m.new a).2) :: (allocState rest (m.new a).1).2)
  | (k, .time t) :: rest, m => ((allocState rest m).1, (k, .time t) :: (allocState rest m).2)

/-- `copy_untouched_quantities` (state.py:1-4): references are copied, not arrays. -/
def copyUntouchedR : RState → RState → RState
  | [], new => new
  | (k, v) :: old, new =>
    if k ∈ Dict.keys new then copyUntouchedR old new else copyUntouchedR old (Dict.set new k v)

/-- A component of a time stepper, called with references. -/
abbrev RComp (σ : Type) := RState → Int → HComp (σ × Nat)

/-- `self.prognostic(state, timestep)` (composite.py:205-241) -/
def callComposite {σ : Type} (R : Registry) (cs : List (RComp σ)) (m : SMem σ) (state : RState) (dt : Int) :
    SMem σ × Except Err (Dict Ref × Dict Ref) :=
  compositeLoopH R (cs.map (fun f => f state dt)) m [] []

/-- `convert_tendencies_units_for_state` (timesteppers.py:163-173).  `to_units` returns
the array itself if its units mean the same as the desired ones (units.py:81), and
then the units of what is returned are the string they were. -/
def convertH {σ : Type} (R : Registry) (state : RState) : Dict Ref → SMem σ → SMem σ × Except Err (Dict Ref)
  | [], m => (m, .ok [])
  | (q, r) :: rest, m =>
    match convertTendency R (state.read m.ext) q (m.read r) with
    | .error e => (m, .error e)
    | .ok v =>
      let p := if v.attrs.get? "units" = (m.read r).attrs.get? "units" then (m, r) else m.alloc v
      match convertH R state rest p.1 with
      | (m', .error e) => (m', .error e)
      | (m', .ok rest') => (m', .ok ((q, p.2) :: rest'))

/-- Memory of an AdamsBashforth; `_tendencies_list` refers to arrays. -/
structure ABH where
  order : Nat
  timestep : Option Int := none
  hist : List (Dict Ref) := []

/-- `AdamsBashforth._call` (timesteppers.py:101-136) -/
def ABH.call {σ : Type} (R : Registry) (cs : List (RComp σ)) (ab : ABH) (m : SMem σ) (state : RState) (dt : Int) :
    ABH × SMem σ × Except Err (Dict Ref × RState) :=
  if ab.timestep = none ∨ ab.timestep = some dt then
    let ab1 := { ab with timestep := some dt }
    match callComposite R cs m state dt with
    | (m1, .error e) => (ab1, m1, .error e)
    | (m1, .ok r) =>
      match convertH R state r.1 m1 with
      | (m2, .error e) => (ab1, m2, .error e)
      | (m2, .ok t) =>
        let ab2 := { ab1 with hist := ab.hist ++ [t] }
        match performStep ab.order ((ab.hist ++ [t]).map (Dict.mapVal m2.read)) (state.read m2.ext) dt with
        | .error e => (ab2, m2, .error e)
        | .ok new =>
          (if (ab.hist ++ [t]).length = ab.order then { ab1 with hist := (ab.hist ++ [t]).tail } else ab2,
            (allocState new m2).1, .ok (r.2, copyUntouchedR state (allocState new m2).2))
  else (ab, m, .error .valueError)

/-- Memory of a Leapfrog; `_old_state` refers to the arrays of the state of the last call. -/
structure LFH where
  strength : Rat := 1 / 20
  alpha : Rat := 1 / 2
  timestep : Option Int := none
  old : Option RState := none

/-- Loop of `step_leapfrog` (timesteppers.py:308-317): `state[key] +=` changes the
caller's array. -/
def stepLeapfrogH {σ : Type} (strength alpha : Rat) (old state : RState) (t : Dict Ref) (dt : Int) :
    List String → SMem σ → RState → SMem σ × Except Err RState
  | [], m, new => (m, .ok new)
  | k :: ks, m, new =>
    match (State.da (old.read m.ext) k >>= fun o => State.da (state.read m.ext) k >>= fun x => t.get k >>= fun r =>
        leapfrogEntry strength alpha o x (m.read r) dt) with
    | .error e => (m, .error e)
    | .ok r =>
      match state.get? k with
      | some (.ref l) =>
        match r.2 with
        | .error e => (m.write (.ext l) r.1, .error e)
        | .ok n => stepLeapfrogH strength alpha old state t dt ks (SMem.new (m.write (.ext l) r.1) n).1
            (Dict.set new k (.ref (SMem.new (m.write (.ext l) r.1) n).2))
      | _ => (m, .error .attributeError)

/-- `Leapfrog._call` (timesteppers.py:218-262).  The copy of the caller's dictionary
keeps its references, so assigning them back (260-261) changes nothing. -/
def LFH.call {σ : Type} (R : Registry) (cs : List (RComp σ)) (lf : LFH) (m : SMem σ) (state : RState) (dt : Int) :
    LFH × SMem σ × Except Err (Dict Ref × RState) :=
  if lf.timestep = none ∨ lf.timestep = some dt then
    let lf1 := { lf with timestep := some dt }
    match callComposite R cs m state dt with
    | (m1, .error e) => (lf1, m1, .error e)
    | (m1, .ok r) =>
      match convertH R state r.1 m1 with
      | (m2, .error e) => (lf1, m2, .error e)
      | (m2, .ok t) =>
        match lf.old with
        | none =>
          match stepEuler (state.read m2.ext) (Dict.mapVal m2.read t) dt with
          | .error e => (lf1, m2, .error e)
          | .ok new => ({ lf1 with old := some state }, (allocState new m2).1,
              .ok (r.2, copyUntouchedR state (allocState new m2).2))
        | some old =>
          match stepLeapfrogH lf.strength lf.alpha old state t dt t.keys m2 [] with
          | (m3, .error e) => (lf1, m3, .error e)
          | (m3, .ok new) => ({ lf1 with old := some state }, m3, .ok (r.2, copyUntouchedR state new))
  else (lf, m, .error .valueError)

/-! ## Runs -/

/-- What a caller does: anything to the arrays, then a call. -/
structure Event (σ : Type) where
  act : (σ × Nat) × Ext → (σ × Nat) × Ext
  state : RState
  dt : Int

/-- Memory after the caller's action. -/
def Event.before {σ : Type} (e : Event σ) (m : SMem σ) : SMem σ :=
  { m with world := (e.act (m.world, m.ext)).1, ext := (e.act (m.world, m.ext)).2 }

/-- What a stepper is given in one call: the contents of the state, the timestep, and
what its components answer, at the moment each is given. -/
structure Seen where
  state : State
  dt : Int
  answer : Except Err TendOut

def Event.seen {σ : Type} (R : Registry) (cs : List (RComp σ)) (e : Event σ) (m : SMem σ) : Seen where
  state := e.state.read (e.before m).ext
  dt := e.dt
  answer :=
    let p := callComposite R cs (e.before m) e.state e.dt
    p.2 >>= fun r => .ok (Dict.mapVal p.1.read r.1, Dict.mapVal p.1.read r.2)

/-- The contents of what is returned, when it is returned. -/
def readResult {σ : Type} (m : SMem σ) (r : Except Err (Dict Ref × RState)) : Except Err (Dict DataArray × State) :=
  r >>= fun o => .ok (Dict.mapVal m.read o.1, o.2.read m.ext)

/-- Calls of an AdamsBashforth: what it was given and what it returned. -/
def ABH.run {σ : Type} (R : Registry) (cs : List (RComp σ)) :
    List (Event σ) → ABH → SMem σ → List (Seen × Except Err (Dict DataArray × State))
  | [], _, _ => []
  | e :: es, ab, m =>
    let r := ABH.call R cs ab (e.before m) e.state e.dt
    (e.seen R cs m, readResult r.2.1 r.2.2) :: ABH.run R cs es r.1 r.2.1

/-- Calls of a Leapfrog: what it was given, the caller's state afterwards, and what it
returned. -/
def LFH.run {σ : Type} (R : Registry) (cs : List (RComp σ)) :
    List (Event σ) → LFH → SMem σ → List (Seen × State × Except Err (Dict DataArray × State))
  | [], _, _ => []
  | e :: es, lf, m =>
    let r := LFH.call R cs lf (e.before m) e.state e.dt
    (e.seen R cs m, e.state.read r.2.1.ext, readResult r.2.1 r.2.2) :: LFH.run R cs es r.1 r.2.1

end Verif
