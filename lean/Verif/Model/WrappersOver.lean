import Verif.Model.SteppersOver
import Verif.Model.Wrappers
/-!
# ScalingWrapper and TimeDifferencingWrapper over any kind of array

`sympl/_core/wrappers.py` (ScalingWrapper) and `sympl/_components/basic.py` (TimeDifferencingWrapper), around
components that are called by the composite of a time stepper, with the operations on arrays as a parameter.

Simplified: arrays are values; which arrays a ScalingWrapper changes in place is in `Verif/Model/Wrappers.lean`.
`a / c` is the operation `divide` (`a / c * 1.`) of `Arith`.
-/

namespace Verif

variable {V : Type} (A : Arith V)

/-- `a * float(c)` with the attributes of `a` (wrappers.py:144-146; `a *= float(c)`, 156-185, keeps them too). -/
def scaledO (c : Rat) (a : V) : V := A.setAttrs (A.smul c a) (A.attrs a)

/-- The loop building `scaled_state` (wrappers.py:142-148) over `self.input_properties.keys()`. -/
def scaleInputsO (f : Dict Rat) (state : EState V) : List String → EState V → Except Err (EState V)
  | [], out => .ok out
  | k :: ks, out =>
    match Dict.get? state k with
    | none => .error .keyError
    | some v =>
      match f.get? k with
      | none => scaleInputsO f state ks (Dict.set out k v)
      | some c =>
        match v with
        | .time _ => .error .typeError
        | .da a => scaleInputsO f state ks (Dict.set out k (.da (scaledO A c a)))

/-- A loop `d[name] *= float(factor)` (wrappers.py:163-168, 174-179) -/
def scaleOutputsO : Dict Rat → Dict V → Except Err (Dict V)
  | [], d => .ok d
  | (k, c) :: rest, d =>
    match d.get? k with
    | none => .error .keyError
    | some a => scaleOutputsO rest (d.set k (scaledO A c a))

/-- `ScalingWrapper.__call__` (wrappers.py:121-180) around a TendencyComponent or ImplicitTendencyComponent whose
`input_properties` have the keys `inKeys`. -/
def scalingO {σ : Type} (w : Scaling) (inKeys : List String) (p : ProgOver σ V) : ProgOver σ V := fun s state dt =>
  match scaleInputsO A w.input state inKeys (timeEntryO state) with
  | .error e => (s, .error e)
  | .ok scaled =>
    ((p s scaled dt).1, (p s scaled dt).2 >>= fun r =>
      scaleOutputsO A w.tendency r.1 >>= fun t => scaleOutputsO A w.diagnostic r.2 >>= fun d => .ok (t, d))

/-- A Stepper: diagnostics and new state. -/
abbrev StepOver (σ V : Type) := σ → EState V → Int → σ × Except Err (Dict V × EState V)

/-- Body of the loop of `TimeDifferencingWrapper.__call__` for an output quantity (basic.py:417-431) -/
def differencedTendencyO (outProps : PropDict) (state : EState V) (dt : Int) (n : String) (a : V) : Except Err V :=
  (if n ∈ Dict.keys state then .ok () else .error .runtimeError) >>= fun _ =>
  EState.da state n >>= fun x =>
  (A.attrs a).get "units" >>= fun u =>
  A.toUnits x u >>= fun x' =>
  A.sub a x' >>= fun d =>
  outProps.get n >>= fun p =>
  (match p.units with | some v => .ok v | none => .error .keyError) >>= fun v =>
  A.toUnits (A.setAttrs (A.divide d (seconds dt)) [("units", perSecond u)]) (v ++ " s^-1")

/-- Loop of `TimeDifferencingWrapper.__call__` (basic.py:414-438) -/
def differenceLoopO (outProps : PropDict) (state : EState V) (dt : Int) : EState V → Dict V → Except Err (Dict V)
  | [], out => .ok out
  | (n, .da a) :: rest, out =>
    if n ∈ outProps.keys then
      differencedTendencyO A outProps state dt n a >>= fun t =>
      differenceLoopO outProps state dt rest (out.set n t)
    else differenceLoopO outProps state dt rest out
  | (n, .time _) :: rest, out =>
    if n ≠ "time" then .error .valueError else differenceLoopO outProps state dt rest out

/-- `TimeDifferencingWrapper.__call__` (basic.py:410-439) -/
def differencingO {σ : Type} (outProps : PropDict) (stepper : StepOver σ V) : ProgOver σ V := fun s state dt =>
  ((stepper s state dt).1, (stepper s state dt).2 >>= fun r =>
    differenceLoopO A outProps state dt r.2 [] >>= fun t => .ok (t, r.1))

end Verif
