import Verif.Model.StepperInit
/-!
# Arguments of the time steppers (`sympl/_components/timesteppers.py`, `_core/tendencystepper.py`)

What `SSPRungeKutta(...)`, `AdamsBashforth(...)` and `Leapfrog(...)` make of their positional
and keyword arguments.
-/

namespace Verif

/-- A value given for a keyword.  `float` is a finite one, numpy's float64 included (it is a
subclass of float); `npInt` is one of numpy's integers (not a subclass of int in Python 3);
`other` is an object that equals no number, with its truth value. -/
inductive KwVal where
  | none
  | bool (b : Bool)
  | int (n : Int)
  | float (q : Rat)
  | nonFinite
  | npInt (n : Int)
  | str (s : String)
  | other (truth : Bool)
  deriving DecidableEq

/-- `bool(v)` -/
def KwVal.truthy : KwVal → Bool
  | .none => false
  | .bool b => b
  | .int n => n ≠ 0
  | .float q => q ≠ 0
  | .nonFinite => true
  | .npInt n => n ≠ 0
  | .str s => s ≠ ""
  | .other t => t

/-- `v == n` for an int `n` -/
def KwVal.eqInt (v : KwVal) (n : Int) : Bool :=
  match v with
  | .bool b => (if b then 1 else 0) = n
  | .int m => m = n
  | .float q => q = n
  | .npInt m => m = n
  | _ => false

/-- `kwargs.pop(name, default)`: the value -/
def popValue (kwargs : Dict KwVal) (name : String) (default : KwVal) : KwVal := (kwargs.get? name).getD default

/-- `if isinstance(order, float) and order.is_integer(): order = int(order)`
(timesteppers.py:90-91) -/
def KwVal.wholeToInt : KwVal → KwVal
  | .float q => if q.den = 1 then .int q.num else .float q
  | v => v

/-- `order`, checked (timesteppers.py:89-96); True and False are ints. -/
def orderOf (v : KwVal) : Except Err Nat :=
  match v.wholeToInt with
  | .int n => if 1 ≤ n ∧ n ≤ 4 then .ok n.toNat else .error .valueError
  | .bool b => if b then .ok 1 else .error .valueError
  | _ => .error .typeError

/-- `stages`, checked (timesteppers.py:24-28): is it 3? -/
def stagesOf (v : KwVal) : Except Err Bool :=
  if v.eqInt 2 then .ok false else if v.eqInt 3 then .ok true else .error .valueError

/-- `name or self.__class__.__name__` (base_components.py:499), as it is formatted; `fmt` is
`'{}'.format` of a name that is not a string. -/
def nameText (fmt : KwVal → String) (cls : String) (name : KwVal) : String :=
  if name.truthy then (match name with | .str s => s | v => fmt v) else cls

/-- The signature of `Stepper.__init__` (base_components.py:483), called with the keywords that
are left: TypeError for any other; then `tendencies_in_diagnostics`, and `name`
(base_components.py:498-499). -/
def stepperKeywords (fmt : KwVal → String) (cls : String) (kwargs : Dict KwVal) : Except Err (Bool × String) :=
  if ∀ k ∈ kwargs.keys, k = "tendencies_in_diagnostics" ∨ k = "name" then
    .ok ((popValue kwargs "tendencies_in_diagnostics" (.bool false)).truthy, nameText fmt cls (popValue kwargs "name" .none))
  else .error .typeError

/-- A positional argument: a component, or (deprecated) a list of them. -/
inductive Arg where
  | comp (c : Class × Obj)
  | list (l : List (Class × Obj))

/-- The components among the arguments (tendencystepper.py:140-145); a list anywhere else is
not a component, and ImplicitTendencyComponentComposite raises TypeError (composite.py:85-91). -/
def argsOf : List Arg → Except Err (List (Class × Obj))
  | [.list l] => .ok l
  | args => args.mapM fun a => match a with | .comp c => .ok c | .list _ => .error .typeError

/-- `TendencyStepper.__init__(*args, **kwargs)` (tendencystepper.py:124-159): whether there will
be tendencies in diagnostics, the name, the components, and the class presented.
Simplification: the composite, which is made before `Stepper.__init__` sees the keywords, is
made once more by `tsConstruct`. -/
def tsInit (R : Registry) (o : SetOrder) (g : Tracers) (fmt : KwVal → String) (cls : String) (args : List Arg)
    (kwargs : Dict KwVal) : Except Err (Bool × String × List (Class × Obj) × Class) :=
  argsOf args >>= fun cs =>
  compositeConstruct R o g .implicit cs >>= fun _ =>
  stepperKeywords fmt cls kwargs >>= fun k =>
  tsConstruct R o g cs k.1 k.2 >>= fun c => .ok (k.1, k.2, cs, c)

/-- `AdamsBashforth(*args, **kwargs)` (timesteppers.py:77-99) -/
def makeAB (R : Registry) (o : SetOrder) (g : Tracers) (fmt : KwVal → String) (args : List Arg) (kwargs : Dict KwVal) :
    Except Err (AB × Bool × String × List (Class × Obj) × Class) :=
  orderOf (popValue kwargs "order" (.int 3)) >>= fun order =>
  tsInit R o g fmt "AdamsBashforth" args (kwargs.erase "order") >>= fun t => .ok ({ order := order }, t)

/-- `SSPRungeKutta(*args, **kwargs)` (timesteppers.py:13-30): three stages or two, and the
stepper used for the stages. -/
def makeSSP (R : Registry) (o : SetOrder) (g : Tracers) (fmt : KwVal → String) (args : List Arg) (kwargs : Dict KwVal) :
    Except Err (Bool × AB × Bool × String × List (Class × Obj) × Class) :=
  stagesOf (popValue kwargs "stages" (.int 3)) >>= fun three =>
  makeAB R o g fmt args [("order", .int 1)] >>= fun euler =>
  tsInit R o g fmt "SSPRungeKutta" args (kwargs.erase "stages") >>= fun t => .ok (three, euler.1, t)

/-- `Leapfrog(*args, **kwargs)` (timesteppers.py:187-216): the filter parameters as they are
stored, unchecked. -/
def makeLF (R : Registry) (o : SetOrder) (g : Tracers) (fmt : KwVal → String) (args : List Arg) (kwargs : Dict KwVal) :
    Except Err (KwVal × KwVal × Bool × String × List (Class × Obj) × Class) :=
  tsInit R o g fmt "Leapfrog" args ((kwargs.erase "asselin_strength").erase "alpha") >>= fun t =>
  .ok (popValue kwargs "asselin_strength" (.float (1 / 20)), popValue kwargs "alpha" (.float (1 / 2)), t)

end Verif
