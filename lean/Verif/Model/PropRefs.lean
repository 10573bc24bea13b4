import Verif.Model.LiveProps
import Verif.Model.Wrappers
/-!
# Property dictionaries as objects

A property dictionary is a Python dict (here an *outer* dict) whose values are dicts (here
*inner* dicts) of dims, units and so on.  Components hand out references to both.  Below
the properties of composites, TendencySteppers and TimeDifferencingWrapper are computed
on a memory of such objects, with the assignments the code makes, to say what they change
and what they share.  Simplification: lists of dims, which the code never changes in
place, are values.
-/

namespace Verif

/-- The inner dicts (by reference), the outer dicts (names to references of inner dicts),
and the next unused references. -/
structure PropMem where
  inner : Nat → QProps
  outer : Nat → Dict Nat
  nextI : Nat
  nextO : Nat

/-- What an outer dict reads as. -/
def PropMem.read (m : PropMem) (o : Nat) : PropDict := (m.outer o).mapVal m.inner

/-- Code that reads and changes property dictionaries, and may raise. -/
def PM (α : Type) : Type := PropMem → PropMem × Except Err α

namespace PM

def pure {α : Type} (a : α) : PM α := fun m => (m, .ok a)

def raise {α : Type} (e : Err) : PM α := fun m => (m, .error e)

def bind {α β : Type} (x : PM α) (f : α → PM β) : PM β := fun m =>
  match (x m).2 with
  | .ok a => f a (x m).1
  | .error e => ((x m).1, .error e)

def lift {α : Type} (x : Except Err α) : PM α := fun m => (m, x)

/-- `{}`, to be used as an inner dict -/
def newInner : PM Nat := fun m =>
  ({ m with inner := fun r => if r = m.nextI then {} else m.inner r, nextI := m.nextI + 1 }, .ok m.nextI)

/-- `{}`, to be used as an outer dict -/
def newOuter : PM Nat := fun m =>
  ({ m with outer := fun o => if o = m.nextO then [] else m.outer o, nextO := m.nextO + 1 }, .ok m.nextO)

def getInner (r : Nat) : PM QProps := fun m => (m, .ok (m.inner r))
def getOuter (o : Nat) : PM (Dict Nat) := fun m => (m, .ok (m.outer o))

/-- Change the inner dict at `r`. -/
def putInner (r : Nat) (p : QProps) : PM Unit := fun m =>
  ({ m with inner := fun r' => if r' = r then p else m.inner r' }, .ok ())

/-- Change the outer dict at `o`. -/
def putOuter (o : Nat) (d : Dict Nat) : PM Unit := fun m =>
  ({ m with outer := fun o' => if o' = o then d else m.outer o' }, .ok ())

end PM

open PM

/-- A component: its class, with references to its property dictionaries. -/
structure ClassRefs where
  cls : Class
  inO : Nat
  outO : Nat
  diagO : Nat

/-- The component as its property dictionaries read. -/
def ClassRefs.view (m : PropMem) (c : ClassRefs) : Class :=
  { c.cls with inProps := m.read c.inO, outProps := m.read c.outO, diagProps := m.read c.diagO }

/-- `input_properties[name]['dims']` if there (combine_properties.py:82-83, 97-98);
`inO = none` stands for the `{}` of lines 74-75. -/
def inputDimsR (inO : Option Nat) (name : String) : PM (Option (List String)) :=
  match inO with
  | none => PM.pure none
  | some o => (getOuter o).bind fun d =>
    match d.get? name with
    | none => PM.pure none
    | some r => (getInner r).bind fun q => PM.pure q.dims

/-- `new_dims` (combine_properties.py:95-100) -/
def newDimsR (inO : Option Nat) (name : String) (p : QProps) : PM (Option (List String)) :=
  match p.dims with
  | some ds => PM.pure (some ds)
  | none => inputDimsR inO name

/-- Body of the inner loop of `combine_properties` (combine_properties.py:79-107), with
the dict `return_dict` at `out` and `properties` at `r`. -/
def combineEntryR (R : Registry) (order : SetOrder) (inO : Option Nat) (out : Nat) (name : String) (r : Nat) : PM Unit :=
  (getOuter out).bind fun d =>
  (getInner r).bind fun p =>
  match d.get? name with
  | none =>
    newInner.bind fun r' =>                             -- return_dict[name] = {}
    (putOuter out (d.set name r')).bind fun _ =>
    (putInner r' p).bind fun _ =>                       -- return_dict[name].update(properties)
    match p.dims with
    | some _ => PM.pure ()
    | none => (inputDimsR inO name).bind fun ds =>
      match ds with
      | some ds => putInner r' { p with dims := some ds }
      | none => raise .invalidPropertyDict
  | some r' =>
    (getInner r').bind fun q =>
    match p.units, q.units with
    | some u, some v =>
      (lift (R.unitsAreCompatible u v)).bind fun ok =>
      if !ok then raise .invalidPropertyDict
      else
        (newDimsR inO name p).bind fun ds =>
        match ds, q.dims with
        | some ds, some qd =>
          (lift (combineDims order qd ds)).bind fun dims => putInner r' { q with dims := some dims }
        | none, _ => raise .invalidPropertyDict
        | some _, none => raise .keyError
    | _, _ => raise .keyError

/-- Inner loop of `combine_properties` over the items of one dictionary. -/
def combineItemsR (R : Registry) (order : SetOrder) (inO : Option Nat) (out : Nat) : Dict Nat → PM Unit
  | [] => PM.pure ()
  | (n, r) :: rest => (combineEntryR R order inO out n r).bind fun _ => combineItemsR R order inO out rest

/-- Outer loop of `combine_properties` (combine_properties.py:77-107). -/
def combineLoopR (R : Registry) (order : SetOrder) (inO : Option Nat) (out : Nat) : List Nat → PM Unit
  | [] => PM.pure ()
  | o :: rest => (getOuter o).bind fun d =>
    (combineItemsR R order inO out d).bind fun _ => combineLoopR R order inO out rest

/-- `combine_properties` (combine_properties.py:73-108). -/
def combinePropertiesR (R : Registry) (order : SetOrder) (l : List Nat) (inO : Option Nat) : PM Nat :=
  newOuter.bind fun out => (combineLoopR R order inO out l).bind fun _ => PM.pure out

/-- Loop of `get_tracer_input_properties` (tracers.py:91-92) -/
def tracerLoopR (out : Nat) : PropDict → PM Unit
  | [] => PM.pure ()
  | (n, p) :: rest =>
    newInner.bind fun r => (putInner r p).bind fun _ =>
    (getOuter out).bind fun d => (putOuter out (d.set n r)).bind fun _ => tracerLoopR out rest

/-- `get_tracer_input_properties` (tracers.py:70-93): new dicts on every call. -/
def tracerPropsR (g : Tracers) (prepend : List (String × String)) (dims : List String) : PM Nat :=
  newOuter.bind fun out => (tracerLoopR out (tracerProps g prepend dims)).bind fun _ => PM.pure out

/-- The input properties a component contributes (combine_properties.py:60-69). -/
def inputContributionR (g : Tracers) (c : ClassRefs) : PM (List Nat) :=
  if c.cls.usesTracers then
    match c.cls.tracerDims with
    | none => raise (if c.cls.kind = .stepper then .typeError else .attributeError)
    | some td =>
      if "tracer" ∉ td then raise .invalidPropertyDict
      else (tracerPropsR g c.cls.prepend (td.erase "tracer")).bind fun t => PM.pure [c.inO, t]
  else PM.pure [c.inO]

/-- `property_list` of `combine_component_properties` (combine_properties.py:58-69) -/
def inputContributionsR (g : Tracers) : List ClassRefs → PM (List Nat)
  | [] => PM.pure []
  | c :: cs => (inputContributionR g c).bind fun l => (inputContributionsR g cs).bind fun ls => PM.pure (l ++ ls)

/-- `input_properties` of a composite (composite.py:10-12) and
`_tendencycomponent_input_properties` (tendencystepper.py:61-64) -/
def inputsR (R : Registry) (order : SetOrder) (g : Tracers) (cs : List ClassRefs) : PM Nat :=
  (inputContributionsR g cs).bind fun l => combinePropertiesR R order l none

/-- `tendency_properties` of a composite (composite.py:108-111, 179-182) and
`_tendency_properties` (tendencystepper.py:93-100).  Simplification: `return_dict` of
the latter is a second outer dict with the same items. -/
def tendenciesR (R : Registry) (order : SetOrder) (g : Tracers) (cs : List ClassRefs) : PM Nat :=
  (inputsR R order g cs).bind fun i => combinePropertiesR R order (cs.map (·.outO)) (some i)

/-- Loop of `TendencyStepper.output_properties` (tendencystepper.py:88-90): the units are
changed in place, first by `+=`, then by `clean_units`. -/
def outputsLoopR (R : Registry) : Dict Nat → PM Unit
  | [] => PM.pure ()
  | (_, r) :: rest =>
    (getInner r).bind fun p =>
    match p.units with
    | none => raise .keyError
    | some u =>
      (putInner r { p with units := some (u ++ " s") }).bind fun _ =>
      (lift (R.cleanUnits (u ++ " s"))).bind fun v =>
      (putInner r { p with units := some v }).bind fun _ => outputsLoopR R rest

/-- `TendencyStepper.output_properties` (tendencystepper.py:85-91) -/
def outputsR (R : Registry) (order : SetOrder) (g : Tracers) (cs : List ClassRefs) : PM Nat :=
  (tendenciesR R order g cs).bind fun t => (getOuter t).bind fun d =>
  (outputsLoopR R d).bind fun _ => PM.pure t

/-- `TendencyStepper.input_properties` (tendencystepper.py:55-59) -/
def stepperInputsR (R : Registry) (order : SetOrder) (g : Tracers) (cs : List ClassRefs) : PM Nat :=
  (inputsR R order g cs).bind fun i => (outputsR R order g cs).bind fun t =>
  combinePropertiesR R order [i, t] none

/-- Loop of `diagnostic_properties` of a composite (composite.py:29-31) -/
def diagLoopR (out : Nat) : List ClassRefs → PM Unit
  | [] => PM.pure ()
  | c :: cs =>
    (getOuter c.diagO).bind fun e => (getOuter out).bind fun d =>
    (lift (ensureNoSharedKeys e d)).bind fun _ =>
    (putOuter out (d.update e)).bind fun _ => diagLoopR out cs

/-- `diagnostic_properties` of a composite (composite.py:26-36) -/
def diagnosticsR (R : Registry) (order : SetOrder) (g : Tracers) (cs : List ClassRefs) : PM Nat :=
  newOuter.bind fun out => (diagLoopR out cs).bind fun _ => fun m =>
    if ∀ kv ∈ m.outer out, (m.inner kv.2).dims.isSome then (m, .ok out)
    else ((inputsR R order g cs).bind fun i => (getOuter i).bind fun inP =>
      if ∀ kv ∈ m.outer out, (m.inner kv.2).dims.isSome ∨ kv.1 ∈ inP.keys then PM.pure out
      else raise .invalidPropertyDict) m

/-- Loop of `TendencyStepper.diagnostic_properties` (tendencystepper.py:69-70) -/
def stepperDiagLoopR (out : Nat) : List ClassRefs → PM Unit
  | [] => PM.pure ()
  | c :: cs =>
    (getOuter c.diagO).bind fun e => (getOuter out).bind fun d =>
    (putOuter out (d.update e)).bind fun _ => stepperDiagLoopR out cs

/-- `_insert_tendencies_to_diagnostic_properties` (tendencystepper.py:76-83) -/
def insertTendenciesR (inst : String) (out : Nat) : Dict Nat → PM Unit
  | [] => PM.pure ()
  | (n, r) :: rest =>
    (getInner r).bind fun p =>
    match p.units, p.dims with
    | some u, some d =>
      newInner.bind fun r' => (putInner r' { dims := some d, units := some u }).bind fun _ =>
      (getOuter out).bind fun e => (putOuter out (e.set (tendencyName n inst) r')).bind fun _ =>
      insertTendenciesR inst out rest
    | _, _ => raise .keyError

/-- `TendencyStepper.diagnostic_properties` (tendencystepper.py:66-74) -/
def stepperDiagnosticsR (R : Registry) (order : SetOrder) (g : Tracers) (cs : List ClassRefs) (tid : Bool)
    (inst : String) : PM Nat :=
  newOuter.bind fun out => (stepperDiagLoopR out cs).bind fun _ =>
  if tid then
    (tendenciesR R order g cs).bind fun t => (getOuter t).bind fun d =>
    (insertTendenciesR inst out d).bind fun _ => PM.pure out
  else PM.pure out

/-- Loop of `TimeDifferencingWrapper.tendency_properties` (basic.py:384-386) -/
def differencingLoopR (out : Nat) : Dict Nat → PM Unit
  | [] => PM.pure ()
  | (n, r) :: rest =>
    (getInner r).bind fun p =>
    newInner.bind fun r' => (putInner r' p).bind fun _ =>
    (getOuter out).bind fun e => (putOuter out (e.set n r')).bind fun _ =>
    match p.units with
    | none => raise .keyError
    | some u => (putInner r' { p with units := some (u ++ " s^-1") }).bind fun _ => differencingLoopR out rest

/-- `TimeDifferencingWrapper.tendency_properties` (basic.py:381-387) -/
def differencingR (c : ClassRefs) : PM Nat :=
  newOuter.bind fun out => (getOuter c.outO).bind fun d =>
  (differencingLoopR out d).bind fun _ => PM.pure out

/-- The properties that are computed on access. -/
inductive PropAccess where
  | inputs (cs : List ClassRefs)
  | tendencies (cs : List ClassRefs)
  | diagnostics (cs : List ClassRefs)
  | stepperInputs (cs : List ClassRefs)
  | stepperOutputs (cs : List ClassRefs)
  | stepperDiagnostics (cs : List ClassRefs) (tid : Bool) (inst : String)
  | differencing (c : ClassRefs)

/-- Evaluate one, with the tracers `g` registered. -/
def PropAccess.run (R : Registry) (order : SetOrder) (g : Tracers) : PropAccess → PM Nat
  | .inputs cs => inputsR R order g cs
  | .tendencies cs => tendenciesR R order g cs
  | .diagnostics cs => diagnosticsR R order g cs
  | .stepperInputs cs => stepperInputsR R order g cs
  | .stepperOutputs cs => outputsR R order g cs
  | .stepperDiagnostics cs tid inst => stepperDiagnosticsR R order g cs tid inst
  | .differencing c => differencingR c

end Verif
