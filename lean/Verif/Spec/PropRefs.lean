import Verif.Model.PropRefs
import Verif.Spec.TimeSteppers
/-!
# Specification of C92: property dictionaries as objects
-/

namespace Verif

/-- `m'` has the objects of `m`, unchanged, and maybe more. -/
structure KeepsDicts (m m' : PropMem) : Prop where
  inner : ∀ r < m.nextI, m'.inner r = m.inner r
  outer : ∀ o < m.nextO, m'.outer o = m.outer o
  nextI : m.nextI ≤ m'.nextI
  nextO : m.nextO ≤ m'.nextO

/-- A property dictionary that exists in `m`, with the dicts it refers to. -/
def Exists' (m : PropMem) (o : Nat) : Prop := o < m.nextO ∧ ∀ kv ∈ m.outer o, kv.2 < m.nextI

/-- A property dictionary of `m'` made after `m`, that shares no dict with `m`, and none
between two of its names. -/
structure Private (m m' : PropMem) (o : Nat) : Prop where
  outer : m.nextO ≤ o ∧ o < m'.nextO
  inner : ∀ kv ∈ m'.outer o, m.nextI ≤ kv.2 ∧ kv.2 < m'.nextI
  nodup : ((m'.outer o).map (·.2)).Nodup

/-- A component whose property dictionaries exist. -/
def ClassRefs.In (m : PropMem) (c : ClassRefs) : Prop := Exists' m c.inO ∧ Exists' m c.outO ∧ Exists' m c.diagO

/-- The components whose properties are computed. -/
def PropAccess.comps : PropAccess → List ClassRefs
  | .inputs cs | .tendencies cs | .diagnostics cs | .stepperInputs cs | .stepperOutputs cs
  | .stepperDiagnostics cs _ _ => cs
  | .differencing c => [c]

/-- What the property should be, given what the components declare. -/
def PropAccess.value (R : Registry) (order : SetOrder) (g : Tracers) (m : PropMem) : PropAccess → Except Err PropDict
  | .inputs cs => compositeInputs R order g (cs.map (·.view m))
  | .tendencies cs => compositeTendencies R order g (cs.map (·.view m))
  | .diagnostics cs => compositeDiagnostics R order g (cs.map (·.view m))
  | .stepperInputs cs => tsInputProps R order g (cs.map (·.view m))
  | .stepperOutputs cs => tsOutputProps R order g (cs.map (·.view m))
  | .stepperDiagnostics cs tid inst => tsDiagProps R order g (cs.map (·.view m)) tid inst
  | .differencing c => differencingProps (m.read c.outO)

/-- Properties computed into new dicts throughout. -/
def PropAccess.Copies : PropAccess → Prop
  | .diagnostics _ | .stepperDiagnostics _ _ _ => False
  | _ => True

/-- The components exist, and no dictionary of output properties has a name twice (as for
every Python dict). -/
def PropAccess.Wf (m : PropMem) (a : PropAccess) : Prop :=
  ∀ c ∈ a.comps, c.In m ∧ (Dict.keys (m.outer c.outO)).Nodup

/-- What the caller sees of a property: its contents, or the exception. -/
def PropAccess.seen (R : Registry) (order : SetOrder) (g : Tracers) (m : PropMem) (a : PropAccess) : Except Err PropDict :=
  (a.run R order g m).2 >>= fun o => .ok ((a.run R order g m).1.read o)

/-- What a caller may do to a property dictionary `o` that was returned. -/
inductive UserEdit where
  /-- `o[k][…] = …`, any change to the dict under a name -/
  | change (k : String) (p : QProps)
  /-- `o[k] = {…}` -/
  | insert (k : String) (p : QProps)
  /-- `o.pop(k, None)` -/
  | remove (k : String)

/-- The memory after the change (`change` of an absent name raises and changes nothing). -/
def UserEdit.apply (o : Nat) (m : PropMem) : UserEdit → PropMem
  | .change k p =>
    match (m.outer o).get? k with
    | none => m
    | some r => { m with inner := fun r' => if r' = r then p else m.inner r' }
  | .insert k p =>
    { inner := fun r => if r = m.nextI then p else m.inner r
      outer := fun o' => if o' = o then (m.outer o).set k m.nextI else m.outer o'
      nextI := m.nextI + 1
      nextO := m.nextO }
  | .remove k => { m with outer := fun o' => if o' = o then (m.outer o).erase k else m.outer o' }

/-- Changes that do not go into the dicts under the names. -/
def UserEdit.Shallow : UserEdit → Prop
  | .change _ _ => False
  | _ => True

/-- One use: read a property with the tracers `g` registered, then change what was
returned; nothing is returned if the property raises. -/
structure PropUse where
  g : Tracers
  a : PropAccess
  edits : List UserEdit

def PropUse.run (R : Registry) (order : SetOrder) (m : PropMem) (u : PropUse) : PropMem :=
  match (u.a.run R order u.g m).2 with
  | .error _ => (u.a.run R order u.g m).1
  | .ok o => u.edits.foldl (fun m e => e.apply o m) (u.a.run R order u.g m).1

/-- The dicts under the names are changed only where the property copies them. -/
def PropUse.Safe (u : PropUse) : Prop := u.a.Copies ∨ ∀ e ∈ u.edits, e.Shallow

end Verif
