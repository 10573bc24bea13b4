import Verif.Spec.Arrays
import Verif.Spec.TimeSteppers
/-!
# Specification of C77: axes in another order
-/

namespace Verif

/-- The same quantity with its axes in another order: the same dims, lengths and
attributes, and the same value at the same named coordinates. -/
structure SameByName (a b : DataArray) : Prop where
  dims : a.dims.Perm b.dims
  len : ∀ d ∈ a.dims, a.len d = b.len d
  attrs : a.attrs = b.attrs
  val : ∀ ix : String → Nat, (∀ d ∈ a.dims, ix d < a.len d) → a.at' ix = b.at' ix

def SameNamedVal : Option Val → Option Val → Prop
  | none, none => True
  | some (.time t), some (.time t') => t = t'
  | some (.da a), some (.da b) => SameByName a b
  | _, _ => False

/-- The same state with axes in other orders. -/
def SameNamedState (s s' : State) : Prop := ∀ n, SameNamedVal (Dict.get? s n) (Dict.get? s' n)

/-- The same outputs with axes in other orders. -/
def SameNamedDict (d d' : Dict DataArray) : Prop :=
  ∀ n, SameNamedVal ((d.get? n).map .da) ((d'.get? n).map .da)

/-- Raw arrays requested with `dims` hold the same values in the same places, the
wildcard being spelt out as `W` in one and `W'` in the other. -/
structure SamePlaces (dims W W' : List String) (L : String → Nat) (a a' : NDArray) : Prop where
  shape : a.shape = specShape dims W L
  shape' : a'.shape = specShape dims W' L
  val : ∀ ix : String → Nat, (∀ d ∈ outDimsSpec dims W, ix d < L d) →
    a.get (specIndex dims W L ix) = a'.get (specIndex dims W' L ix)

/-- Raw inputs that differ only by the order of the dims within wildcards. -/
def SameInputs' (props : PropDict) (W W' : List String) (L : String → Nat) (raw raw' : Dict NDArray) : Prop :=
  raw.keys = raw'.keys ∧
  ∀ kv ∈ props, ∀ dims, kv.2.dims = some dims → ∃ a a', raw.get? (outName kv) = some a ∧
    raw'.get? (outName kv) = some a' ∧ SamePlaces dims W W' L a a'

/-- Raw outputs likewise, of the shapes declared.  `name kv` is the key under which
`array_call` returns an output; dimensions that are not the inputs' may have any length. -/
def SameOutputs (inP outP : PropDict) (ign : List String) (name : String → String) (W W' : List String)
    (L : String → Nat) (raw raw' : Dict NDArray) : Prop :=
  raw.keys = raw'.keys ∧
  ∃ L' : String → Nat, (∀ d ∈ W, L' d = L d) ∧
    (∀ kv ∈ inP, ∀ ds, kv.2.dims = some ds → ∀ d ∈ ds, d ≠ "*" → L' d = L d) ∧
    ∀ kv ∈ outP, kv.1 ∉ ign → ∀ dims, effDims inP kv.1 kv.2 = some dims →
      ∃ a a', raw.get? (name kv.1) = some a ∧ raw'.get? (name kv.1) = some a' ∧ SamePlaces dims W W' L' a a'

/-- What property checks ensure of outputs: dims and units are known, with at most one
wildcard, and only if some input has one. -/
def GoodOutputs (inP outP : PropDict) : Prop :=
  outP.keys.Nodup ∧ ∀ kv ∈ outP, ∃ dims units, effDims inP kv.1 kv.2 = some dims ∧ kv.2.units = some units ∧
    dims.count "*" ≤ 1 ∧ ("*" ∈ dims → ∃ ikv ∈ inP, ∃ idims, ikv.2.dims = some idims ∧ "*" ∈ idims)

/-- Both fail, or both succeed with related results. -/
def Exc.Both {α β : Type} (P : α → β → Prop) : Except Err α → Except Err β → Prop
  | .ok a, .ok b => P a b
  | .error _, .error _ => True
  | _, _ => False

end Verif
