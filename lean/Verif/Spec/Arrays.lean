import Verif.Model.DataArray
/-!
# Specifications for raw arrays

Independent of the functions in `Verif/Model/Wildcard.lean`: only named
coordinates, lengths and the affine meaning of units are used.
-/

namespace Verif

/-- `x` in units `u1` and `y` in units `u2` are the same physical value. -/
def SamePhysical (R : Registry) (u1 : String) (x : Rat) (u2 : String) (y : Rat) : Prop :=
  ∃ a b, R.parse u1 = some a ∧ R.parse u2 = some b ∧ a.dim = b.dim ∧
    x * a.scale + a.offset = y * b.scale + b.offset

/-- pint identifies two units (compares `1 a == 1 b`) only if they are the same
affine scale.  Holds for all multiplicative units; assumed of offset units. -/
def Registry.Faithful (R : Registry) : Prop :=
  ∀ s t a b, R.parse s = some a → R.parse t = some b → a.dim = b.dim →
    a.scale + a.offset = b.scale + b.offset → a.scale = b.scale ∧ a.offset = b.offset

/-- Where the value at named coordinates `ix` is to be found in a raw array
requested with `dims`: one index per entry; the wildcard entry is the row-major
position over the matched dims `wild` with lengths `L`. -/
def specIndex (dims wild : List String) (L ix : String → Nat) : List Nat :=
  dims.map fun d => if d = "*" then ravel (wild.map L) (wild.map ix) else ix d

/-- Shape of a raw array requested with `dims`. -/
def specShape (dims wild : List String) (L : String → Nat) : List Nat :=
  dims.map fun d => if d = "*" then size (wild.map L) else L d

/-- The quantities a property dictionary asks for, with the requested dims. -/
def requested (state : State) (props : PropDict) : List (DataArray × List String) :=
  props.filterMap fun kv =>
    match Dict.get? state kv.1, kv.2.dims with
    | some (.da a), some d => some (a, d)
    | _, _ => none

/-- The dims matched by wildcards: dims not listed by the request, in order of
first appearance. -/
def wildSpec (qs : List (DataArray × List String)) : List String :=
  (qs.flatMap fun q => q.1.dims.filter (fun d => d ∉ q.2)).eraseDups

/-- `L` gives every dimension of every requested quantity its length, and 1 to
dims no quantity has. -/
def LenSpec (qs : List (DataArray × List String)) (L : String → Nat) : Prop :=
  (∀ q ∈ qs, ∀ d ∈ q.1.dims, L d = q.1.len d) ∧
  ∀ d, (∀ q ∈ qs, d ∉ q.1.dims) → L d = 1

/-- All quantities in a state are well-formed DataArrays. -/
def State.WF (s : State) : Prop := ∀ n a, Dict.get? s n = some (.da a) → a.WF

/-- No quantity has a dimension literally called `*`. -/
def State.StarFree (s : State) : Prop := ∀ n a, Dict.get? s n = some (.da a) → "*" ∉ a.dims

/-- Each requested dims list has at most one wildcard. -/
def OneStar (props : PropDict) : Prop := ∀ kv ∈ props, ∀ d, kv.2.dims = some d → d.count "*" ≤ 1

/-- Output dims: the wildcard replaced by the matched dims. -/
def outDimsSpec (dims wild : List String) : List String :=
  dims.flatMap fun d => if d = "*" then wild else [d]

/-- Dims of an output: its own, or else those of the input of the same name. -/
def effDims (inProps : PropDict) (name : String) (p : QProps) : Option (List String) :=
  p.dims.or ((inProps.get? name).bind (·.dims))

/-- The key under which a quantity is passed to a component. -/
def outName (kv : String × QProps) : String := kv.2.aliasName.getD kv.1

/-- Shared dims have equal lengths. -/
def SameLengths (a b : DataArray) : Prop := ∀ d ∈ a.dims, d ∈ b.dims → a.len d = b.len d

/-- Two unit strings denote the same unit: same dimension, scale and offset. -/
def SameUnit (R : Registry) (s t : String) : Prop :=
  ∃ a b, R.parse s = some a ∧ R.parse t = some b ∧ a.dim = b.dim ∧ a.scale = b.scale ∧ a.offset = b.offset

end Verif
