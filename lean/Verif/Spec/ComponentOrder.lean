import Verif.Spec.Layout
import Verif.Model.TimeSteppers
import Verif.Spec.Composite
/-!
# Specification of C100: components in another order

The results of two runs are compared quantity by quantity, at the same named coordinates:
neither the order of the keys of dictionaries nor the order of axes counts.
-/

namespace Verif

/-- An array as xarray makes them, with no axis named "*". -/
structure DataArray.Fine (a : DataArray) : Prop where
  wf : a.WF
  star : "*" ∉ a.dims

/-- The same values at the same named coordinates, whatever the attributes and the order of
the axes.  The arrays are well formed, and no axis is named "*". -/
structure SameValues (a b : DataArray) : Prop where
  left : a.Fine
  right : b.Fine
  dims : a.dims.Perm b.dims
  len : ∀ d ∈ a.dims, a.len d = b.len d
  val : ∀ ix : String → Nat, (∀ d ∈ a.dims, ix d < a.len d) → a.at' ix = b.at' ix

/-- The same rates of change at the same named coordinates: the same values in the same
units, or the same physical values in two units of one dimension. -/
structure SameRates (R : Registry) (a b : DataArray) : Prop where
  left : a.Fine
  right : b.Fine
  dims : a.dims.Perm b.dims
  len : ∀ d ∈ a.dims, a.len d = b.len d
  rate : (a.attrs.get? "units" = b.attrs.get? "units" ∧
      ∀ ix : String → Nat, (∀ d ∈ a.dims, ix d < a.len d) → a.at' ix = b.at' ix) ∨
    ∃ own own' u u', a.attrs.get? "units" = some own ∧ b.attrs.get? "units" = some own' ∧
      R.parse own = some u ∧ R.parse own' = some u' ∧ u.dim = u'.dim ∧
      ∀ ix : String → Nat, (∀ d ∈ a.dims, ix d < a.len d) →
        a.at' ix * u.scale + u.offset = b.at' ix * u'.scale + u'.offset

/-- Dictionaries with the same names, and related entries under each name. -/
def SameEach {α β : Type} (P : α → β → Prop) (d : Dict α) (d' : Dict β) : Prop :=
  ∀ n, Option.Rel P (d.get? n) (d'.get? n)

/-- The same quantity `k` (which is not the time) in two states. -/
structure AlikeEntry (k : String) (a b : DataArray) : Prop where
  name : k ≠ "time"
  left : a.Fine
  right : b.Fine
  dims : a.dims.Perm b.dims
  len : ∀ d ∈ a.dims, a.len d = b.len d
  attrs : a.attrs = b.attrs
  val : ∀ ix : String → Nat, (∀ d ∈ a.dims, ix d < a.len d) → a.at' ix = b.at' ix

def AgreeAt (k : String) : Option Val → Option Val → Prop
  | none, none => True
  | some (.time t), some (.time t') => t = t'
  | some (.da a), some (.da b) => AlikeEntry k a b
  | _, _ => False

/-- States that hold the same quantities. -/
def Agree (s s' : State) : Prop := ∀ n, AgreeAt n (Dict.get? s n) (Dict.get? s' n)

/-- States that are Python dictionaries of well-formed arrays and hold the same quantities. -/
structure SameStates (s s' : State) : Prop where
  left : (Dict.keys s).Nodup
  right : (Dict.keys s').Nodup
  same : Agree s s'

/-- A state as it should be: a dictionary of well-formed arrays, in which "time" is a time. -/
structure ProperState (s : State) : Prop where
  keys : (Dict.keys s).Nodup
  wf : s.WF
  star : s.StarFree
  time : ∀ a, Dict.get? s "time" ≠ some (.da a)

/-- Components, each with a world of its own: on states that hold the same quantities,
both raise or both return the same rates and the same diagnostics. -/
def SameComponents {σ σ' : Type} (R : Registry) (p : Prog σ) (p' : Prog σ') : Prop :=
  ∀ s s' state state' dt, SameStates state state' →
    Exc.Both (fun r r' => SameEach (SameRates R) r.1 r'.1 ∧ SameNamedDict r.2 r'.2)
      (p s state dt).2 (p' s' state' dt).2

/-- A component of a time stepper whose results depend on the quantities in the state only:
not on the world (its own memory or that of other components), nor on the order of keys or
axes.  It returns dictionaries of well-formed arrays, the tendencies not in offset units
such as degC. -/
structure Comp.Independent {σ : Type} (R : Registry) (c : Comp σ) : Prop where
  same : ∀ s s' state state' dt, SameStates state state' →
    Exc.Both (fun r r' => SameNamedDict r.1 r'.1 ∧ SameNamedDict r.2 r'.2)
      (implicitCall c state dt s).2 (implicitCall c state' dt s').2
  returns : ∀ s state dt r, ProperState state → (implicitCall c state dt s).2 = .ok r →
    (Dict.keys r.1).Nodup ∧ (Dict.keys r.2).Nodup ∧ ∀ n a, Dict.get? r.1 n = some a → a.Fine ∧ Multiplicative R a

/-- No two components return diagnostics of one name. -/
def DiagnosticsApart {σ : Type} (c c' : Comp σ) : Prop :=
  ∀ s s' state dt r r', ProperState state → (implicitCall c state dt s).2 = .ok r → (implicitCall c' state dt s').2 = .ok r' →
    ∀ n, ¬ (n ∈ Dict.keys r.2 ∧ n ∈ Dict.keys r'.2)

/-- The ends of two runs: both runs raised, or both completed with states that hold the
same quantities. -/
def SameEnds {τ τ' σ σ' : Type} : Option (τ × σ × State) → Option (τ' × σ' × State) → Prop
  | none, none => True
  | some r, some r' => SameNamedState r.2.2 r'.2.2
  | _, _ => False

end Verif
