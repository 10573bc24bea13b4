import Verif.Spec.TimeSteppers
/-!
# Specification of C69: a state given in other units
-/

namespace Verif

/-- How the two states differ: `none` if a quantity is given identically in both, and
otherwise its units in the first and in the second. -/
abbrev UnitChange := String → Option (String × String)

/-- `u` and `w` are units of one kind, and a rate in `u` or `w` per second is expressed
by the same factor, without offset, as holds for all multiplicative units. -/
def RatePair (R : Registry) (u w : String) : Prop :=
  ∃ a b a' b', R.parse u = some a ∧ R.parse w = some b ∧ a.dim = b.dim ∧
    R.parse (u ++ " s^-1") = some a' ∧ R.parse (w ++ " s^-1") = some b' ∧ a'.dim = b'.dim ∧
    a'.scale = a.scale ∧ b'.scale = b.scale ∧ a'.offset = 0 ∧ b'.offset = 0

def UnitChange.Ok (R : Registry) (ch : UnitChange) : Prop := ∀ q u w, ch q = some (u, w) → RatePair R u w

/-- The same physical quantity, in the two units. -/
def SameInUnits (R : Registry) (c : Option (String × String)) (a b : DataArray) : Prop :=
  match c with
  | none => a = b
  | some (u, w) => a.dims = b.dims ∧ a.arr.shape = b.arr.shape ∧
      a.attrs.get? "units" = some u ∧ b.attrs.get? "units" = some w ∧
      ∀ idx, SamePhysical R u (a.arr.get idx) w (b.arr.get idx)

/-- The same entry of a state. -/
def SameEntry (R : Registry) (c : Option (String × String)) : Val → Val → Prop
  | .time t, .time t' => t = t'
  | .da a, .da b => SameInUnits R c a b
  | _, _ => False

/-- The same physical state. -/
def SameState (R : Registry) (ch : UnitChange) (s s' : State) : Prop :=
  List.Forall₂ (fun a b => a.1 = b.1 ∧ SameEntry R (ch a.1) a.2 b.2) s s'

/-- Rates with units, expressing the same physical rates. -/
def SamePhysicalRate (R : Registry) (v w : DataArray) : Prop :=
  v.dims = w.dims ∧ v.arr.shape = w.arr.shape ∧
    ∃ u u', v.attrs.get? "units" = some u ∧ w.attrs.get? "units" = some u' ∧
      ∀ idx, SamePhysical R u (v.arr.get idx) u' (w.arr.get idx)

/-- Components that do the same for the same physical state: their tendencies (with
units) are the same rates and their diagnostics are equal. -/
def UnitBlind {σ : Type} (R : Registry) (ch : UnitChange) (p : Prog σ) : Prop :=
  ∀ s state state' dt, SameState R ch state state' → (p s state dt).1 = (p s state' dt).1 ∧
    Exc.Rel (fun r r' => r.2 = r'.2 ∧ List.Forall₂ (fun a b => a.1 = b.1 ∧ SamePhysicalRate R a.2 b.2) r.1 r'.1)
      (p s state dt).2 (p s state' dt).2

end Verif
