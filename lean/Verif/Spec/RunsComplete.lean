import Verif.Spec.DimsKept
import Verif.Spec.TimeSteppers
/-!
# C99: what a run needs in order not to raise

`state0` is the state at the start of the run and `Q` are the quantities that the components
give tendencies to.
-/

namespace Verif

/-- An array with the dimensions of `b`, their lengths, and the attributes of `b`. -/
structure Likewise (L : String → Nat) (b a : DataArray) : Prop where
  sized : a.Sized L
  dims : a.dims = b.dims
  attrs : a.attrs = b.attrs

/-- A state in which every quantity is like in `state0`, and those outside `Q` have `c` times
the values they have there (`c` is 1 for the states that components see). -/
structure Ready (L : String → Nat) (Q : List String) (c : Rat) (state0 state : State) : Prop where
  keys : (Dict.keys state).Nodup
  time : Dict.get? state "time" = Dict.get? state0 "time"
  absent : ∀ k, k ≠ "time" → Dict.get? state0 k = none → Dict.get? state k = none
  present : ∀ k b, k ≠ "time" → Dict.get? state0 k = some (.da b) →
    ∃ a, Dict.get? state k = some (.da a) ∧ Likewise L b a ∧
      (k ∉ Q → ∀ ix, a.at' ix = c * b.at' ix)

/-- A state to start from: quantities are arrays on a common grid, those of `Q` are present, the
time is no array. -/
structure Startable (L : String → Nat) (Q : List String) (state0 : State) : Prop where
  keys : (Dict.keys state0).Nodup
  arrays : ∀ k v, k ≠ "time" → Dict.get? state0 k = some v → ∃ a, v = .da a ∧ a.Sized L
  stepped : ∀ k ∈ Q, k ≠ "time" ∧ k ∈ Dict.keys state0
  time : ∀ a, Dict.get? state0 "time" ≠ some (.da a)

/-- A tendency that can be added to the quantity `b` of the state: it has no other dimensions,
and units, if any, which convert to those of the quantity per second. -/
structure FitsRate (R : Registry) (L : String → Nat) (b v : DataArray) : Prop where
  sized : v.Sized L
  dims : ∀ d ∈ v.dims, d ∈ b.dims
  units : v.attrs.get? "units" = none ∨ ∃ own u pa pb, v.attrs.get? "units" = some own ∧ b.attrs.get? "units" = some u ∧
    R.parse own = some pa ∧ R.parse (u ++ " s^-1") = some pb ∧ pa.dim = pb.dim

/-- Components that, for every state like `state0`, do not raise, give tendencies to exactly
the quantities of `Q`, which can be added, and no diagnostic of the names `N`. -/
def Supplies {σ : Type} (R : Registry) (L : String → Nat) (Q N : List String) (state0 : State) (dt : Int)
    (prog : Prog σ) : Prop :=
  ∀ s state, Ready L Q 1 state0 state → ∃ r, (prog s state dt).2 = .ok r ∧ (Dict.keys r.1).Nodup ∧
    (∀ k, k ∈ Dict.keys r.1 ↔ k ∈ Q) ∧
    (∀ k v, Dict.get? r.1 k = some v → ∃ b, Dict.get? state0 k = some (.da b) ∧ FitsRate R L b v) ∧
    ∀ n ∈ N, n ∉ Dict.keys r.2

/-- A component in a composite whose members give tendencies to the quantities `Q`: for every
state like `state0` it does not raise, gives tendencies with units to exactly the quantities
of `P`, which can be added, and no diagnostic of the names `N`. -/
def GivesRates {σ : Type} (R : Registry) (L : String → Nat) (Q P N : List String) (state0 : State) (dt : Int)
    (prog : Prog σ) : Prop :=
  ∀ s state, Ready L Q 1 state0 state → ∃ r, (prog s state dt).2 = .ok r ∧ (Dict.keys r.1).Nodup ∧
    (∀ k, k ∈ Dict.keys r.1 ↔ k ∈ P) ∧
    (∀ k v, Dict.get? r.1 k = some v → (∃ b, Dict.get? state0 k = some (.da b) ∧ FitsRate R L b v) ∧
      v.attrs.get? "units" ≠ none) ∧
    ∀ n ∈ N, n ∉ Dict.keys r.2

/-- What the tendencies in diagnostics need: the units of the properties of each quantity
reported convert from those of the state. -/
structure Reportable (R : Registry) (inProps outProps : PropDict) (state0 : State) : Prop where
  keys : (Dict.keys outProps).Nodup
  units : ∀ n ∈ Dict.keys outProps, n ≠ "time" ∧ ∃ p u b own pa pb, Dict.get? inProps n = some p ∧ p.units = some u ∧
    Dict.get? state0 n = some (.da b) ∧ b.attrs.get? "units" = some own ∧ R.parse own = some pa ∧
    R.parse u = some pb ∧ pa.dim = pb.dim

/-- What a stepper which stores tendencies in diagnostics needs. -/
def Reports (R : Registry) (inProps outProps : PropDict) (inst : String) (N : List String) (state0 : State) : Prop :=
  Reportable R inProps outProps state0 ∧ ∀ n ∈ Dict.keys outProps, tendencyName n inst ∈ N

end Verif
