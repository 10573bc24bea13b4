import Verif.Spec.Commutes
import Verif.Spec.Arrays
/-!
# Dimensions of quantities during a run (C96)

`L d` is the length of dimension `d`, `D k` the dimensions that the quantity `k` has in the
initial state, and `E k` further dimensions that tendencies of `k` may have.
-/

namespace Verif

/-- An array whose axes have different names and the length that belongs to their name. -/
def DataArray.Sized (L : String → Nat) (a : DataArray) : Prop :=
  a.dims.Nodup ∧ a.arr.shape = a.dims.map L

/-- A quantity which has the dimensions `D` in that order and after them only dimensions of `E`. -/
def Fits (L : String → Nat) (D E : List String) (a : DataArray) : Prop :=
  a.Sized L ∧ ∃ ex, a.dims = D ++ ex ∧ ∀ d ∈ ex, d ∈ E

/-- A tendency with any of the dimensions `D` and `E`, in any order. -/
def Within (L : String → Nat) (D E : List String) (a : DataArray) : Prop :=
  a.Sized L ∧ ∀ d ∈ a.dims, d ∈ D ∨ d ∈ E

/-- Every quantity of the state has its dimensions. -/
def AllFit (L : String → Nat) (D E : String → List String) (state : State) : Prop :=
  ∀ k a, (k, Val.da a) ∈ state → Fits L (D k) (E k) a

/-- A component which, on states whose quantities have their dimensions, returns tendencies
of every quantity `k` with dimensions among `D k` and `E k`. -/
def GivesWithin {σ : Type} (L : String → Nat) (D E : String → List String) (p : Prog σ) : Prop :=
  ∀ s state dt out, AllFit L D E state → (p s state dt).2 = .ok out →
    ∀ k a, (k, a) ∈ out.1 → Within L (D k) (E k) a

/-- Dimensions `dims` declared for the tendency of `k` that suit the quantities: they are
different; each one that is named is a dimension of `k`, is a dimension of some input, and is
not matched by the wildcard of an input; and if there is a wildcard then all that the inputs
match with theirs are dimensions of `k`. -/
structure DimsSuit (inProps : PropDict) (D E : String → List String) (k : String) (dims : List String) : Prop where
  nodup : dims.Nodup
  own : ∀ d ∈ dims, d ≠ "*" → d ∈ D k ∨ d ∈ E k
  known : ∀ d ∈ dims, d ≠ "*" → ∃ q ∈ inProps, d ∈ D q.1
  listed : ∀ d ∈ dims, d ≠ "*" → ∀ q ∈ inProps, ∀ ds, q.2.dims = some ds → d ∈ D q.1 ∨ d ∈ E q.1 → d ∈ ds
  matched : "*" ∈ dims → ∀ q ∈ inProps, ∀ ds, q.2.dims = some ds → ∀ d, d ∈ D q.1 ∨ d ∈ E q.1 → d ∉ ds →
    d ∈ D k ∨ d ∈ E k

end Verif
