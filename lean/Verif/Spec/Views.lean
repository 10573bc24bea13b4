import Verif.Spec.Arrays
import Verif.Model.Views
/-!
# Specifications for changes made in place

Independent of how the arrays are made: only names, units, lengths and named coordinates.
-/

namespace Verif

/-- Two arrays that differ at most in their values. -/
def SameForm (a b : DataArray) : Prop := a.dims = b.dims ∧ a.arr.shape = b.arr.shape ∧ a.attrs = b.attrs

/-- Is the array that a component gets for a quantity the memory of the quantity in the state?  It is
if the units are the same, every dimension that the quantity lacks has length 1, and numpy need not
copy to merge two or more matched dims. -/
def SharesMemory (R : Registry) (copies : String → Bool) (wild : List String) (L : String → Nat) (kv : String × QProps)
    (a : DataArray) : Prop :=
  ∃ dims units own, kv.2.dims = some dims ∧ kv.2.units = some units ∧ a.attrs.get? "units" = some own ∧
    SameUnit R own units ∧ (∀ d ∈ outDimsSpec dims wild, d ∉ a.dims → L d = 1) ∧
    ("*" ∈ dims → 2 ≤ wild.length → copies kv.1 = false)

/-- A change of the array of a requested quantity, at named coordinates. -/
structure NamedWrite where
  kv : String × QProps
  ix : String → Nat
  val : Rat

/-- The change is to an element of the array of a requested quantity. -/
def NamedWrite.Inside (props : PropDict) (wild : List String) (L : String → Nat) (w : NamedWrite) : Prop :=
  w.kv ∈ props ∧ ∀ dims, w.kv.2.dims = some dims → ∀ d ∈ outDimsSpec dims wild, w.ix d < L d

/-- The same change as an index into the array. -/
def NamedWrite.poke (wild : List String) (L : String → Nat) (w : NamedWrite) : Poke :=
  ⟨outName w.kv, specIndex (w.kv.2.dims.getD []) wild L w.ix, w.val⟩

/-- The change is one of the value at `ix` of the array `k` of the state. -/
def NamedWrite.Reaches (R : Registry) (copies : String → Bool) (wild : List String) (L : String → Nat) (h : Held)
    (m : Cells) (k : Nat) (ix : String → Nat) (w : NamedWrite) : Prop :=
  h.refs.get? w.kv.1 = some k ∧ SharesMemory R copies wild L w.kv (m k) ∧ ∀ d ∈ (m k).dims, w.ix d = ix d

end Verif
