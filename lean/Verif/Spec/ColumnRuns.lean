import Verif.Spec.Columns
import Verif.Spec.DimsKept
import Verif.Spec.Keyed
/-!
# Specification of C97 for runs: two grids

On the first grid dimension `d` has length `L d` and the quantity `k` the dimensions `D k`, on
the second `L' d` and `D' k`.  The column with coordinates `ix` of the second grid is that with
coordinates `φ ix` of the first.
-/

namespace Verif

/-- Apart from `H`, the grids have the same dimensions with the same lengths. -/
structure TwoGrids (H : List String) (L L' : String → Nat) (D D' : String → List String) : Prop where
  names : ∀ k d, d ∉ H → (d ∈ D k ↔ d ∈ D' k)
  lengths : ∀ d, d ∉ H → L d = L' d
  star : ∀ k, "*" ∉ D k
  star' : ∀ k, "*" ∉ D' k

/-- The same attributes, and the same values in each column. -/
def SameAt (φ : (String → Nat) → String → Nat) (a b : DataArray) : Prop :=
  a.attrs = b.attrs ∧ ∀ ix, (∀ d ∈ b.dims, ix d < b.len d) → b.at' ix = a.at' (φ ix)

/-- The same quantity `k` on the two grids. -/
def OnGrids (L L' : String → Nat) (φ : (String → Nat) → String → Nat) (D D' : String → List String) (k : String)
    (a b : DataArray) : Prop :=
  k ≠ "time" ∧ Fits L (D k) [] a ∧ Fits L' (D' k) [] b ∧ SameAt φ a b

/-- The same tendency of `k` on the two grids. -/
def TendOnGrids (L L' : String → Nat) (φ : (String → Nat) → String → Nat) (D D' : String → List String) (k : String)
    (a b : DataArray) : Prop :=
  Within L (D k) [] a ∧ Within L' (D' k) [] b ∧ SameAt φ a b

/-- Dimensions that wildcards match. -/
def wildDims (props : PropDict) (D : String → List String) : List String :=
  props.flatMap fun kv => (D kv.1).filter fun d => d ∉ kv.2.dims.getD []

/-- A component whose declarations suit both grids: its wildcards match what differs between
them and its named dimensions do not. -/
structure SuitsGrids (H : List String) (L L' : String → Nat) (φ : (String → Nat) → String → Nat)
    (D D' : String → List String) (c : Class) : Prop where
  declared : ∀ kv ∈ c.inProps, kv.2.dims.isSome
  nodup : ∀ kv ∈ c.inProps, ∀ ds, kv.2.dims = some ds → ds.Nodup
  named : ∀ kv ∈ c.inProps, ∀ ds, kv.2.dims = some ds → ∀ d ∈ ds, d ∉ H
  flat : ∀ kv ∈ c.inProps, ∀ ds, kv.2.dims = some ds → "*" ∉ ds → ∀ d ∈ H, d ∉ D kv.1 ∧ d ∉ D' kv.1
  wild : ∀ d ∈ wildDims c.inProps D, d ∈ H
  wild' : ∀ d ∈ wildDims c.inProps D', d ∈ H
  regrid : Regrid H (wildDims c.inProps D) (wildDims c.inProps D') L L' φ
  outs : AvoidDims H c.inProps c.outProps
  diags : AvoidDims H c.inProps c.diagProps
  suits : ∀ kv ∈ c.outProps, ∀ dims, effDims c.inProps kv.1 kv.2 = some dims →
    DimsSuit c.inProps D (fun _ => []) kv.1 dims ∧ DimsSuit c.inProps D' (fun _ => []) kv.1 dims

end Verif
