import Verif.Model.Composite
import Verif.Spec.Arrays
/-!
# Specifications for composites
-/

namespace Verif

/-- What the components return for one quantity, in order. -/
def contribs (n : String) (ts : List (Dict DataArray)) : List DataArray := ts.filterMap (·.get? n)

/-- Value of a quantity at named coordinates, in base units (as it is, if it has no
known units). -/
def physAt (R : Registry) (ix : String → Nat) (a : DataArray) : Rat :=
  match (a.attrs.get? "units").bind R.parse with
  | some u => a.at' ix * u.scale + u.offset
  | none => a.at' ix

/-- The quantity has a known unit of the given dimension. -/
def HasDim (R : Registry) (dim : List Int) (a : DataArray) : Prop :=
  ∃ own u, a.attrs.get? "units" = some own ∧ R.parse own = some u ∧ u.dim = dim

/-- The quantity's unit is not an offset unit such as degC. -/
def Multiplicative (R : Registry) (a : DataArray) : Prop :=
  ∀ own u, a.attrs.get? "units" = some own → R.parse own = some u → u.offset = 0

/-- Several quantities can be added up: known units of one dimension, and equal
lengths of shared dims. -/
def Addable (R : Registry) (cs : List DataArray) : Prop :=
  cs.length ≤ 1 ∨ (∃ dim, ∀ c ∈ cs, HasDim R dim c) ∧ cs.Pairwise SameLengths

/-- Running components one after the other, keeping what each returns. -/
def runAll {σ α : Type} : List (σ → σ × Except Err α) → σ → σ × Except Err (List α)
  | [], s => (s, .ok [])
  | f :: fs, s =>
    match (f s).2 with
    | .error e => ((f s).1, .error e)
    | .ok r =>
      match (runAll fs (f s).1).2 with
      | .error e => ((runAll fs (f s).1).1, .error e)
      | .ok rs => ((runAll fs (f s).1).1, .ok (r :: rs))

/-- The objects of which a composite of a kind may consist: those of the kind, and for an
ImplicitTendencyComponentComposite TendencyComponents as well. -/
def MayJoin (k : Kind) (o : Obj) : Prop := isInstance k o = true ∨ (k = .implicit ∧ isInstance .tendency o = true)

end Verif
