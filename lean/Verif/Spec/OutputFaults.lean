import Verif.Spec.Components
/-!
# What is wrong with the arrays a component returns

The faults of returned arrays by the exception they are reported with, without
reference to the order in which the code looks for them.
-/

namespace Verif

/-- `L` gives the dimensions of the inputs the lengths they have; other dimensions are free. -/
def Agrees (state : State) (inProps : PropDict) (L : String → Nat) : Prop :=
  ∀ q ∈ requested state inProps, ∀ d ∈ q.1.dims, L d = q.1.len d

/-- Properties of outputs that can be met: units, and dims of their own or from the input of the
same name, with at most one wildcard. -/
def Arranged (inProps props : PropDict) : Prop :=
  ∀ kv ∈ props, (∃ u, kv.2.units = some u) ∧
    ∃ dims, effDims inProps kv.1 kv.2 = some dims ∧ dims.count "*" ≤ 1

/-- A declared quantity is not returned under the one name it is looked up by: its alias, else
the alias of the input of that name, else its name. -/
def Misnamed (inProps props : PropDict) (exempt : List String) (raw : Dict NDArray) : Prop :=
  ∃ kv ∈ props, kv.1 ∉ exempt ∧ raw.get? (returnName inProps props kv.1) = none

/-- The array of a quantity with a wildcard has fewer axes than the quantity has dims. -/
def AxesLacking (inProps props : PropDict) (exempt : List String) (raw : Dict NDArray) : Prop :=
  ∃ kv ∈ props, kv.1 ∉ exempt ∧ ∃ dims a, effDims inProps kv.1 kv.2 = some dims ∧ "*" ∈ dims ∧
    raw.get? (returnName inProps props kv.1) = some a ∧ a.shape.length < dims.length

/-- Whatever the lengths of the dimensions that the inputs do not have, some array has a shape
other than its dims have. -/
def Misfits (state : State) (inProps props : PropDict) (exempt : List String) (raw : Dict NDArray) : Prop :=
  ∀ L, Agrees state inProps L → ∃ kv ∈ props, kv.1 ∉ exempt ∧ ∃ dims a,
    effDims inProps kv.1 kv.2 = some dims ∧ raw.get? (returnName inProps props kv.1) = some a ∧
    a.shape ≠ specShape dims (wildSpec (requested state inProps)) L

/-- A quantity has a wildcard although no input has one. -/
def StrayWildcard (inProps props : PropDict) (exempt : List String) : Prop :=
  ∃ kv ∈ props, kv.1 ∉ exempt ∧ (∃ dims, effDims inProps kv.1 kv.2 = some dims ∧ "*" ∈ dims) ∧
    ∀ ikv ∈ inProps, ∀ ds, ikv.2.dims = some ds → "*" ∉ ds

/-- The fault an exception stands for. -/
def OutputFault (state : State) (inProps props : PropDict) (exempt : List String)
    (raw : Dict NDArray) : Err → Prop
  | .missingOutput => Omitted inProps props exempt raw
  | .extraOutput => Undeclared inProps props raw
  | .keyError => Misnamed inProps props exempt raw ∨ AxesLacking inProps props exempt raw
  | .invalidPropertyDict => Misfits state inProps props exempt raw
  | .typeError => StrayWildcard inProps props exempt
  | _ => False

/-- Arrays as declared, on dimensions of the lengths `L`: each quantity under the name it is
looked up by and with the lengths of its dims, which may be any for dimensions that the inputs do
not have; no wildcard unless an input has one; and no other array. -/
structure Fulfils (L : String → Nat) (state : State) (inProps props : PropDict) (exempt : List String)
    (raw : Dict NDArray) : Prop where
  agrees : Agrees state inProps L
  fits : ∀ kv ∈ props, kv.1 ∉ exempt → ∃ dims a,
    effDims inProps kv.1 kv.2 = some dims ∧ raw.get? (returnName inProps props kv.1) = some a ∧
    a.shape = specShape dims (wildSpec (requested state inProps)) L ∧
    ("*" ∈ dims → ∃ ikv ∈ inProps, ∃ ds, ikv.2.dims = some ds ∧ "*" ∈ ds)
  only : ∀ k ∈ raw.keys, ∃ kv ∈ props, MayReturn inProps kv.1 kv.2 k

end Verif
