import Verif.Model.Rounding
/-! # What is said about computations that round -/

namespace Verif

/-- `fl` changes no number by more than the part `u` of it. -/
def Rounds (u : Rat) (fl : Rat → Rat) : Prop := ∀ x, |fl x - x| ≤ u * |x|

/-- `fl` rounds to numbers with a fixed number of binary digits: it commutes with doubling, and 1 is such a number. -/
structure BinaryDigits (fl : Rat → Rat) : Prop where
  double : ∀ x, fl (2 * x) = 2 * fl x
  one : fl 1 = 1

/-- The component never gives a tendency for `q`. -/
def NeverTends {σ V : Type} (p : ProgOver σ V) (q : String) : Prop :=
  ∀ s state dt r, (p s state dt).2 = .ok r → q ∉ Dict.keys r.1

/-- The tendencies that the component gives are a dict: no name occurs twice. -/
def GivesDicts {σ V : Type} (p : ProgOver σ V) : Prop :=
  ∀ s state dt r, (p s state dt).2 = .ok r → (Dict.keys r.1).Nodup

/-- What the loop does between steps leaves `q` alone (and the state a dict). -/
def LeavesAlone {V : Type} (between : Dict V → EState V → EState V) (q : String) : Prop :=
  ∀ diag state, Dict.get? (between diag state) q = Dict.get? state q ∧
    ((Dict.keys state).Nodup → (Dict.keys (between diag state)).Nodup)

/-- The same array, element by element. -/
structure EqualElements (a b : DataArray) : Prop where
  dims : b.dims = a.dims
  shape : b.arr.shape = a.arr.shape
  attrs : b.attrs = a.attrs
  value : ∀ ix, b.at' ix = a.at' ix

/-- The same array but for changes by parts of at most `e` of the elements. -/
structure AlmostSame (e : Rat) (a b : DataArray) : Prop where
  dims : b.dims = a.dims
  shape : b.arr.shape = a.arr.shape
  attrs : b.attrs = a.attrs
  value : ∀ ix, |b.at' ix - a.at' ix| ≤ e * |a.at' ix|

/-- `y` is what `x` becomes by at most `m` roundings of numbers of size at most `a`. -/
structure Near (u : Rat) (m : Nat) (y x a : Rat) : Prop where
  err : |y - x| ≤ ((1 + u) ^ m - 1) * a
  size : |x| ≤ a

end Verif
