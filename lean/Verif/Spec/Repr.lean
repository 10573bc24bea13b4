import Verif.Model.Repr
/-!
# What the text of a component should be

The text of an object shows its attributes in full, except that an object that is being
shown already (an object that it is inside of) is only named.
-/

namespace Verif

mutual
/-- `Shows h path i s`: `s` is the text of object `i` inside of the objects `path`. -/
inductive Shows (h : List Thing) : List Nat → Nat → String → Prop
  | missing {path i} : h[i]? = none → Shows h path i ""
  | again {path i cls attrs} : h[i]? = some (.component cls attrs) → i ∈ path →
      Shows h path i (cls ++ "(recursive reference)")
  | full {path i cls attrs s} : h[i]? = some (.component cls attrs) → i ∉ path →
      ShowsPieces h (i :: path) (attrPieces attrs) s → Shows h path i (cls ++ "(" ++ s ++ ")")
  | parts {path i cls parts s} : h[i]? = some (.composite cls parts) →
      ShowsPieces h path (partPieces parts) s → Shows h path i (cls ++ "(\n" ++ s ++ "\n)")

/-- The same for pieces. -/
inductive ShowsPieces (h : List Thing) : List Nat → List Piece → String → Prop
  | nil {path} : ShowsPieces h path [] ""
  | text {path s rest t} : ShowsPieces h path rest t → ShowsPieces h path (.text s :: rest) (s ++ t)
  | ref {path i s rest t} : Shows h path i s → ShowsPieces h path rest t →
      ShowsPieces h path (.ref i :: rest) (s ++ t)
end

/-- No object of the heap is a TimeDifferencingWrapper. -/
def NoWrappers (h : List Thing) : Prop := ∀ (i : Nat) cls attrs j, h[i]? ≠ some (Thing.wrapper cls attrs j)

/-- The same objects are being printed. -/
def SameMaking (fl fl' : Flags) : Prop := ∀ j, fl j = some true ↔ fl' j = some true

/-- Composites are made of objects that existed before them (objects are numbered in the
order they are made), while attributes of components may refer to anything. -/
def Ordered (h : List Thing) : Prop :=
  ∀ (i : Nat) cls parts, h[i]? = some (.composite cls parts) → ∀ j ∈ parts, j < i

/-- How many objects are not being printed. -/
def idle (h : List Thing) (fl : Flags) : Nat := ((List.range h.length).filter fun i => fl i ≠ some true).length

end Verif
