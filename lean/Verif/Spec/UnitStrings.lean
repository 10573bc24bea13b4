import Verif.Model.UnitStrings
/-!
# Specification: spellings of a unit
-/

namespace Verif

/-- The second text is the first one with some of its signs `%` and `°` spelled out. -/
inductive SpelledOut : List Char → List Char → Prop
  | nil : SpelledOut [] []
  | same (c) {s t} : SpelledOut s t → SpelledOut (c :: s) (c :: t)
  | percent {s t} : SpelledOut s t → SpelledOut ('%' :: s) ('p' :: 'e' :: 'r' :: 'c' :: 'e' :: 'n' :: 't' :: t)
  | degree {s t} : SpelledOut s t → SpelledOut ('°' :: s) ('d' :: 'e' :: 'g' :: 'r' :: 'e' :: 'e' :: t)

/-- Two spellings of one unit. -/
def Spelling (s t : String) : Prop := SpelledOut s.toList t.toList ∨ SpelledOut t.toList s.toList

/-- A text without signs. -/
def NoSigns (s : String) : Prop := '%' ∉ s.toList ∧ '°' ∉ s.toList

/-- pint itself reads the signs as the words. -/
def Pint.ReadsSigns (P : Pint) : Prop := ∀ s t, Spelling s t → P.raw s = P.raw t

end Verif
