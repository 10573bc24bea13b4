import Verif.Spec.Constants
/-!
# Specification of the text of the constants
-/

namespace Verif

/-- The name, constant or alias, stands for the constant `c`. -/
def NameMeans (m : CMem) (n : String) (c : Const) : Prop := ∃ r, Resolves m.ad n r ∧ m.cd.get? r = some c

/-- A text of these lines, each ended by a line break. -/
def textOfLines (lines : List String) : String := lines.foldr (fun l rest => l ++ "\n" ++ rest) ""

/-- The line about a name: its value and its units. -/
def entryLine (fmt : Rat → String) (n : String) (v : Rat) (units : String) : String :=
  "\t" ++ n ++ ": " ++ fmt v ++ " " ++ units

/-- A section: a title unless there is nothing under it, the lines, and an empty line. -/
def sectionLines (title : String) (entries : List String) : List String :=
  (if entries = [] then [] else [title]) ++ entries ++ [""]

/-- Whether the names of the categories and the names `user` are, without repetition,
the names of the defined constants. -/
structure ListsEveryName (m : CMem) (categories : Dict (List String)) (user : List String) : Prop where
  once : (categories.flatMap (·.2) ++ user).Nodup
  all : ∀ n, n ∈ categories.flatMap (·.2) ++ user ↔ ∃ c, NameMeans m n c

end Verif
