import Verif.Model.Keywords
/-!
# Specification of C93: arguments of the time steppers
-/

namespace Verif

/-- The number that a value is. -/
def KwVal.number : KwVal → Option Rat
  | .bool true => some 1
  | .bool false => some 0
  | .int n => some n
  | .float q => some q
  | .npInt n => some n
  | _ => Option.none

/-- One of numpy's integers. -/
def KwVal.IsNumpyInt (v : KwVal) : Prop := ∃ n, v = .npInt n

/-- Components as individual arguments, or as one list. -/
def Given (args : List Arg) (cs : List (Class × Obj)) : Prop := args = cs.map .comp ∨ args = [.list cs]

/-- What is given for a keyword, or what stands in for it. -/
def KwOr (kwargs : Dict KwVal) (k : String) (default v : KwVal) : Prop :=
  (k, v) ∈ kwargs ∨ (k ∉ kwargs.keys ∧ v = default)

/-- Every keyword is one of those documented: the two of every Stepper, or its own. -/
def Documented (own : List String) (kwargs : Dict KwVal) : Prop :=
  ∀ k ∈ kwargs.keys, k ∈ own ∨ k = "tendencies_in_diagnostics" ∨ k = "name"

/-- The name of a stepper: what is given, unless it is empty; then the name of the class. -/
def Named (fmt : KwVal → String) (cls : String) (kwargs : Dict KwVal) (name : String) : Prop :=
  ∃ v, KwOr kwargs "name" .none v ∧
    ((v.truthy = false ∧ name = cls) ∨ (v.truthy = true ∧ ((∃ s, v = .str s ∧ name = s) ∨ ((∀ s, v ≠ .str s) ∧ name = fmt v))))

/-- Tendencies in diagnostics are asked for. -/
def AsksTendencies (kwargs : Dict KwVal) (tid : Bool) : Prop :=
  ∃ v, KwOr kwargs "tendencies_in_diagnostics" (.bool false) v ∧ tid = v.truthy

end Verif
