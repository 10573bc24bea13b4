import Verif.Py.Dict
/-!
# Text of components (`__repr__`)

Objects print their attributes, which may be objects again, perhaps the same ones.

Simplifications: the text of an attribute is a sequence of pieces, which are texts (or
exceptions) of other objects and references to sympl objects; so lists and dictionaries are
trees.  Python's limit on the depth of recursion is left out.
-/

namespace Verif

/-- A piece of the text of an attribute. -/
inductive Piece where
  | text (s : String)
  | fails (e : Err)
  | ref (i : Nat)
  deriving DecidableEq

/-- A sympl object with its class and, in the order of its `__dict__`, its attributes other
than `_making_repr`.  `wrapper` is a TimeDifferencingWrapper, which takes attributes it lacks
from the Stepper `inner` (basic.py:444-448).  `composite` is a ComponentComposite with its
`component_list`. -/
inductive Thing where
  | component (cls : String) (attrs : List (String × List Piece))
  | wrapper (cls : String) (attrs : List (String × List Piece)) (inner : Nat)
  | composite (cls : String) (parts : List Nat)

/-- The attribute `_making_repr` of every object, `none` if it has none. -/
abbrev Flags := Nat → Option Bool

/-- Assignment of `_making_repr`. -/
def Flags.put (fl : Flags) (i : Nat) (b : Bool) : Flags := fun k => if k = i then some b else fl k

/-- `sep.join(...)`, with the pieces of each item. -/
def joinPieces (sep : String) : List (List Piece) → List Piece
  | [] => []
  | [x] => x
  | x :: rest => x ++ .text sep :: joinPieces sep rest

/-- `'\n'.join('{}: {}'.format(repr(key), repr(value)) ...)` (base_components.py:477-479;
the quotes are those of `repr(key)` for a key without quotes). -/
def attrPieces (attrs : List (String × List Piece)) : List Piece :=
  joinPieces "\n" (attrs.map fun kv => .text ("'" ++ kv.1 ++ "': ") :: kv.2)

/-- `',\n'.join(repr(component) for component in self.component_list)` (composite.py:70) -/
def partPieces (parts : List Nat) : List Piece := joinPieces ",\n" (parts.map fun i => [.ref i])

/-- The text of pieces in order, the first exception ends it. -/
def printPieces (f : Nat → Flags → Option (Flags × Except Err String)) :
    List Piece → Flags → Option (Flags × Except Err String)
  | [], fl => some (fl, .ok "")
  | .fails e :: _, fl => some (fl, .error e)
  | .text s :: rest, fl =>
    match printPieces f rest fl with
    | some (fl', .ok t) => some (fl', .ok (s ++ t))
    | r => r
  | .ref i :: rest, fl =>
    match f i fl with
    | some (fl1, .ok s) =>
      match printPieces f rest fl1 with
      | some (fl', .ok t) => some (fl', .ok (s ++ t))
      | r => r
    | r => r

/-- `hasattr(self, '_making_repr') and self._making_repr` (base_components.py:471) -/
def making (h : List Thing) (fl : Flags) (i : Nat) : Bool :=
  match h[i]?, fl i with
  | some (.wrapper _ _ inner), none => fl inner == some true
  | _, b => b == some true

/-- `__repr__` of an object with `_making_repr` (base_components.py:470-481, 724-735, 948-959,
1155-1166, 1253-1264; tendencystepper.py:108-119): nothing resets it after an exception. -/
def printFlagged (h : List Thing) (f : Nat → Flags → Option (Flags × Except Err String)) (i : Nat) (cls : String)
    (attrs : List (String × List Piece)) (fl : Flags) : Option (Flags × Except Err String) :=
  if making h fl i then some (fl, .ok (cls ++ "(recursive reference)"))
  else
    match printPieces f (attrPieces attrs) (fl.put i true) with
    | some (fl', .ok s) => some (fl'.put i false, .ok (cls ++ "(" ++ s ++ ")"))
    | r => r

/-- `repr` of the object `i` (also composite.py:67-70) with at most `n` calls inside one
another; `none` if more are needed. -/
def printObj (h : List Thing) : Nat → Nat → Flags → Option (Flags × Except Err String)
  | 0, _, _ => none
  | n + 1, i, fl =>
    match h[i]? with
    | none => some (fl, .ok "")
    | some (.component cls attrs) => printFlagged h (printObj h n) i cls attrs fl
    | some (.wrapper cls attrs _) => printFlagged h (printObj h n) i cls attrs fl
    | some (.composite cls parts) =>
      match printPieces (printObj h n) (partPieces parts) fl with
      | some (fl', .ok s) => some (fl', .ok (cls ++ "(\n" ++ s ++ "\n)"))
      | r => r

end Verif
