import Verif.Model.Composite
/-!
# Composites with array identity

The rest of the model treats arrays as values.  Here arrays are objects that can be
shared and changed in place.  Arrays the components (and the caller) can reach are
`ext`; those the composite allocated during the call are `own`, which nobody else can
reach while the call runs.  Components may do anything to `ext` arrays, and may return
the same array several times or an array they keep.

Simplification: a DataArray and its data are one object.
-/

namespace Verif

/-- Arrays reachable by components. -/
abbrev Ext := Nat → DataArray

/-- Reference to an array. -/
inductive Ref where
  | ext (l : Nat)
  | own (l : Nat)
  deriving DecidableEq

/-- Memory: the components' world, their arrays, and the composite's. -/
structure Mem (σ : Type) where
  world : σ
  ext : Ext
  own : List DataArray

def Mem.read {σ : Type} (m : Mem σ) : Ref → DataArray
  | .ext l => m.ext l
  | .own l => m.own.getD l ⟨[], NDArray.zeros [], []⟩

/-- In-place change of an array. -/
def Mem.write {σ : Type} (m : Mem σ) (r : Ref) (a : DataArray) : Mem σ :=
  match r with
  | .ext l => { m with ext := fun k => if k = l then a else m.ext k }
  | .own l => { m with own := m.own.set l a }

/-- A new array. -/
def Mem.alloc {σ : Type} (m : Mem σ) (a : DataArray) : Mem σ × Ref :=
  ({ m with own := m.own ++ [a] }, .own m.own.length)

/-- Body of the loop of `update_dict_by_adding_another` (util.py:203-219):
`copy()` for a new key, else `+=`, in place unless the right operand has a dimension
the left one lacks (xarray raises ValueError), then `+`. -/
def addEntryH {σ : Type} (R : Registry) (m : Mem σ) (d1 : Dict Ref) (k : String) (r : Ref) :
    Mem σ × Except Err (Dict Ref) :=
  match d1.get? k with
  | none => let a := m.alloc (m.read r); (a.1, .ok (d1.set k a.2))
  | some w =>
    match (m.read w).attrs.get? "units", (m.read r).attrs.get? "units" with
    | some u, some _ =>
      match ((m.read r).toUnits R u >>= fun v => (m.read w).add v) with
      | .error e => (m, .error e)
      | .ok s =>
        if ∀ d ∈ (m.read r).dims, d ∈ (m.read w).dims then (m.write w s, .ok (d1.set k w))
        else let a := m.alloc s; (a.1, .ok (d1.set k a.2))
    | _, _ => (m, .error .invalidState)

/-- `update_dict_by_adding_another` (util.py:195-220). -/
def addIntoH {σ : Type} (R : Registry) : Dict Ref → Mem σ → Dict Ref → Mem σ × Except Err (Dict Ref)
  | [], m, d1 => (m, .ok d1)
  | (k, r) :: rest, m, d1 =>
    match (addEntryH R m d1 k r).2 with
    | .error e => ((addEntryH R m d1 k r).1, .error e)
    | .ok d1' => addIntoH R rest (addEntryH R m d1 k r).1 d1'

/-- A component: changes the world and the arrays it can reach, and returns
references to arrays it can reach. -/
abbrev HComp (σ : Type) := σ × Ext → (σ × Ext) × Except Err (Dict Nat × Dict Nat)

/-- The loop of the tendency composites' `__call__` (composite.py:158-164, 229-241). -/
def compositeLoopH {σ : Type} (R : Registry) :
    List (HComp σ) → Mem σ → Dict Ref → Dict Ref → Mem σ × Except Err (Dict Ref × Dict Ref)
  | [], m, t, d => (m, .ok (t, d))
  | f :: fs, m, t, d =>
    let m1 : Mem σ := { world := (f (m.world, m.ext)).1.1, ext := (f (m.world, m.ext)).1.2, own := m.own }
    match (f (m.world, m.ext)).2 with
    | .error e => (m1, .error e)
    | .ok r =>
      match (addIntoH R (Dict.mapVal Ref.ext r.1) m1 t).2 with
      | .error e => ((addIntoH R (Dict.mapVal Ref.ext r.1) m1 t).1, .error e)
      | .ok t' => compositeLoopH R fs (addIntoH R (Dict.mapVal Ref.ext r.1) m1 t).1 t'
          (d.update (Dict.mapVal Ref.ext r.2))

end Verif
