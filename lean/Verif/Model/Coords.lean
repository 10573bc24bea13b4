import Verif.Model.SteppersOver
/-!
# DataArrays with coordinates (`sympl/_core/dataarray.py`, `units.py`)

`Verif/Model/DataArray.lean` leaves out the coordinates of DataArrays.  Here a DataArray has
dimension coordinates (the index of xarray): for some of its dimensions, a list of labels, one
per position.

xarray's arithmetic (default option `arithmetic_join='inner'`): along a dimension that is labelled
in both operands with different labels, both operands are restricted to the labels they share,
in the order of the left one; ValueError if labels to be matched are repeated.  In-place
arithmetic never restricts: it raises MergeError (a ValueError) if labels differ.  The result has
the coordinates of both operands.

Simplifications: labels are numbers; coordinates that are not the index of a dimension are left out.
-/

namespace Verif

/-- A DataArray with the labels of its labelled dimensions. -/
structure CArray where
  da : DataArray
  coords : Dict (List Rat)

namespace CArray

/-- One label per position, for dimensions of the array only (xarray's invariant). -/
def WF (a : CArray) : Prop :=
  a.da.WF ∧ a.coords.keys.Nodup ∧ ∀ d l, (d, l) ∈ a.coords → d ∈ a.da.dims ∧ l.length = a.da.len d

/-- The dimensions labelled in both operands, with different labels: what they share, in the
order of the left operand (xarray `align`, `join='inner'`). -/
def joined (a b : CArray) : Dict (List Rat) :=
  a.coords.filterMap fun dl =>
    match b.coords.get? dl.1 with
    | some l => if l = dl.2 then none else some (dl.1, dl.2.filter (· ∈ l))
    | none => none

/-- Labels to be matched are repeated in one of the operands. -/
def Repeated (a b : CArray) : Prop :=
  ∃ d ∈ (joined a b).keys, ¬ ((a.coords.get? d).getD []).Nodup ∨ ¬ ((b.coords.get? d).getD []).Nodup

instance (a b : CArray) : Decidable (Repeated a b) := by unfold Repeated; infer_instance

/-- `a.reindex(**labels)` to labels that `a` has. -/
def reindex (a : CArray) (labels : Dict (List Rat)) : CArray where
  da := { a.da with
    arr :=
      { shape := a.da.dims.map fun d => ((labels.get? d).map List.length).getD (a.da.len d)
        get := fun idx => a.da.at' fun d =>
          match labels.get? d with
          | some l => ((a.coords.get? d).getD []).idxOf (l.getD (DataArray.named a.da.dims idx d) 0)
          | none => DataArray.named a.da.dims idx d } }
  coords := a.coords.map fun dl => (dl.1, (labels.get? dl.1).getD dl.2)

/-- Coordinates of a result: those of the left operand, then the unseen ones of the right. -/
def mergeCoords (a b : Dict (List Rat)) : Dict (List Rat) := a ++ b.filter fun dl => dl.1 ∉ a.keys

/-- A binary operation of xarray with alignment; `f` is the operation on the aligned arrays. -/
def binary (f : DataArray → DataArray → Except Err DataArray) (a b : CArray) : Except Err CArray :=
  if joined a b = [] then f a.da b.da >>= fun r => .ok ⟨r, mergeCoords a.coords b.coords⟩
  else if Repeated a b then .error .valueError
  else
    let a' := a.reindex (joined a b)
    let b' := b.reindex (joined a b)
    f a'.da b'.da >>= fun r => .ok ⟨r, mergeCoords a'.coords b'.coords⟩

/-- `DataArray.__add__` (dataarray.py:10-15) -/
def add : CArray → CArray → Except Err CArray := binary DataArray.add

/-- `DataArray.__sub__` (dataarray.py:17-22) -/
def sub : CArray → CArray → Except Err CArray := binary DataArray.sub

/-- `a += b`: no alignment, MergeError (a ValueError) if labels differ. -/
def iadd (a b : CArray) : Except Err CArray :=
  if joined a b = [] then a.da.iadd b.da >>= fun r => .ok ⟨r, mergeCoords a.coords b.coords⟩
  else .error .valueError

/-- `c * a` -/
def smul (c : Rat) (a : CArray) : CArray := ⟨a.da.smul c, a.coords⟩

/-- `DataArray.to_units` (dataarray.py:24-54): arithmetic with scalars keeps coordinates, and the
array itself is returned if there is nothing to convert (units.py:77-86). -/
def toUnits (R : Registry) (a : CArray) (u : String) : Except Err CArray :=
  a.da.toUnits R u >>= fun r => .ok ⟨r, a.coords⟩

end CArray

/-- The operations of DataArrays with coordinates. -/
def coordsArith (R : Registry) : Arith CArray where
  add := CArray.add
  sub := CArray.sub
  iadd := CArray.iadd
  smul := CArray.smul
  divide a c := ⟨{ a.da with arr := a.da.arr.map (fun x => x / c * 1), attrs := [] }, a.coords⟩
  toUnits := CArray.toUnits R
  attrs a := a.da.attrs
  setAttrs a m := ⟨{ a.da with attrs := m }, a.coords⟩
  isContainer _ := true

/-- The state without its coordinates.  This is all that components see of it: the arrays handed
to them are `.values` of the entries (backend.py:75-86, 106-163), matched by the names and lengths of
dimensions (wildcard.py:12-35). -/
def bareState : EState CArray → State
  | [] => []
  | (k, .da a) :: rest => (k, .da a.da) :: bareState rest
  | (k, .time t) :: rest => (k, .time t) :: bareState rest

/-- Quantities as `create_quantity` makes them (backend.py:88-89): without coordinates. -/
def unlabelled (d : Dict DataArray) : Dict CArray := d.map fun kv => (kv.1, ⟨kv.2, []⟩)

/-- Components given a state with coordinates. -/
def onBare {σ : Type} (p : Prog σ) : ProgOver σ CArray := fun s state dt =>
  ((p s (bareState state) dt).1, (p s (bareState state) dt).2 >>= fun r => .ok (unlabelled r.1, unlabelled r.2))

end Verif
