import Verif.Model.Coords
import Verif.Spec.Arrays
import Verif.Spec.SteppersOver
/-!
# Specification of C89: arithmetic by label
-/

namespace Verif

/-- No label is repeated along a dimension. -/
def CArray.Distinct (a : CArray) : Prop := ∀ d l, a.coords.get? d = some l → l.Nodup

/-- Shared dimensions have the same length, or labels by which they can be matched. -/
def CArray.Fits (a b : CArray) : Prop :=
  ∀ d ∈ a.da.dims, d ∈ b.da.dims →
    a.da.len d = b.da.len d ∨ (d ∈ a.coords.keys ∧ d ∈ b.coords.keys)

/-- The labels of a result: those both operands have, in the order of the left one; those of
the labelled operand if only one is labelled. -/
def sharedLabels : Option (List Rat) → Option (List Rat) → Option (List Rat)
  | some l, some m => some (l.filter (· ∈ m))
  | some l, none => some l
  | none, m => m

/-- Where an operand labelled `own` has the label that the result, labelled `res`, has at position
`ix`; the same position if the operand has no labels. -/
def atLabel (own res : Dict (List Rat)) (ix : String → Nat) (d : String) : Nat :=
  match own.get? d, res.get? d with
  | some l, some m => l.idxOf (m.getD (ix d) 0)
  | _, _ => ix d

/-- Every quantity of the state has the coordinates that `C` gives to its name. -/
def Labelled (C : String → Dict (List Rat)) (s : EState CArray) : Prop :=
  ∀ k a, (k, Entry.da a) ∈ s → a.coords = C k

/-- The quantities without their coordinates. -/
def bareArrays (d : Dict CArray) : Dict DataArray := d.map fun kv => (kv.1, kv.2.da)

/-- An AdamsBashforth (or the one inside an SSPRungeKutta) that remembers tendencies without
coordinates. -/
def liftAB (ab : AB) : ABOver CArray :=
  { order := ab.order, timestep := ab.timestep, hist := ab.hist.map unlabelled }

/-- Diagnostics and a new state as without coordinates, and the quantities of the new state have
the coordinates `C`; or the same exception. -/
def SameWithCoords (C : String → Dict (List Rat)) (x : Except Err (Dict CArray × EState CArray))
    (y : Except Err (Dict DataArray × State)) : Prop :=
  Exc.Rel (fun a b => bareArrays a.1 = b.1 ∧ Labelled C a.2 ∧ bareState a.2 = b.2) x y

/-- `n` times `diagnostics, state = stepper(state, timestep)`: the stepper, the components'
world and the state afterwards; `none` if a call raised. -/
def runStepsO {V τ σ : Type} (call : τ → σ → EState V → Int → τ × σ × EState V × Except Err (Dict V × EState V))
    (dt : Int) : Nat → τ → σ → EState V → Option (τ × σ × EState V)
  | 0, x, s, state => some (x, s, state)
  | n + 1, x, s, state =>
    match call x s state dt with
    | (x', s', _, .ok (_, new)) => runStepsO call dt n x' s' new
    | _ => none

end Verif
