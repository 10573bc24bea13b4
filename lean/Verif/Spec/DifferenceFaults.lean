import Verif.Spec.OutputFaults
/-!
# What can go wrong when a Stepper takes differences

numpy broadcasting and the differences between new and old arrays, by the lengths of axes
counted from the last.
-/

namespace Verif

/-- numpy broadcasts arrays of these shapes: counted from the last axis, lengths are equal or one
of them is 1, as far as both shapes go. -/
def Broadcasts (s t : List Nat) : Prop :=
  ∀ (k a b : Nat), s.reverse[k]? = some a → t.reverse[k]? = some b → a = b ∨ a = 1 ∨ b = 1

/-- The length of an axis from those of two operands, which may lack the axis. -/
def commonLength : Option Nat → Option Nat → Option Nat
  | none, b => b
  | a, none => a
  | some a, some b => some (if a = 1 then b else a)

/-- `r` is the shape numpy gives the result for operands of shapes `s` and `t`. -/
def BroadcastTo (s t r : List Nat) : Prop :=
  Broadcasts s t ∧ ∀ k : Nat, r.reverse[k]? = commonLength s.reverse[k]? t.reverse[k]?

/-- The faults of what was returned that show when the differences to the old arrays are taken:
an output or its old value is not there under the name of the output, or they do not broadcast. -/
def DifferenceFault (outs : List String) (old new : Dict NDArray) : Err → Prop
  | .keyError => ∃ n ∈ outs, new.get? n = none ∨ old.get? n = none
  | .valueError => ∃ n ∈ outs, ∃ a b, new.get? n = some a ∧ old.get? n = some b ∧
      ¬ Broadcasts a.shape b.shape
  | _ => False

/-- `diag'` is `diag` with an array of the shape of the difference for each output, under the name
of its tendency. -/
structure WithDifferences (inst : String) (outs : List String) (old new diag diag' : Dict NDArray) : Prop where
  put : ∀ n ∈ outs, ∃ a b d, new.get? n = some a ∧ old.get? n = some b ∧
    diag'.get? (tendencyName n inst) = some d ∧ BroadcastTo a.shape b.shape d.shape
  rest : ∀ k, (∀ n ∈ outs, k ≠ tendencyName n inst) → diag'.get? k = diag.get? k

end Verif
