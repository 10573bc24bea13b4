import Verif.Model.Monitors
import Verif.Spec.NetCDF
import Mathlib.Data.List.Forall2
/-!
# Specifications for monitors and arrays changed after `store`
-/

namespace Verif

/-- A call to the monitor, or any change in place of the program's arrays. -/
inductive HNCOp where
  | store (state : HState)
  | write
  | change (f : Arrays → Arrays)

/-- One step: the arrays, the monitor, and what the call returned or raised. -/
def HNCOp.run (order : SetOrder) (w : Arrays × HNCMon) : HNCOp → (Arrays × HNCMon) × Option (Except Err Unit)
  | .store s => ((w.1, (ncStoreH order w.1 w.2 s).1), some (ncStoreH order w.1 w.2 s).2)
  | .write => ((w.1, (ncWriteH w.1 w.2).1), some (ncWriteH w.1 w.2).2)
  | .change f => ((f w.1, w.2), none)

/-- A program: the final arrays and monitor, and the outcomes of the calls. -/
def runProgram (order : SetOrder) : List HNCOp → Arrays × HNCMon → (Arrays × HNCMon) × List (Option (Except Err Unit))
  | [], w => (w, [])
  | op :: ops, w => ((runProgram order ops (op.run order w).1).1, (op.run order w).2 :: (runProgram order ops (op.run order w).1).2)

/-- The same program if `store` takes the values that the arrays have at the call: the
monitor of `Model/NetCDF`, whose cache has values. -/
def runValues (order : SetOrder) : List HNCOp → Arrays → NCMon → NCMon × List (Option (Except Err Unit))
  | [], _, m => (m, [])
  | .store s :: ops, mem, m =>
    let r := ncStore order m (HState.read mem s)
    ((runValues order ops mem r.1).1, some r.2 :: (runValues order ops mem r.1).2)
  | .write :: ops, mem, m =>
    let r := ncWrite m
    ((runValues order ops mem r.1).1, some r.2 :: (runValues order ops mem r.1).2)
  | .change f :: ops, mem, m => ((runValues order ops (f mem) m).1, none :: (runValues order ops (f mem) m).2)

/-- The arrays waiting to be written. -/
def HNCMon.Waiting (m : HNCMon) (l : Nat) : Prop := ∃ ts ∈ m.cache, ∃ q, (q, HVal.ref l) ∈ ts.2

/-- No change touches an array that waits to be written. -/
def Undisturbed (order : SetOrder) : List HNCOp → Arrays × HNCMon → Prop
  | [], _ => True
  | op :: ops, w =>
    (∀ f, op = .change f → ∀ l, w.2.Waiting l → f w.1 l = w.1 l) ∧ Undisturbed order ops (op.run order w).1

/-- A function given a state changes only objects it can reach through it, and new ones. -/
def Confined {ω : Type} (F : PMem ω → Dict PVal → PMem ω × Except Err Unit) : Prop :=
  ∀ m d, (∀ l, l < m.next → (∀ q, (q, PVal.array l) ∉ d) → (F m d).1.arrays l = m.arrays l) ∧
    (∀ l, (∀ q, (q, PVal.other l) ∉ d) → (F m d).1.others l = m.others l) ∧ m.next ≤ (F m d).1.next

/-- Entry by entry, `c` in the memory `m` has what `s` has in the memory `A`. -/
def StateCopy {ω : Type} (A : Arrays) (m : PMem ω) (s c : Dict PVal) : Prop :=
  List.Forall₂ (fun a b => a.1 = b.1 ∧
    match a.2, b.2 with
    | .array l, .array l' => m.arrays l' = A l
    | .other l, .other l' => l = l'
    | _, _ => False) s c

end Verif
