import Verif.Model.Constants
import Verif.Spec.Arrays
import Mathlib.Logic.Relation
/-!
# Specifications for constants
-/

namespace Verif

/-- Following `k` aliases from `n` ends at `r`, which is not an alias. -/
inductive ResolvesIn (al : Dict String) : Nat → String → String → Prop
  | here {n} : n ∉ Dict.keys al → ResolvesIn al 0 n n
  | step {k n n' r} : al.get? n = some n' → ResolvesIn al k n' r → ResolvesIn al (k + 1) n r

/-- Following aliases from `n` ends at `r`. -/
def Resolves (al : Dict String) (n r : String) : Prop := ∃ k, ResolvesIn al k n r

/-- Some name leads back to itself. -/
def Circular (al : Dict String) : Prop :=
  ∃ n, Relation.TransGen (fun a b => al.get? a = some b) n n

/-- The operations on constants. -/
inductive ConstOp where
  | set (n : String) (v : Rat) (u : String)
  | condensible (x : String)
  | reset

/-- One operation (which may raise). -/
def ConstOp.run (R : Registry) (m : CMem) : ConstOp → CMem
  | .set n v u => (setConstant R m n v u).1
  | .condensible x => setCondensible m x
  | .reset => resetConstants m

/-- The module after a history of operations since import. -/
def afterHistory (R : Registry) (ops : List ConstOp) : CMem := ops.foldl (ConstOp.run R) importConstants

/-- `part` is contained in `s`. -/
def ContainsText (s part : String) : Prop := ∃ pre post, s = pre ++ part ++ post

end Verif
