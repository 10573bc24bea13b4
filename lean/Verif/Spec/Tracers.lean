import Verif.Model.Tracers
import Verif.Spec.Arrays
/-!
# Specifications for tracers
-/

namespace Verif

/-- Position in a tracer array with dims `dims` of the value of the `i`-th tracer
at named coordinates `ix`. -/
def tracerIndex (dims wild : List String) (L ix : String → Nat) (i : Nat) : List Nat :=
  dims.map fun d =>
    if d = "tracer" then i else if d = "*" then ravel (wild.map L) (wild.map ix) else ix d

/-- Shape of a tracer array for `n` tracers. -/
def tracerShape (dims wild : List String) (L : String → Nat) (n : Nat) : List Nat :=
  dims.map fun d => if d = "tracer" then n else if d = "*" then size (wild.map L) else L d

/-- Calls that change the tracer globals. -/
inductive TOp where
  | register (name units : String)
  | create (outNames dims : List String) (prepend : List (String × String))
  | resetTracers
  | resetPackers

/-- Effect of one call, and whether it returned normally. -/
def TOp.run (R : Registry) (g : Tracers) : TOp → Tracers × Bool
  | .register n u => ((registerTracer R g n u).1, (registerTracer R g n u).2.toBool)
  | .create o d p => ((createPacker g o d p).1, (createPacker g o d p).2.toBool)
  | .resetTracers => (Verif.resetTracers g, true)
  | .resetPackers => (Verif.resetPackers g, true)

/-- Effect of a history of calls. -/
def runOps (R : Registry) : Tracers → List TOp → Tracers
  | g, [] => g
  | g, op :: ops => runOps R (op.run R g).1 ops

/-- No call of the history raised. -/
def allOk (R : Registry) : Tracers → List TOp → Prop
  | _, [] => True
  | g, op :: ops => (op.run R g).2 = true ∧ allOk R (op.run R g).1 ops

/-- The registrations of a history since the last `reset_tracers`, in order. -/
def registrations : List TOp → List (String × String) → List (String × String)
  | [], acc => acc
  | .register n u :: ops, acc => registrations ops (acc ++ [(n, u)])
  | .resetTracers :: ops, _ => registrations ops []
  | _ :: ops, acc => registrations ops acc

/-- The declared outputs of the components created in a history since the last `reset_packers`. -/
def creations : List TOp → List (List String) → List (List String)
  | [], acc => acc
  | .create o _ _ :: ops, acc => creations ops (acc ++ [o])
  | .resetPackers :: ops, _ => creations ops []
  | _ :: ops, acc => creations ops acc

/-- The units of the latest of some registrations of a name. -/
def latestUnits (n : String) : List (String × String) → Option String
  | [] => none
  | (m, u) :: l => (latestUnits n l).or (if m = n then some u else none)

/-- The units a packer uses for a tracer: those it was prepended with, else the
registered ones. -/
def tracerUnits (g : Tracers) (p : Packer) (n : String) : Option String :=
  (Dict.get? p.prepend n).or (g.units.get? n)

/-- The tracers' own input properties. -/
def tracerReq (g : Tracers) (p : Packer) : PropDict :=
  tracerProps g p.prepend (p.dims.erase "tracer")

end Verif
