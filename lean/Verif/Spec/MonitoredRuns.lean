import Verif.Model.MonitoredRuns
import Verif.Spec.Monitors
/-!
# Specifications for runs with a NetCDFMonitor
-/

namespace Verif

/-- One operation if `store` keeps the values that the state has at the call. -/
def MOp.runValues {τ σ : Type} (order : SetOrder) (call : HStepper τ σ) (dt : Int) (w : Drive τ σ × NCMon) :
    MOp → (Drive τ σ × NCMon) × Except Err Unit
  | .step => (((w.1.advance call dt).1, w.2), (w.1.advance call dt).2)
  | .storeState =>
    ((w.1, (ncStore order w.2 (w.1.state.read w.1.mem.ext)).1), (ncStore order w.2 (w.1.state.read w.1.mem.ext)).2)
  | .storeLast =>
    match w.1.last with
    | none => (w, .ok ())
    | some s => ((w.1, (ncStore order w.2 (s.read w.1.mem.ext)).1), (ncStore order w.2 (s.read w.1.mem.ext)).2)
  | .write => ((w.1, (ncWrite w.2).1), (ncWrite w.2).2)

/-- The same program if `store` keeps values. -/
def runByValue {τ σ : Type} (order : SetOrder) (call : HStepper τ σ) (dt : Int) :
    List MOp → Drive τ σ × NCMon → (Drive τ σ × NCMon) × List (Except Err Unit)
  | [], w => (w, [])
  | op :: ops, w =>
    ((runByValue order call dt ops (op.runValues order call dt w).1).1,
      (op.runValues order call dt w).2 :: (runByValue order call dt ops (op.runValues order call dt w).1).2)

/-- A component that changes no array that exists, and returns diagnostics that exist. -/
def Considerate {σ : Type} (f : RComp σ) : Prop :=
  ∀ state dt w, w.1.2 ≤ (f state dt w).1.1.2 ∧ (∀ l, l < w.1.2 → (f state dt w).1.2 l = w.2 l) ∧
    ∀ r, (f state dt w).2 = .ok r → ∀ kv ∈ r.2, kv.2 < (f state dt w).1.1.2

/-- The arrays of a state exist. -/
def RState.Exists {σ : Type} (s : RState) (m : SMem σ) : Prop := ∀ q l, (q, RVal.ref l) ∈ s → l < m.world.2

/-- All arrays of a program, among them those waiting to be written, exist. -/
structure Drive.Sound {τ σ : Type} (d : Drive τ σ) (mon : HNCMon) : Prop where
  state : d.state.Exists d.mem
  last : ∀ s, d.last = some s → s.Exists d.mem
  waiting : ∀ l, mon.Waiting l → l < d.mem.world.2

/-- No state is stored between a step that made it and the step that starts from it. -/
def StoredAfterwards (ops : List MOp) : Prop :=
  ∀ pre post, ops = pre ++ MOp.storeState :: post → MOp.step ∉ pre

end Verif
