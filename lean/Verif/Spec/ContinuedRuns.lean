import Verif.Spec.ComponentOrder
import Verif.Spec.Restart
/-!
# Specification of C106: runs continued from a restart file
-/

namespace Verif

/-- The state is that after one of the first `n` steps of a run (or the one it started from). -/
def StateWithin {τ σ : Type} (run : Nat → Option (τ × σ × State)) (n : Nat) (s : State) : Prop :=
  ∃ k x w, k ≤ n ∧ run k = some (x, w, s)

/-- Dates, not timedeltas: no file has timedeltas. -/
def OnlyDates (d : Disk) : Prop := ∀ n g, d n ≠ some (.whole true g)

/-- Everything stored are states of the run with dates that `RestartMonitor` can store and load. -/
def StoresOfRun {τ σ : Type} (run : Nat → Option (τ × σ × State)) (n : Nat) (evs : List REvent) : Prop :=
  ∀ deltas s stop, .store deltas s stop ∈ evs → deltas = false ∧ RestartOk s ∧ Loadable s ∧ StateWithin run n s

/-- What a user loads: `<f>` or, if it is missing, `<f>.old` moved to `<f>`. -/
def Disk.toLoad (d : Disk) : Disk := if d.isFile .main then d else d.rename .old .main

end Verif
