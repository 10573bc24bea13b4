import Verif.Model.Restart
import Verif.Spec.NetCDF
/-!
# Specifications for RestartMonitor
-/

namespace Verif

/-- The file is a complete copy of the state: one record with every quantity, its dims and
attributes, and the time (for a date exact, for a timedelta to a second). -/
structure CopyOf (deltas : Bool) (g : NCFile) (s : State) : Prop where
  ntime : g.ntime = 1
  names : ∀ q, q ∈ Dict.keys g.vars ↔ q ∈ Dict.keys s ∧ q ≠ "time"
  nodup : (Dict.keys g.vars).Nodup
  vals : ∀ q v, Dict.get? s q = some v → q ≠ "time" → ∃ a w, v = .da a ∧ g.vars.get? q = some w ∧
    w.dims = "time" :: a.dims ∧ w.attrs = a.attrs ∧ w.rows 0 = some a.arr
  time : ∃ t n, Dict.get? s "time" = some (.time t) ∧ g.times 0 = some n ∧
    g.timeVar = some (1000000, if deltas then 0 else t) ∧ TimeNumber 1000000 (if deltas then 0 else t) t n

/-- A file that is a complete copy of the state. -/
def RFile.CopyOf (x : RFile) (s : State) : Prop := ∃ deltas g, x = .whole deltas g ∧ Verif.CopyOf deltas g s

/-- Events in the life of the files: a store, in which the process stops after `stop`
operations (and is started again), or not; and what a user does by hand. -/
inductive REvent where
  | store (deltas : Bool) (state : State) (stop : Option Nat)
  | removeNew
  | restoreOld

/-- The disk and the states given to `store` so far with whether it returned. -/
structure RHist where
  disk : Disk
  stored : List (State × Bool)

def REvent.run (order : SetOrder) (h : RHist) : REvent → RHist
  | .store deltas s none =>
    ⟨lastDisk h.disk (restartStore order deltas h.disk s).1, h.stored ++ [(s, (restartStore order deltas h.disk s).2.isOk)]⟩
  | .store deltas s (some k) =>
    ⟨lastDisk h.disk ((restartStore order deltas h.disk s).1.take k), h.stored ++ [(s, false)]⟩
  | .removeNew => { h with disk := h.disk.remove .new }
  | .restoreOld => if h.disk.isFile .old ∧ ¬ h.disk.isFile .main then { h with disk := h.disk.rename .old .main } else h

/-- After any history, starting with the given files. -/
def restartAfter (order : SetOrder) (d : Disk) (evs : List REvent) : RHist := evs.foldl (REvent.run order) ⟨d, []⟩

/-- The state has one array per name with one dim per axis, none of them named time. -/
def RestartOk (s : State) : Prop :=
  (Dict.keys s).Nodup ∧ ∀ n a, Dict.get? s n = some (.da a) → a.dims.length = a.arr.shape.length ∧ "time" ∉ a.dims

/-- A state that can be stored: it has a time, no empty name, no scalar, and its
dimensions have one length each. -/
structure Storable (s : State) : Prop where
  ok : RestartOk s
  time : ∃ t, Dict.get? s "time" = some (.time t)
  name : "" ∉ Dict.keys s
  arrays : ∃ L : String → Nat, ∀ q v, Dict.get? s q = some v → q ≠ "time" →
    ∃ a, v = .da a ∧ a.arr.shape ≠ [] ∧ a.arr.shape = a.dims.map L

/-- A state that is loaded as it was stored: the time is a date in the range of 64 bit
nanoseconds, no quantity has the name of a dimension, and none has one of the units of time
that are decoded. -/
structure Loadable (s : State) : Prop where
  range : ∀ t, Dict.get? s "time" = some (.time t) → t.natAbs ≤ 9223372036854775
  names : ∀ q q' a, q ∈ Dict.keys s → q ≠ "time" → Dict.get? s q' = some (.da a) → q ∉ a.dims
  units : ∀ q a u, Dict.get? s q = some (.da a) → Dict.get? a.attrs "units" = some u →
    u ∉ ["days", "hours", "minutes", "seconds", "milliseconds", "microseconds", "nanoseconds"]

/-- How many nanoseconds one of the units of time is that xarray decodes. -/
def nanoseconds : String → Option Rat
  | "nanoseconds" => some 1
  | "microseconds" => some 1000
  | "milliseconds" => some (1000 * 1000)
  | "seconds" => some (1000 * 1000 * 1000)
  | "minutes" => some (60 * (1000 * 1000 * 1000))
  | "hours" => some (60 * 60 * (1000 * 1000 * 1000))
  | "days" => some (24 * 60 * 60 * (1000 * 1000 * 1000))
  | _ => none

/-- `b` is what xarray decodes `a` to: the same, except that durations become numbers of
nanoseconds without units. -/
def DecodedAs (a b : DataArray) : Prop :=
  match (Dict.get? a.attrs "units").bind nanoseconds with
  | none => b = a
  | some k => b.dims = a.dims ∧ b.arr.shape = a.arr.shape ∧ (∀ i, b.arr.get i = k * a.arr.get i) ∧
      (∀ n, n ≠ "units" → Dict.get? b.attrs n = Dict.get? a.attrs n) ∧
      ((Dict.keys a.attrs).Nodup → Dict.get? b.attrs "units" = none)

end Verif
