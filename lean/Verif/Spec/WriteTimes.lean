import Verif.Spec.NetCDF
/-!
# Specifications for C111: when a NetCDFMonitor is written
-/

namespace Verif

/-- What a program stores, under the names in the file; a store that is rejected stores nothing. -/
def storedBy (order : SetOrder) (m : NCMon) : List NCOp → List (Int × State)
  | [] => []
  | .write :: ops => storedBy order m ops
  | .store s :: ops =>
    match ncPrepare order m s with
    | .ok p => p :: storedBy order m ops
    | .error _ => storedBy order m ops

/-- What is stored after a write, by `write` or because of `write_on_store`, is for later times than
what was stored before it. -/
def WrittenInOrder (order : SetOrder) (m : NCMon) (ops : List NCOp) : Prop :=
  ∀ pre op post, ops = pre ++ op :: post → (op = .write ∨ m.writeOnStore = true) →
    ∀ p ∈ storedBy order m (pre ++ [op]), ∀ p' ∈ storedBy order m post, p.1 < p'.1

/-- For every time, what is stored are the quantities of `D`, with their dims and attributes, and with
the lengths `L` of dimensions. -/
structure SameQuantities (L : String → Nat) (D : String → Option (List String × Dict String))
    (ps : List (Int × State)) : Prop where
  absent : ∀ q, D q = none → ∀ p ∈ ps, lastStored ps p.1 q = none
  present : ∀ q ds u, D q = some (ds, u) → ∀ p ∈ ps, ∃ a, lastStored ps p.1 q = some (.da a) ∧
    a.dims = ds ∧ a.attrs = u ∧ a.arr.shape = ds.map L
  dims : ∀ q ds u, D q = some (ds, u) → ds ≠ [] ∧ "time" ∉ ds ∧ (Dict.keys u).Nodup

/-- `n` is the number of whole units of `us` microseconds from `ref` to `t`, negative if `t` is before
`ref`. -/
def WholeUnits (us : Rat) (ref t n : Int) : Prop :=
  (ref ≤ t → (n : Rat) * us ≤ (t - ref : Int) ∧ ((t - ref : Int) : Rat) < (n + 1) * us) ∧
  (t ≤ ref → ((t - ref : Int) : Rat) ≤ n * us ∧ (n - 1 : Rat) * us < (t - ref : Int))

/-- The file has one record for each time for which something was stored, in order of time, with the
value stored last for every quantity; times are counted from the first time (dates) or from zero
(timedeltas). -/
structure RecordsOf (us : Rat) (deltas : Bool) (ps : List (Int × State)) (f : NCFile) (ts : List Int) : Prop where
  increasing : ts.Pairwise (· < ·)
  times : ∀ t, t ∈ ts ↔ ∃ p ∈ ps, p.1 = t
  ntime : f.ntime = ts.length
  timeVar : f.timeVar = some (us, if deltas then 0 else ts.headD 0)
  numbers : ∀ (j : Nat) t, ts[j]? = some t →
    ∃ n, f.times j = some n ∧ WholeUnits us (if deltas then 0 else ts.headD 0) t n
  complete : ∀ t ∈ ts, ∀ q, q ∈ Dict.keys f.vars ↔ (lastStored ps t q).isSome
  values : ∀ (j : Nat) t q a, ts[j]? = some t → lastStored ps t q = some (.da a) →
    ∃ v, f.vars.get? q = some v ∧ v.dims = "time" :: a.dims ∧ v.attrs = a.attrs ∧ v.rows j = some a.arr

/-- Two files with the same records: the same times, and the same variables with the same dims,
attributes and values. -/
structure SameRecords (f g : NCFile) : Prop where
  ntime : f.ntime = g.ntime
  timeVar : f.timeVar = g.timeVar
  times : ∀ i < f.ntime, f.times i = g.times i
  names : ∀ q, q ∈ Dict.keys f.vars ↔ q ∈ Dict.keys g.vars
  vars : ∀ q v w, f.vars.get? q = some v → g.vars.get? q = some w →
    v.dims = w.dims ∧ v.attrs = w.attrs ∧ ∀ i < f.ntime, v.rows i = w.rows i

end Verif
