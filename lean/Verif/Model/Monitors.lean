import Verif.Model.NetCDF
/-!
# Monitors with array identity (`sympl/_components/netcdf.py`, `plot.py`)

`Model/NetCDF` treats cached arrays as values.  Here the arrays of a state are objects
that the caller may change in place after `store`.

Simplification: a DataArray and its data are one object.
-/

namespace Verif

/-- The arrays of the program. -/
abbrev Arrays := Nat → DataArray

/-- An entry of a state dictionary: a reference to an array, or the model time. -/
inductive HVal where
  | ref (l : Nat)
  | time (t : Int)
  deriving DecidableEq

abbrev HState := Dict HVal

/-- The value an entry has now. -/
def HVal.read (mem : Arrays) : HVal → Val
  | .ref l => .da (mem l)
  | .time t => .time t

/-- The values a state has now. -/
def HState.read (mem : Arrays) (s : HState) : State := Dict.mapVal (HVal.read mem) s

/-- `state['time']` -/
def HState.time (s : HState) : Except Err Int :=
  match Dict.get? s "time" with
  | some (.time t) => .ok t
  | some (.ref _) => .error .typeError
  | none => .error .keyError

/-- A NetCDFMonitor (netcdf.py:50-66): the cache has references. -/
structure HNCMon where
  file : Option NCFile
  cache : List (Int × HState)
  usPerUnit : Rat
  deltas : Bool
  storeNames : Option (List String)
  writeOnStore : Bool
  aliases : Dict String

/-- The monitor with the values that the cached arrays have now. -/
def HNCMon.read (mem : Arrays) (m : HNCMon) : NCMon where
  file := m.file
  cache := m.cache.map fun ts => (ts.1, HState.read mem ts.2)
  usPerUnit := m.usPerUnit
  deltas := m.deltas
  storeNames := m.storeNames
  writeOnStore := m.writeOnStore
  aliases := m.aliases

/-- What is cached of a state (netcdf.py:84-111): `state.copy()` and the dict
comprehension copy references. -/
def ncPrepareH (order : SetOrder) (m : HNCMon) (state : HState) : Except Err (Int × HState) :=
  let cs := ncSelect order m.storeNames state
  if "" ∈ Dict.keys cs then .error .valueError
  else ncAliases m.aliases cs >>= fun cs =>
    match Dict.get? cs "time" with
    | none => .error .keyError
    | some _ => HState.time state >>= fun t => .ok (t, Dict.erase cs "time")

/-- `self._cached_state_dict` after a store (netcdf.py:111-114). -/
def ncCacheAddH : List (Int × HState) → Int → HState → List (Int × HState)
  | [], t, s => [(t, s)]
  | (t', s') :: rest, t, s =>
    if t' = t then (t', Dict.update s' s) :: rest else (t', s') :: ncCacheAddH rest t s

/-- `write` (netcdf.py:163-186) reads the cached arrays as they are now, and changes no
array. -/
def ncWriteH (mem : Arrays) (m : HNCMon) : HNCMon × Except Err Unit :=
  match ncWriteFile m.usPerUnit m.deltas (m.cache.map fun ts => (ts.1, HState.read mem ts.2))
      (m.file.getD NCFile.empty) with
  | (f, .error e) => ({ m with file := some f }, .error e)
  | (f, .ok ()) => ({ m with file := some f, cache := [] }, .ok ())

/-- `store` (netcdf.py:68-116) -/
def ncStoreH (order : SetOrder) (mem : Arrays) (m : HNCMon) (state : HState) : HNCMon × Except Err Unit :=
  match ncPrepareH order m state with
  | .error e => (m, .error e)
  | .ok (t, cs) =>
    let m := { m with cache := ncCacheAddH m.cache t cs }
    if m.writeOnStore then ncWriteH mem m else (m, .ok ())

/-! ## PlotFunctionMonitor -/

/-- An entry of a state: a DataArray, or another object (a time, a numpy array). -/
inductive PVal where
  | array (l : Nat)
  | other (l : Nat)
  deriving DecidableEq

/-- Memory: DataArrays, those from `next` on not yet allocated, and other objects. -/
structure PMem (ω : Type) where
  arrays : Arrays
  next : Nat
  others : Nat → ω

/-- `quantity.copy(deep=True)` -/
def PMem.copy {ω : Type} (m : PMem ω) (l : Nat) : PMem ω × Nat :=
  ({ m with arrays := fun k => if k = m.next then m.arrays l else m.arrays k, next := m.next + 1 }, m.next)

/-- `copy_state` (plot.py:6-13) -/
def copyState {ω : Type} : Dict PVal → PMem ω → PMem ω × Dict PVal
  | [], m => (m, [])
  | (name, .array l) :: rest, m =>
    ((copyState rest (m.copy l).1).1, (name, .array (m.copy l).2) :: (copyState rest (m.copy l).1).2)
  | (name, .other l) :: rest, m => ((copyState rest m).1, (name, .other l) :: (copyState rest m).2)

/-- `PlotFunctionMonitor.store` (plot.py:53-72), without the figure: the plot function
gets a copy of the state. -/
def plotStore {ω : Type} (F : PMem ω → Dict PVal → PMem ω × Except Err Unit) (m : PMem ω) (state : Dict PVal) :
    PMem ω × Except Err Unit :=
  F (copyState state m).1 (copyState state m).2

end Verif
