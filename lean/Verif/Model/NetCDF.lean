import Verif.Model.DataArray
import Verif.Model.Combine
import Verif.Model.Util
/-!
# NetCDFMonitor (`sympl/_components/netcdf.py`)

A NetCDF file is modelled by its dimensions, the time variable and the other variables;
a variable has one row (an array, or the fill value) per index of the unlimited
dimension `time`.

Simplifications: one kind of time (timedelta or datetime) per monitor, as a number of
microseconds; `time_units` is a number of microseconds; values are exact numbers without
dtype (so no truncation to the type of the first state, except for the time, which is
stored as an integer); `time` is the only unlimited dimension; cached arrays are values,
not references; the calendar is always proleptic Gregorian; netCDF4 broadcasts like numpy.
-/

namespace Verif

/-! ## Text -/

/-- `pat in s` -/
def occursIn (pat : List Char) : List Char → Bool
  | [] => pat.isPrefixOf []
  | c :: cs => pat.isPrefixOf (c :: cs) || occursIn pat cs

/-- `s.replace(pat, new)` for a non-empty `pat`; the number counts the characters of a
match that are still to be skipped. -/
def replaceChars (pat new : List Char) : Nat → List Char → List Char
  | _, [] => []
  | n + 1, _ :: cs => replaceChars pat new n cs
  | 0, c :: cs =>
    if pat.isPrefixOf (c :: cs) then new ++ replaceChars pat new (pat.length - 1) cs
    else c :: replaceChars pat new 0 cs

/-- Python `s.replace(pat, new)`; an empty `pat` matches before every character and at
the end. -/
def pyReplace (s pat new : String) : String :=
  if pat.toList = [] then
    String.ofList (s.toList.flatMap (fun c => new.toList ++ [c]) ++ new.toList)
  else String.ofList (replaceChars pat.toList new.toList 0 s.toList)

/-- Python `pat in s` -/
def pyIn (pat s : String) : Bool := occursIn pat.toList s.toList

/-! ## Files -/

/-- A variable with first dimension `time`; the shape of its rows is that of its other
dimensions. -/
structure NCVar where
  dims : List String
  attrs : Dict String
  rows : Nat → Option NDArray

/-- A file; `timeVar` has the microseconds per unit and the reference time (0 for
timedeltas) of its attribute `units`. -/
structure NCFile where
  ntime : Nat
  dims : Dict (Option Nat)
  timeVar : Option (Rat × Int)
  times : Nat → Option Int
  vars : Dict NCVar

/-- `nc4.Dataset(filename, 'w')` -/
def NCFile.empty : NCFile := ⟨0, [], none, fun _ => none, []⟩

/-- A cached state under its time. -/
abbrev NCCache := List (Int × State)

/-- A NetCDFMonitor (netcdf.py:50-66) with its file on disk. -/
structure NCMon where
  file : Option NCFile
  cache : NCCache
  usPerUnit : Rat
  deltas : Bool
  storeNames : Option (List String)
  writeOnStore : Bool
  aliases : Dict String

/-! ## store -/

/-- `cache_state` (netcdf.py:84-88); the order of a set is arbitrary. -/
def ncSelect {α : Type} (order : SetOrder) (names : Option (List String)) (state : Dict α) : Dict α :=
  match names with
  | none => state
  | some l => (order.f ((Dict.keys state).filter (· ∈ "time" :: l))).filterMap fun n =>
      (Dict.get? state n).map fun v => (n, v)

/-- The name of a variable after one alias (netcdf.py:102-103). -/
def ncRename (long short name : String) : String :=
  if pyIn long name then pyReplace name long short else name

/-- Inner loop over the variable names (netcdf.py:97-108). -/
def ncAliasPass {α : Type} (long short : String) : List String → Dict α → Except Err (Dict α)
  | [], cs => .ok cs
  | name :: rest, cs =>
    if pyIn long name then
      if pyReplace name long short = "" then .error .valueError
      else
        match Dict.get? cs name with
        | none => .error .keyError
        | some v => ncAliasPass long short rest (Dict.set (Dict.erase cs name) (pyReplace name long short) v)
    else ncAliasPass long short rest cs

/-- Loop over the aliases (netcdf.py:96-108). -/
def ncAliases {α : Type} : Dict String → Dict α → Except Err (Dict α)
  | [], cs => .ok cs
  | (long, short) :: rest, cs => ncAliasPass long short (Dict.keys cs) cs >>= ncAliases rest

/-- What is cached of a state (netcdf.py:84-111), and its time. -/
def ncPrepare (order : SetOrder) (m : NCMon) (state : State) : Except Err (Int × State) :=
  let cs := ncSelect order m.storeNames state
  if "" ∈ Dict.keys cs then .error .valueError
  else ncAliases m.aliases cs >>= fun cs =>
    match Dict.get? cs "time" with
    | none => .error .keyError
    | some _ => State.time state >>= fun t => .ok (t, Dict.erase cs "time")

/-- `self._cached_state_dict` after a store (netcdf.py:111-114). -/
def ncCacheAdd : NCCache → Int → State → NCCache
  | [], t, s => [(t, s)]
  | (t', s') :: rest, t, s =>
    if t' = t then (t', Dict.update s' s) :: rest else (t', s') :: ncCacheAdd rest t s

/-! ## write -/

/-- `_ensure_cached_states_have_same_keys` (netcdf.py:134-157) -/
def ncSameKeys (cache : NCCache) (desired : Option (List String)) : Except Err Unit :=
  match cache with
  | [] => .ok ()
  | (t, s) :: rest =>
    let reference := desired.getD (Dict.keys s)
    if ((t, s) :: rest).all (fun ts => sameList (Dict.keys ts.2) reference) then .ok () else .error .invalidState

/-- `_ensure_cached_state_keys_compatible_with_dataset` (netcdf.py:125-132) -/
def ncCheckKeys (cache : NCCache) (f : NCFile) : Except Err Unit :=
  ncSameKeys cache (if (Dict.keys f.vars).length > 0 then some (Dict.keys f.vars) else none)

/-- Insert into a list sorted by time, after equal times. -/
def ncInsert (x : Int × State) : NCCache → NCCache
  | [] => [x]
  | y :: l => if x.1 < y.1 then x :: y :: l else y :: ncInsert x l

/-- `sorted(self._cached_state_dict.items(), key=lambda x: x[0])` (netcdf.py:161) -/
def ncSort : NCCache → NCCache
  | [] => []
  | x :: l => ncInsert x (ncSort l)

/-- `ensure_dimension_exists` (netcdf.py:345-358); no length means unlimited. -/
def ensureDim (f : NCFile) (name : String) (len : Option Nat) : NCFile × Except Err Unit :=
  match f.dims.get? name with
  | none => ({ f with dims := f.dims.set name len }, .ok ())
  | some have' =>
    match len, have' with
    | none, none => (f, .ok ())
    | none, some _ => (f, .error .ioError)
    | some n, some m => (f, if n = m then .ok () else .error .ioError)
    | some n, none => (f, if n = f.ntime then .ok () else .error .ioError)

/-- `_ensure_time_exists` (netcdf.py:188-202) -/
def ensureTime (usPerUnit : Rat) (deltas : Bool) (f : NCFile) (first : Int) : NCFile × Except Err Unit :=
  match ensureDim f "time" none with
  | (f, .error e) => (f, .error e)
  | (f, .ok ()) =>
    match f.timeVar with
    | some _ => (f, .ok ())
    | none => ({ f with timeVar := some (usPerUnit, if deltas then 0 else first) }, .ok ())

/-- Conversion to an integer drops the fraction. -/
def truncRat (q : Rat) : Int := q.num.tdiv q.den

/-- The number stored for a time: for timedeltas in the units of the monitor, for
datetimes in the units of the file (netcdf.py:262-273). -/
def fileTime (usPerUnit : Rat) (deltas : Bool) (timeVar : Option (Rat × Int)) (t : Int) : Int :=
  if deltas then truncRat (t / usPerUnit)
  else match timeVar with
    | some (us, ref) => truncRat ((t - ref : Int) / us)
    | none => 0

/-- `append_times_to_dataset` (netcdf.py:257-273) -/
def appendTimes (usPerUnit : Rat) (deltas : Bool) (f : NCFile) (ts : List Int) : NCFile :=
  { f with
    ntime := f.ntime + ts.length
    times := fun i => if f.ntime ≤ i ∧ i < f.ntime + ts.length then
        (ts[i - f.ntime]?).map (fileTime usPerUnit deltas f.timeVar)
      else f.times i }

/-- One entry of the result of `combine_states`: a DataArray with the first dimension
`time`. -/
structure NCStack where
  dims : List String
  shape : List Nat
  attrs : Dict String
  rows : List NDArray

/-- Assignment of an array to an array of the given shape: numpy broadcasting. -/
def assignTo (v : NDArray) (shape : List Nat) : Except Err NDArray :=
  if v.shape = shape then .ok v
  else if shape.length < v.shape.length then .error .valueError
  else
    let k := shape.length - v.shape.length
    NDArray.broadcastTo ⟨List.replicate k 1 ++ v.shape, fun idx => v.get (idx.drop k)⟩ shape

/-- `return_dict` before the rows are filled (netcdf.py:283-286). -/
def stackHeader (first : State) : Except Err (Dict DataArray) :=
  first.mapM fun nv =>
    match nv.2 with
    | .da a => .ok (nv.1, a)
    | .time _ => .error .attributeError

/-- `return_dict[name][i, :] = state[name][:]` (netcdf.py:289): the row.  The arrays are
assigned by position; dims and attributes of the state are not used.  This is what xarray
does in the versions of the time of the code (the setup asks for 0.9.3 or later); later
versions match the dims by name, which is the same if the dims of a quantity do not change
between states (the case of `RegularBatch`). -/
def stackRow (header : Dict DataArray) (nv : String × Val) : Except Err (String × NDArray) :=
  match nv.2 with
  | .time _ => .error .typeError
  | .da a =>
    if a.arr.shape.length = 0 then .error .indexError
    else header.get nv.1 >>= fun h =>
      if h.arr.shape.length = 0 then .error .indexError
      else assignTo a.arr h.arr.shape >>= fun r => .ok (nv.1, r)

/-- `combine_states` (netcdf.py:276-290) -/
def combineStates (states : List State) : Except Err (Dict NCStack) :=
  match states with
  | [] => .error .indexError
  | first :: rest =>
    stackHeader first >>= fun header =>
    (first :: rest).mapM (fun s => s.mapM (stackRow header)) >>= fun rows =>
    .ok (header.map fun nh => (nh.1,
      { dims := nh.2.dims, shape := nh.2.arr.shape, attrs := nh.2.attrs,
        rows := rows.map fun r => (Dict.get? r nh.1).getD (NDArray.zeros nh.2.arr.shape) }))

/-- The loop over the dimensions in `create_variable` (netcdf.py:308-318), after the
first one. -/
def ensureDims : NCFile → List (String × Nat) → NCFile × Except Err Unit
  | f, [] => (f, .ok ())
  | f, (d, n) :: rest =>
    match ensureDim f d (some n) with
    | (f, .error e) => (f, .error e)
    | (f, .ok ()) => ensureDims f rest

/-- `ensure_variable_is_compatible` (netcdf.py:327-342) for the attributes. -/
def attrsCompatible (have' : Dict String) (attrs : Dict String) : Except Err Unit :=
  if attrs.all (fun kv => have'.get? kv.1 == some kv.2) then .ok () else .error .invalidState

/-- `ensure_variable_exists` (netcdf.py:293-303) with `create_variable`
(netcdf.py:306-324) and `ensure_variable_is_compatible` (netcdf.py:327-342). -/
def ensureVar (f : NCFile) (name : String) (s : NCStack) : NCFile × Except Err Unit :=
  match f.vars.get? name with
  | some v =>
    (f, if v.dims = "time" :: s.dims then attrsCompatible v.attrs s.attrs else .error .ioError)
  | none =>
    match ensureDim f "time" none with
    | (f, .error e) => (f, .error e)
    | (f, .ok ()) =>
      match ensureDims f (s.dims.zip s.shape) with
      | (f, .error e) => (f, .error e)
      | (f, .ok ()) => ({ f with vars := f.vars.set name ⟨"time" :: s.dims, s.attrs, fun _ => none⟩ }, .ok ())

/-- Lengths in the file of the dimensions of a variable after `time`. -/
def rowShape (f : NCFile) (dims : List String) : List Nat :=
  dims.map fun d => ((f.dims.get? d).getD none).getD f.ntime

/-- `dataset.variables[name][it_start:it_end, :] = value.values[:, :]`
(netcdf.py:184-185) -/
def writeRows (f : NCFile) (start : Nat) (name : String) (s : NCStack) : NCFile × Except Err Unit :=
  match f.vars.get? name with
  | none => (f, .error .keyError)
  | some v =>
    match s.rows.mapM (fun r => assignTo r (rowShape f v.dims.tail)) with
    | .error e => (f, .error e)
    | .ok rows =>
      ({ f with vars := f.vars.set name { v with rows := fun i =>
          if start ≤ i ∧ i < start + rows.length then rows[i - start]? else v.rows i } }, .ok ())

/-- The loop over the quantities in `write` (netcdf.py:182-185). -/
def writeVars (start : Nat) : Dict NCStack → NCFile → NCFile × Except Err Unit
  | [], f => (f, .ok ())
  | (name, s) :: rest, f =>
    match ensureVar f name s with
    | (f, .error e) => (f, .error e)
    | (f, .ok ()) =>
      match writeRows f start name s with
      | (f, .error e) => (f, .error e)
      | (f, .ok ()) => writeVars start rest f

/-- The part of `write` that changes the file (netcdf.py:174-185): the file is left as
it is at an exception. -/
def ncWriteFile (usPerUnit : Rat) (deltas : Bool) (cache : NCCache) (f : NCFile) : NCFile × Except Err Unit :=
  match ncCheckKeys cache f with
  | .error e => (f, .error e)
  | .ok () =>
    match ncSort cache with
    | [] => (f, .error .valueError)
    | (t, s) :: rest =>
      match ensureTime usPerUnit deltas f t with
      | (f, .error e) => (f, .error e)
      | (f, .ok ()) =>
        let start := f.ntime
        let f := appendTimes usPerUnit deltas f (((t, s) :: rest).map (·.1))
        match combineStates (((t, s) :: rest).map (·.2)) with
        | .error e => (f, .error e)
        | .ok stacks => writeVars start stacks f

/-- `write` (netcdf.py:163-186) -/
def ncWrite (m : NCMon) : NCMon × Except Err Unit :=
  match ncWriteFile m.usPerUnit m.deltas m.cache (m.file.getD NCFile.empty) with
  | (f, .error e) => ({ m with file := some f }, .error e)
  | (f, .ok ()) => ({ m with file := some f, cache := [] }, .ok ())

/-- `store` (netcdf.py:68-116) -/
def ncStore (order : SetOrder) (m : NCMon) (state : State) : NCMon × Except Err Unit :=
  match ncPrepare order m state with
  | .error e => (m, .error e)
  | .ok (t, cs) =>
    let m := { m with cache := ncCacheAdd m.cache t cs }
    if m.writeOnStore then ncWrite m else (m, .ok ())

end Verif
