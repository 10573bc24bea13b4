import Verif.Model.NetCDF
/-!
# RestartMonitor (`sympl/_components/netcdf.py:205-254`)

The three files `<f>`, `<f>.new` and `<f>.old` are modelled with what a process that is
killed leaves behind: a file being written, or one that is completely written and closed.
`store` is a sequence of file operations; the process may stop after any of them.

Assumptions: the operating system completes or does not start a rename (POSIX, which
also replaces an existing target) and a removal; the process stops, not the machine;
nobody else uses the three files; `isfile` is true for every existing file.

`load` is modelled with xarray's decoding: a variable named like a dimension is a
coordinate (and an error if it has this dimension and another one), units of time are
decoded to nanoseconds, and dates outside of the range of 64 bit nanoseconds are not
decoded.  Coordinates, dtypes and the attribute `coordinates` are not modelled.
-/

namespace Verif

/-- A file: not completely written, or as closed after `write` (with timedelta or datetime
times). -/
inductive RFile where
  | broken
  | whole (deltas : Bool) (content : NCFile)

/-- The names `<f>`, `<f>.new` and `<f>.old`. -/
inductive RName where
  | main
  | new
  | old
  deriving DecidableEq

/-- The three files. -/
abbrev Disk := RName → Option RFile

/-- A file is created or replaced. -/
def Disk.put (d : Disk) (n : RName) (x : Option RFile) : Disk := fun k => if k = n then x else d k

/-- `os.path.isfile` -/
def Disk.isFile (d : Disk) (n : RName) : Bool := (d n).isSome

/-- `os.rename` -/
def Disk.rename (d : Disk) (a b : RName) : Disk := (d.put b (d a)).put a none

/-- `os.remove` -/
def Disk.remove (d : Disk) (n : RName) : Disk := d.put n none

/-- `NetCDFMonitor(new_filename)` for a file that does not exist (netcdf.py:233): time in
seconds. -/
def restartMon (deltas : Bool) : NCMon := ⟨none, [], 1000000, deltas, none, false, []⟩

/-- `if os.path.isfile(self._filename): os.rename(...)` (netcdf.py:237-238): the disk after
every operation. -/
def moveAside (d : Disk) : List Disk := if d.isFile .main then [d.rename .main .old] else []

/-- `if os.path.isfile(self._filename + '.old'): os.remove(...)` (netcdf.py:240-241) -/
def removeOld (d : Disk) : List Disk := if d.isFile .old then [d.remove .old] else []

/-- The disk after the last of some operations. -/
def lastDisk (d : Disk) (ds : List Disk) : Disk := ds.getLastD d

/-- The operations after the new file is written (netcdf.py:237-241). -/
def swapFiles (d : Disk) : List Disk :=
  let a := moveAside d
  let d1 := (lastDisk d a).rename .new .main
  a ++ [d1] ++ removeOld d1

/-- `RestartMonitor.store` (netcdf.py:218-241): the disk after each of its operations on
files, and whether it raises. -/
def restartStore (order : SetOrder) (deltas : Bool) (d : Disk) (state : State) : List Disk × Except Err Unit :=
  if d.isFile .new then ([], .error .ioError)
  else
    match ncStore order (restartMon deltas) state with
    | (_, .error e) => ([], .error e)
    | (m, .ok ()) =>
      let d1 := d.put .new (some .broken)
      match ncWrite m with
      | (_, .error e) => ([d1], .error e)
      | (m, .ok ()) =>
        let d2 := d.put .new (some (.whole deltas (m.file.getD NCFile.empty)))
        ([d1, d2] ++ swapFiles d2, .ok ())

/-! ## load -/

/-- Units that xarray decodes as timedelta64, in nanoseconds. -/
def timeUnits : Dict Rat :=
  [("days", 86400000000000), ("hours", 3600000000000), ("minutes", 60000000000), ("seconds", 1000000000),
   ("milliseconds", 1000000), ("microseconds", 1000), ("nanoseconds", 1)]

/-- `DataArray(value[0, :])` (netcdf.py:252) for a decoded variable; a missing row is not
represented. -/
def loadVar (g : NCFile) (v : NCVar) : DataArray :=
  let a := (v.rows 0).getD (NDArray.zeros (rowShape g v.dims.tail))
  match (v.attrs.get? "units").bind timeUnits.get? with
  | none => ⟨v.dims.tail, a, v.attrs⟩
  | some ns => ⟨v.dims.tail, ⟨a.shape, fun i => a.get i * ns⟩, v.attrs.erase "units"⟩

/-- `datetime64_to_datetime(dataset['time'][0].values)` (netcdf.py:253, util.py:183-185):
microseconds since 1970; timedelta64 and undecoded dates raise TypeError. -/
def loadTime (deltas : Bool) (g : NCFile) : Except Err Int :=
  if deltas then .error .typeError
  else
    match g.timeVar, g.times 0 with
    | some (us, ref), some n =>
      let t := ref + truncRat (n * us)
      if t.natAbs ≤ 9223372036854775 then .ok t else .error .typeError
    | _, _ => .error .indexError

/-- The names of dimensions of variables in a file. -/
def usedDims (g : NCFile) : List String := g.vars.flatMap (·.2.dims)

/-- `RestartMonitor.load` (netcdf.py:243-254) -/
def restartLoad (d : Disk) : Except Err State :=
  match d .main with
  | none => .error .ioError
  | some .broken => .error .ioError
  | some (.whole deltas g) =>
    if g.vars.any (fun nv => nv.1 ∈ nv.2.dims) then .error .valueError
    else
      loadTime deltas g >>= fun t =>
      .ok (Dict.set ((g.vars.filter (fun nv => nv.1 ∉ usedDims g)).map fun nv => (nv.1, Val.da (loadVar g nv.2)))
        "time" (.time t))

end Verif
