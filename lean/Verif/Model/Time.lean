import Verif.Py.Dict
/-!
# Dates (`sympl/_core/time.py:1-64`)

The date types of Python and cftime are parameters: `valid` says which fields they accept.
`lower` is `str.lower`; for deciding equality with the ASCII names below, lowering ASCII
letters only is the same (the one other character that lowers to an ASCII letter, the Kelvin
sign, gives a k, which is in none of the names).
-/

namespace Verif

/-- The calendars of the date types. -/
inductive Calendar where
  | prolepticGregorian | allLeap | noLeap | day360 | julian | gregorian
  deriving DecidableEq, Repr

/-- The arguments `year` to `microsecond`. -/
structure DateFields where
  year : Int
  month : Int
  day : Int
  hour : Int := 0
  minute : Int := 0
  second : Int := 0
  microsecond : Int := 0
  deriving DecidableEq

/-- A date: `tz` for a timezone. -/
structure Date where
  calendar : Calendar
  fields : DateFields
  tz : Option String
  deriving DecidableEq

/-- The date types: which fields each accepts, and whether cftime has the types sympl needs
(time.py:3-10). -/
structure DateLib where
  valid : Calendar → DateFields → Bool
  cftime : Bool

/-- Making a date: ValueError for fields out of range. -/
def DateLib.make (lib : DateLib) (c : Calendar) (f : DateFields) (tz : Option String) : Except Err Date :=
  if lib.valid c f then .ok ⟨c, f, tz⟩ else .error .valueError

/-- `datetime` (time.py:13-64); `none` is the value None. -/
def symplDatetime (lib : DateLib) (f : DateFields) (tz : Option String) (calendar : String) : Except Err (Option Date) :=
  if calendar.toLower = "proleptic_gregorian" then lib.make .prolepticGregorian f tz >>= fun d => .ok (some d)
  else if tz ≠ none then .error .valueError
  else if ¬ lib.cftime then .error .dependency
  else if calendar.toLower ∈ ["all_leap", "366_day"] then lib.make .allLeap f none >>= fun d => .ok (some d)
  else if calendar.toLower ∈ ["no_leap", "noleap", "365_day"] then lib.make .noLeap f none >>= fun d => .ok (some d)
  else if calendar.toLower = "360_day" then lib.make .day360 f none >>= fun d => .ok (some d)
  else if calendar.toLower = "julian" then lib.make .julian f none >>= fun d => .ok (some d)
  else if calendar.toLower = "gregorian" then lib.make .gregorian f none >>= fun d => .ok (some d)
  else .ok none

end Verif
