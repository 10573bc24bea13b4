import Verif.Spec.NetCDF
import Mathlib.Data.List.Forall2
/-!
# Faults of what NetCDFMonitor is to write
-/

namespace Verif

/-- numpy can stretch an array of shape `s` to the shape `s'`: after leading axes of length
1 every axis has the same length or length 1. -/
def Stretches (s s' : List Nat) : Prop :=
  ∃ k, List.Forall₂ (fun n m => n = m ∨ n = 1) (List.replicate k 1 ++ s) s'

/-- The quantity `q` is to be written with the array `a` for the time `t`. -/
def ToWrite (stores : List (Int × State)) (t : Int) (q : String) (a : DataArray) : Prop :=
  lastStored stores t q = some (.da a)

/-- The dimension `d` has the length `n` in the file or in an array to be written. -/
def HasLength (f : NCFile) (stores : List (Int × State)) (d : String) (n : Nat) : Prop :=
  f.dims.get? d = some (some n) ∨ ∃ t q a, ToWrite stores t q a ∧ (d, n) ∈ a.dims.zip a.arr.shape

/-- What is wrong with the file and the states to be written, and the exceptions that tell
so.  All faults but the first three are noticed after the times are appended. -/
inductive WriteFault (f : NCFile) (stores : List (Int × State)) : Err → Prop
  /-- nothing is stored -/
  | nothing : stores = [] → WriteFault f stores .valueError
  /-- the quantities differ from those of another state or of the file -/
  | quantities : InconsistentBatch f stores → WriteFault f stores .invalidState
  /-- the file has a dimension `time` of fixed length -/
  | fixedTime {n : Nat} : f.dims.get? "time" = some (some n) → WriteFault f stores .ioError
  /-- a quantity is a time instead of an array -/
  | notArray {t s : Int} {q : String} {e : Err} : lastStored stores t q = some (.time s) →
      e = .attributeError ∨ e = .typeError → WriteFault f stores e
  /-- a quantity is a scalar -/
  | scalar {t : Int} {q : String} {a : DataArray} : ToWrite stores t q a → a.arr.shape = [] →
      WriteFault f stores .indexError
  /-- the arrays of a quantity for two times have different shapes -/
  | shapes {t t' : Int} {q : String} {a b : DataArray} : ToWrite stores t q a → ToWrite stores t' q b →
      ¬ Stretches a.arr.shape b.arr.shape → WriteFault f stores .valueError
  /-- the variable of a quantity has other dims in the file -/
  | dims {t : Int} {q : String} {a : DataArray} {v : NCVar} : ToWrite stores t q a → f.vars.get? q = some v →
      v.dims ≠ "time" :: a.dims → WriteFault f stores .ioError
  /-- the variable of a quantity has another value for one of its attributes in the file -/
  | attrs {t : Int} {q k u : String} {a : DataArray} {v : NCVar} : ToWrite stores t q a →
      f.vars.get? q = some v → (k, u) ∈ a.attrs → v.attrs.get? k ≠ some u → WriteFault f stores .invalidState
  /-- the variable of a quantity has another shape in the file -/
  | fileShape {t : Int} {q : String} {a : DataArray} {v : NCVar} {ns : List Nat} : ToWrite stores t q a →
      f.vars.get? q = some v → v.dims = "time" :: a.dims →
      List.Forall₂ (fun d n => f.dims.get? d = some (some n)) a.dims ns → ¬ Stretches a.arr.shape ns →
      WriteFault f stores .valueError
  /-- a dimension of a quantity that is not in the file has another length there or in
  another array -/
  | lengths {t : Int} {q d : String} {a : DataArray} {n n' : Nat} : ToWrite stores t q a → f.vars.get? q = none →
      (d, n) ∈ a.dims.zip a.arr.shape → HasLength f stores d n' → n ≠ n' → WriteFault f stores .ioError
  /-- an array has a dimension `time` -/
  | timeDim {t : Int} {q : String} {a : DataArray} {e : Err} : ToWrite stores t q a → "time" ∈ a.dims →
      e = .ioError ∨ e = .valueError → WriteFault f stores e

/-- What is wrong with a state to be stored by the monitor `m`, and the exceptions that
tell so. -/
inductive StoreFault (m : NCMon) (s : State) : Err → Prop
  /-- a quantity has an empty name -/
  | emptyName : Selected m.storeNames s "" → StoreFault m s .valueError
  /-- an alias makes the name of a quantity empty -/
  | emptyAlias {pre post : Dict String} {long short n : String} : m.aliases = pre ++ (long, short) :: post →
      Selected m.storeNames s n → ncRename long short (finalName pre n) = "" → StoreFault m s .valueError
  /-- there is no time, or it is not found because of the aliases -/
  | noTime : Dict.get? s "time" = none ∨ finalName m.aliases "time" ≠ "time" ∨
      ¬ NoClash m.aliases (Selected m.storeNames s) → StoreFault m s .keyError
  /-- the time is an array -/
  | timeArray {a : DataArray} {e : Err} : Dict.get? s "time" = some (.da a) → e = .typeError ∨ e = .keyError →
      StoreFault m s e

/-- A fault that is noticed before the file is changed. -/
def NoticedFirst (f : NCFile) (stores : List (Int × State)) : Prop :=
  stores = [] ∨ InconsistentBatch f stores ∨ ∃ n, f.dims.get? "time" = some (some n)

/-- The first records of the file are still there. -/
structure RecordsKept (f f' : NCFile) : Prop where
  ntime : f.ntime ≤ f'.ntime
  times : ∀ i < f.ntime, f'.times i = f.times i
  vars : ∀ q v, f.vars.get? q = some v → ∃ v', f'.vars.get? q = some v' ∧ v'.dims = v.dims ∧ v'.attrs = v.attrs ∧
    ∀ i < f.ntime, v'.rows i = v.rows i

end Verif
