import Verif.Model.NetCDF
/-!
# Specifications for NetCDFMonitor
-/

namespace Verif

/-- `t` is `s` with every occurrence of `pat`, from the left and without overlap,
replaced by `new`. -/
inductive Replaced (pat new : List Char) : List Char → List Char → Prop
  | none {s} : (¬ ∃ p q, s = p ++ pat ++ q) → Replaced pat new s s
  | first {pre rest t} : (∀ p q, pre ++ pat ++ rest = p ++ pat ++ q → pre.length ≤ p.length) →
      Replaced pat new rest t → Replaced pat new (pre ++ pat ++ rest) (pre ++ new ++ t)

/-- A store or a write call. -/
inductive NCOp where
  | store (state : State)
  | write

/-- The monitor after a call, and the stores (time and selected quantities under their
names in the file) that are not yet written. -/
def NCOp.run (order : SetOrder) (mp : NCMon × List (Int × State)) : NCOp → NCMon × List (Int × State)
  | .store s =>
    ((ncStore order mp.1 s).1,
      match ncPrepare order mp.1 s with
      | .error _ => mp.2
      | .ok p => if mp.1.writeOnStore ∧ (ncStore order mp.1 s).2.isOk then [] else mp.2 ++ [p])
  | .write => ((ncWrite mp.1).1, if (ncWrite mp.1).2.isOk then [] else mp.2)

/-- After any sequence of calls, with or without exceptions. -/
def ncAfter (order : SetOrder) (m : NCMon) (ops : List NCOp) : NCMon × List (Int × State) :=
  ops.foldl (NCOp.run order) (m, [])

/-- The latest value of a quantity among the stores for one time. -/
def lastStored : List (Int × State) → Int → String → Option Val
  | [], _, _ => none
  | (t', s) :: rest, t, q => (lastStored rest t q).or (if t' = t then Dict.get? s q else none)

/-- Record `i` of the file has the value `a` for the quantity `q`, with its dims and
attributes. -/
def HoldsRecord (f : NCFile) (i : Nat) (q : String) (a : DataArray) : Prop :=
  ∃ v, f.vars.get? q = some v ∧ v.dims = "time" :: a.dims ∧ (∀ k u, Dict.get? a.attrs k = some u → v.attrs.get? k = some u) ∧
    v.rows i = some a.arr

/-- The integer `n` for the time `t` in units of `us` microseconds since `ref`: exact if
`t` is a whole number of units away, and otherwise less than one unit off. -/
def TimeNumber (us : Rat) (ref t n : Int) : Prop :=
  (∀ k : Int, (t - ref : Rat) = k * us → n = k) ∧
  -us < (t - ref : Rat) - n * us ∧ (t - ref : Rat) - n * us < us

/-- The file `f'` is `f` with one record per distinct time of `stores` appended in
increasing order; a record has, for every quantity stored for its time, the value stored
last. -/
structure Appended (f f' : NCFile) (stores : List (Int × State)) (ts : List Int) : Prop where
  increasing : ts.Pairwise (· < ·)
  times : ∀ t, t ∈ ts ↔ ∃ p ∈ stores, p.1 = t
  ntime : f'.ntime = f.ntime + ts.length
  oldTimes : ∀ i < f.ntime, f'.times i = f.times i
  oldVars : ∀ q v, f.vars.get? q = some v → ∃ v', f'.vars.get? q = some v' ∧ v'.dims = v.dims ∧ v'.attrs = v.attrs ∧
    ∀ i < f.ntime, v'.rows i = v.rows i
  records : ∀ j t, ts[j]? = some t → ∀ q v, lastStored stores t q = some v →
    ∃ a, v = .da a ∧ HoldsRecord f' (f.ntime + j) q a
  complete : ∀ t ∈ ts, ∀ q, q ∈ Dict.keys f'.vars ↔ (lastStored stores t q).isSome
  newAttrs : ∀ q v', f.vars.get? q = none → f'.vars.get? q = some v' → ∀ t a, lastStored stores t q = some (.da a) →
    v'.attrs = a.attrs

/-- The dimensions of all variables exist. -/
def NCFile.WF (f : NCFile) : Prop :=
  ∀ q v, f.vars.get? q = some v → ∃ ds, v.dims = "time" :: ds ∧ ∀ d ∈ ds, d ∈ Dict.keys f.dims

/-- A file as written by a monitor: the dimensions of all variables exist, `time` is the
only unlimited one, variables have different names, and the time variable is that of the
monitor. -/
structure NCFile.Valid (f : NCFile) (us : Rat) (deltas : Bool) : Prop where
  wf : f.WF
  unlimited : ∀ d, f.dims.get? d = some none → d = "time"
  nodup : (Dict.keys f.vars).Nodup
  time : ∀ us' ref, f.timeVar = some (us', ref) → us' = us ∧ (deltas = true → ref = 0)

/-- Every quantity has the same dims, shape and attributes for all times, and the shape of
its variable if it is in the file; no quantity has a dimension `time`. -/
def RegularBatch (f : NCFile) (stores : List (Int × State)) : Prop :=
  (∀ q t t' a a', lastStored stores t q = some (.da a) → lastStored stores t' q = some (.da a') →
    a.dims = a'.dims ∧ a.arr.shape = a'.arr.shape ∧ a.attrs = a'.attrs) ∧
  (∀ q t a v, lastStored stores t q = some (.da a) → f.vars.get? q = some v →
    rowShape f v.dims.tail = a.arr.shape) ∧
  (∀ q t a, lastStored stores t q = some (.da a) → a.dims.length = a.arr.shape.length ∧ "time" ∉ a.dims)

/-- The batch fits the file: dimensions have one length each, no quantity is a scalar or a
time, and a variable that is in the file has the same dims and attributes there. -/
structure FitsFile (L : String → Nat) (f : NCFile) (ps : List (Int × State)) : Prop where
  arrays : ∀ q t v, lastStored ps t q = some v → ∃ a, v = .da a ∧ a.arr.shape.length ≠ 0 ∧
    a.arr.shape = a.dims.map L
  dims : ∀ d n, f.dims.get? d = some (some n) → L d = n
  time : ∀ x, f.dims.get? "time" = some x → x = none
  vars : ∀ q t a v, lastStored ps t q = some (.da a) → f.vars.get? q = some v →
    v.dims = "time" :: a.dims ∧ ∀ k u, (k, u) ∈ a.attrs → v.attrs.get? k = some u

/-- The states to be written do not all have the same quantities, or not those of the
file. -/
def InconsistentBatch (f : NCFile) (stores : List (Int × State)) : Prop :=
  (∃ p ∈ stores, ∃ p' ∈ stores, ∃ q, (lastStored stores p.1 q).isSome ∧ ¬ (lastStored stores p'.1 q).isSome) ∨
  (f.vars ≠ [] ∧ ∃ p ∈ stores, ∃ q, ¬ ((lastStored stores p.1 q).isSome ↔ q ∈ Dict.keys f.vars))

/-- The name of a quantity after all aliases. -/
def finalName (aliases : Dict String) (name : String) : String :=
  aliases.foldl (fun n a => ncRename a.1 a.2 n) name

/-- No alias gives a quantity the name another one has before or after that alias, and
none makes a name empty. -/
def NoClash : Dict String → (String → Prop) → Prop
  | [], _ => True
  | (long, short) :: rest, names =>
    (∀ a b, names a → names b → a ≠ b → ncRename long short a ≠ ncRename long short b ∧ ncRename long short a ≠ b) ∧
    (∀ a, names a → ncRename long short a ≠ "") ∧
    NoClash rest fun n => ∃ a, names a ∧ ncRename long short a = n

/-- The names selected of a state: all, or those to be stored and the time. -/
def Selected (storeNames : Option (List String)) (state : State) (n : String) : Prop :=
  n ∈ Dict.keys state ∧ (n = "time" ∨ ∀ l, storeNames = some l → n ∈ l)

end Verif
