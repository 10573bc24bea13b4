import Verif.Spec.Monitors
import Verif.Props.NetCDFExamples
/-!
# C72, C73: monitors and arrays changed in place
-/

namespace Verif

/-! ## Reading the references commutes with what `store` does -/

theorem mapVal_set' {α β : Type} (f : α → β) (d : Dict α) (k : String) (v : α) :
    Dict.mapVal f (d.set k v) = (Dict.mapVal f d).set k (f v) := by
  induction d with
  | nil => rfl
  | cons kv d ih =>
    obtain ⟨q, w⟩ := kv
    unfold Dict.set
    show Dict.mapVal f (if q = k then _ else _) = if q = k then _ else _
    split
    · rfl
    · show (q, f w) :: Dict.mapVal f (Dict.set d k v) = _
      rw [ih]
      rfl

theorem mapVal_erase {α β : Type} (f : α → β) (d : Dict α) (k : String) :
    Dict.mapVal f (d.erase k) = (Dict.mapVal f d).erase k := by
  induction d with
  | nil => rfl
  | cons kv d ih =>
    obtain ⟨q, w⟩ := kv
    unfold Dict.erase
    show Dict.mapVal f (if q = k then _ else _) = if q = k then _ else _
    split
    · rfl
    · show (q, f w) :: Dict.mapVal f (Dict.erase d k) = _
      rw [ih]
      rfl

theorem mapVal_update {α β : Type} (f : α → β) (d e : Dict α) :
    Dict.mapVal f (d.update e) = (Dict.mapVal f d).update (Dict.mapVal f e) := by
  unfold Dict.update
  induction e generalizing d with
  | nil => rfl
  | cons kv e ih =>
    show Dict.mapVal f (List.foldl _ (d.set kv.1 kv.2) e) = List.foldl _ ((Dict.mapVal f d).set kv.1 (f kv.2)) (Dict.mapVal f e)
    rw [ih, mapVal_set']

theorem ncSelect_read {α β : Type} (f : α → β) (order : SetOrder) (names : Option (List String)) (s : Dict α) :
    ncSelect order names (Dict.mapVal f s) = Dict.mapVal f (ncSelect order names s) := by
  unfold ncSelect
  cases names with
  | none => rfl
  | some l =>
    simp only [Dict.keys_mapVal]
    generalize order.f ((Dict.keys s).filter (· ∈ "time" :: l)) = ns
    induction ns with
    | nil => rfl
    | cons n ns ih =>
      rw [List.filterMap_cons, List.filterMap_cons, Dict.get?_mapVal]
      cases Dict.get? s n with
      | none => exact ih
      | some v =>
        show (n, f v) :: _ = Dict.mapVal f ((n, v) :: _)
        rw [ih]
        rfl

theorem ncAliasPass_read {α β : Type} (f : α → β) (long short : String) (ns : List String) (cs : Dict α) :
    ncAliasPass long short ns (Dict.mapVal f cs) = (ncAliasPass long short ns cs).map (Dict.mapVal f) := by
  induction ns generalizing cs with
  | nil => rfl
  | cons n ns ih =>
    unfold ncAliasPass
    split
    · split
      · rfl
      · rw [Dict.get?_mapVal]
        cases Dict.get? cs n with
        | none => rfl
        | some v =>
          simp only [Option.map_some]
          rw [← mapVal_erase, ← mapVal_set', ih]
    · exact ih cs

theorem ncAliases_read {α β : Type} (f : α → β) (al : Dict String) (cs : Dict α) :
    ncAliases al (Dict.mapVal f cs) = (ncAliases al cs).map (Dict.mapVal f) := by
  induction al generalizing cs with
  | nil => rfl
  | cons kv al ih =>
    obtain ⟨long, short⟩ := kv
    unfold ncAliases
    rw [Dict.keys_mapVal, ncAliasPass_read]
    cases ncAliasPass long short (Dict.keys cs) cs with
    | error e => rfl
    | ok cs' => exact ih cs'

theorem time_read (mem : Arrays) (s : HState) : State.time (HState.read mem s) = HState.time s := by
  unfold State.time HState.time HState.read
  rw [Dict.get?_mapVal]
  cases Dict.get? s "time" with
  | none => rfl
  | some v => cases v <;> rfl

theorem ncPrepare_read (order : SetOrder) (mem : Arrays) (m : HNCMon) (s : HState) :
    ncPrepare order (m.read mem) (HState.read mem s) =
      (ncPrepareH order m s).map fun p => (p.1, HState.read mem p.2) := by
  unfold ncPrepare ncPrepareH
  simp only [time_read]
  have h1 : ncSelect order (m.read mem).storeNames (HState.read mem s) =
      Dict.mapVal (HVal.read mem) (ncSelect order m.storeNames s) := ncSelect_read _ _ _ _
  rw [h1, Dict.keys_mapVal]
  split
  · rfl
  · have h2 := ncAliases_read (HVal.read mem) m.aliases (ncSelect order m.storeNames s)
    show (ncAliases m.aliases _ >>= _) = _
    rw [h2]
    cases ncAliases m.aliases (ncSelect order m.storeNames s) with
    | error e => rfl
    | ok cs =>
      show (match Dict.get? (Dict.mapVal (HVal.read mem) cs) "time" with | none => _ | some _ => _) =
        Except.map _ (match Dict.get? cs "time" with | none => _ | some _ => _)
      rw [Dict.get?_mapVal]
      cases Dict.get? cs "time" with
      | none => rfl
      | some v =>
        simp only [Option.map_some]
        cases HState.time s with
        | error e => rfl
        | ok t =>
          show Except.ok (t, Dict.erase (Dict.mapVal (HVal.read mem) cs) "time") = _
          rw [← mapVal_erase]
          rfl

theorem ncCacheAdd_read (mem : Arrays) (c : List (Int × HState)) (t : Int) (s : HState) :
    ncCacheAdd (c.map fun ts => (ts.1, HState.read mem ts.2)) t (HState.read mem s) =
      (ncCacheAddH c t s).map fun ts => (ts.1, HState.read mem ts.2) := by
  induction c with
  | nil => rfl
  | cons p c ih =>
    obtain ⟨t', s'⟩ := p
    show (if t' = t then _ else _) = List.map _ (if t' = t then _ else _)
    split
    · show (t', Dict.update (HState.read mem s') (HState.read mem s)) :: _ = _
      unfold HState.read
      rw [← mapVal_update]
      rfl
    · rw [ih]
      rfl

theorem ncWrite_read (mem : Arrays) (m : HNCMon) :
    ncWrite (m.read mem) = ((ncWriteH mem m).1.read mem, (ncWriteH mem m).2) := by
  unfold ncWrite ncWriteH
  have h : ncWriteFile (m.read mem).usPerUnit (m.read mem).deltas (m.read mem).cache ((m.read mem).file.getD NCFile.empty) =
      ncWriteFile m.usPerUnit m.deltas (m.cache.map fun ts => (ts.1, HState.read mem ts.2)) (m.file.getD NCFile.empty) := rfl
  rw [h]
  generalize ncWriteFile m.usPerUnit m.deltas (m.cache.map fun ts => (ts.1, HState.read mem ts.2))
    (m.file.getD NCFile.empty) = fr
  obtain ⟨f, r⟩ := fr
  cases r <;> rfl

theorem ncStore_read (order : SetOrder) (mem : Arrays) (m : HNCMon) (s : HState) :
    ncStore order (m.read mem) (HState.read mem s) =
      ((ncStoreH order mem m s).1.read mem, (ncStoreH order mem m s).2) := by
  unfold ncStore ncStoreH
  rw [ncPrepare_read]
  cases ncPrepareH order m s with
  | error e => rfl
  | ok p =>
    obtain ⟨t, cs⟩ := p
    have h : ({ m.read mem with cache := ncCacheAdd (m.read mem).cache t (HState.read mem cs) } : NCMon) =
        ({ m with cache := ncCacheAddH m.cache t cs } : HNCMon).read mem := by
      unfold HNCMon.read
      simp only [ncCacheAdd_read]
    show (if m.writeOnStore = true then ncWrite _ else _) = ((if m.writeOnStore = true then _ else _ : HNCMon × _).1.read mem,
      (if m.writeOnStore = true then _ else _ : HNCMon × _).2)
    rw [h]
    split
    · exact ncWrite_read mem _
    · rfl

/-- The monitor reads the same values if no array that waits is changed. -/
theorem read_undisturbed {mem mem' : Arrays} {m : HNCMon} (h : ∀ l, m.Waiting l → mem' l = mem l) :
    m.read mem' = m.read mem := by
  have : (m.cache.map fun ts => (ts.1, HState.read mem' ts.2)) = m.cache.map fun ts => (ts.1, HState.read mem ts.2) := by
    refine List.map_congr_left fun ts hts => Prod.ext rfl ?_
    unfold HState.read Dict.mapVal
    refine List.map_congr_left fun kv hkv => Prod.ext rfl ?_
    obtain ⟨q, v⟩ := kv
    cases v with
    | time t => rfl
    | ref l =>
      show Val.da _ = Val.da _
      rw [h l ⟨ts, hts, q, hkv⟩]
  unfold HNCMon.read
  rw [this]

/-- **C72.**  If no array is changed in place while it waits to be written, the monitor
does, and its file has, exactly what it would if `store` had copied the arrays. -/
theorem netcdf_stores_values_partial (order : SetOrder) (ops : List HNCOp) (mem : Arrays) (m : HNCMon)
    (h : Undisturbed order ops (mem, m)) :
    (runProgram order ops (mem, m)).1.2.file = (runValues order ops mem (m.read mem)).1.file ∧
    (runProgram order ops (mem, m)).2 = (runValues order ops mem (m.read mem)).2 := by
  induction ops generalizing mem m with
  | nil => exact ⟨rfl, rfl⟩
  | cons op ops ih =>
    obtain ⟨h1, h2⟩ := h
    cases op with
    | store s =>
      have hr := ncStore_read order mem m s
      have := ih mem (ncStoreH order mem m s).1 h2
      unfold runValues
      rw [hr]
      exact ⟨this.1, congrArg _ this.2⟩
    | write =>
      have hr := ncWrite_read mem m
      have := ih mem (ncWriteH mem m).1 h2
      unfold runValues
      rw [hr]
      exact ⟨this.1, congrArg _ this.2⟩
    | change f =>
      have := ih (f mem) m h2
      unfold runValues
      rw [← read_undisturbed (h1 f rfl)]
      exact ⟨this.1, congrArg _ this.2⟩

/-- **C72, the exception.**  What is written is what the arrays are at `write`: storing,
changing arrays and then writing gives the file for the state after the change. -/
theorem netcdf_writes_later_values (order : SetOrder) (s : HState) (f : Arrays → Arrays) (mem : Arrays) (m : HNCMon)
    (hw : m.writeOnStore = false) :
    (runProgram order [.store s, .change f, .write] (mem, m)).1.2.file =
      (runValues order [.store s, .write] (f mem) (m.read (f mem))).1.file := by
  have hread : ∀ mem', (ncStoreH order mem' m s) = ncStoreH order mem m s := by
    intro mem'
    unfold ncStoreH
    cases ncPrepareH order m s with
    | error e => rfl
    | ok p =>
      simp only [hw]
      rfl
  unfold runValues
  rw [ncStore_read order (f mem) m s, hread]
  show (ncWriteH (f mem) (ncStoreH order mem m s).1).1.file =
    (ncWrite ((ncStoreH order mem m s).1.read (f mem))).1.file
  rw [ncWrite_read]
  rfl

/-- After a successful `write` no array waits. -/
theorem write_nothing_waits (mem : Arrays) (m : HNCMon) (h : (ncWriteH mem m).2 = .ok ()) (l : Nat) :
    ¬ (ncWriteH mem m).1.Waiting l := by
  revert h
  unfold ncWriteH
  generalize ncWriteFile m.usPerUnit m.deltas (m.cache.map fun ts => (ts.1, HState.read mem ts.2))
    (m.file.getD NCFile.empty) = fr
  obtain ⟨f, r⟩ := fr
  cases r with
  | error e => exact fun h => (by cases h)
  | ok u =>
    rintro - ⟨ts, hts, -⟩
    cases hts

/-! ## PlotFunctionMonitor -/

theorem copyState_spec {ω : Type} (A : Arrays) (n : Nat) (s : Dict PVal) (m : PMem ω) (hn : n ≤ m.next)
    (hA : ∀ l, l < n → m.arrays l = A l) (hs : ∀ q l, (q, PVal.array l) ∈ s → l < n) :
    m.next ≤ (copyState s m).1.next ∧
    (∀ l, l < m.next → (copyState s m).1.arrays l = m.arrays l) ∧
    (copyState s m).1.others = m.others ∧
    (∀ q l, (q, PVal.array l) ∈ (copyState s m).2 → m.next ≤ l ∧ l < (copyState s m).1.next) ∧
    StateCopy A (copyState s m).1 s (copyState s m).2 := by
  induction s generalizing m with
  | nil => exact ⟨Nat.le_refl _, fun _ _ => rfl, rfl, fun q l h => (by cases h), List.Forall₂.nil⟩
  | cons kv s ih =>
    obtain ⟨name, v⟩ := kv
    have hs' : ∀ q l, (q, PVal.array l) ∈ s → l < n := fun q l h => hs q l (List.mem_cons_of_mem _ h)
    cases v with
    | other l =>
      obtain ⟨h1, h2, h3, h4, h5⟩ := ih m hn hA hs'
      refine ⟨h1, h2, h3, fun q l' h => ?_, List.Forall₂.cons ⟨rfl, rfl⟩ h5⟩
      rcases List.mem_cons.1 h with h | h
      · cases h
      · exact h4 q l' h
    | array l =>
      have hl : l < n := hs name l List.mem_cons_self
      have hold : ∀ k, k < m.next → (m.copy l).1.arrays k = m.arrays k := fun k hk =>
        if_neg (Nat.ne_of_lt hk)
      have hnext : (m.copy l).1.next = m.next + 1 := rfl
      obtain ⟨h1, h2, h3, h4, h5⟩ := ih (m.copy l).1 (by omega) (fun k hk => (hold k (by omega)).trans (hA k hk)) hs'
      refine ⟨?_, fun k hk => ?_, h3, fun q k h => ?_, List.Forall₂.cons ⟨rfl, ?_⟩ h5⟩
      · show m.next ≤ (copyState s (m.copy l).1).1.next
        omega
      · show (copyState s (m.copy l).1).1.arrays k = _
        rw [h2 k (by omega), hold k hk]
      · show m.next ≤ k ∧ k < (copyState s (m.copy l).1).1.next
        rcases List.mem_cons.1 h with h | h
        · injection h with _ h
          injection h with h
          have : k = m.next := h
          omega
        · have := h4 q k h
          omega
      · show (copyState s (m.copy l).1).1.arrays m.next = A l
        rw [h2 m.next (by omega), ← hA l hl]
        exact if_pos rfl

/-- **C73.**  The plot function is given the quantities of the state, and whatever it does
with what it is given, every DataArray of the program (in particular those of the state)
is as it was before, as is every other object that is not in the state. -/
theorem plot_leaves_state {ω : Type} (F : PMem ω → Dict PVal → PMem ω × Except Err Unit) (hF : Confined F)
    (m : PMem ω) (state : Dict PVal) (hs : ∀ q l, (q, PVal.array l) ∈ state → l < m.next) :
    StateCopy m.arrays (copyState state m).1 state (copyState state m).2 ∧
    (∀ l, l < m.next → (plotStore F m state).1.arrays l = m.arrays l) ∧
    (∀ l, (∀ q, (q, PVal.other l) ∉ state) → (plotStore F m state).1.others l = m.others l) := by
  obtain ⟨h1, h2, h3, h4, h5⟩ := copyState_spec m.arrays m.next state m (Nat.le_refl _) (fun _ _ => rfl) hs
  refine ⟨h5, fun l hl => ?_, fun l hl => ?_⟩
  · unfold plotStore
    rw [(hF _ _).1 l (by omega) (fun q hq => ?_)]
    · exact h2 l hl
    · have := (h4 q l hq).1
      omega
  · unfold plotStore
    rw [(hF _ _).2.1 l (fun q hq => ?_), h3]
    unfold StateCopy at h5
    obtain ⟨i, hi, he⟩ := List.mem_iff_getElem.1 hq
    have hlen := h5.length_eq
    have hi' : i < state.length := by omega
    have := (List.forall₂_iff_get.1 h5).2 i hi' hi
    simp only [List.get_eq_getElem, he] at this
    have hmem := List.getElem_mem hi'
    generalize state[i] = kv at this hmem
    obtain ⟨k, v⟩ := kv
    obtain ⟨rfl, hv⟩ := this
    cases v with
    | array _ => exact hv
    | other l' =>
      have : l' = l := hv
      subst this
      exact hl _ hmem

/-! ## Non-vacuity and the counterexample -/

namespace Demo

/-- Array 0 is 5, 6; doubled in place it is 10, 12. -/
def hArrays : Arrays := fun _ => ⟨["x"], ⟨[2], fun i => 5 + (i.getD 0 0 : Nat)⟩, [("units", "K")]⟩
def doubled : Arrays → Arrays := fun mem l => if l = 0 then { mem 0 with arr := (mem 0).arr.map (2 * ·) } else mem l
def hMon : HNCMon := ⟨none, [], 1000000, true, none, false, []⟩
def hState (t : Int) : HState := [("T", .ref 0), ("time", .time t)]

/-- The first number of a record. -/
def firstOf (f : Option NCFile) (i : Nat) : Option Rat :=
  f.bind fun f => (f.vars.get? "T").bind fun v => (v.rows i).map fun a => a.get [0]

/-- Store, write, change in place, store, write. -/
def politeProgram : List HNCOp := [.store (hState 0), .write, .change doubled, .store (hState 1000000), .write]

end Demo

open Demo in
example : Undisturbed Demo.order politeProgram (hArrays, hMon) := by
  refine ⟨fun f h => (by cases h), ⟨fun f h => (by cases h), ⟨fun f h l hl => ?_, ⟨fun f h => (by cases h),
    ⟨fun f h => (by cases h), trivial⟩⟩⟩⟩⟩
  refine absurd hl (write_nothing_waits _ _ ?_ l)
  have h : (match (ncWriteH hArrays (ncStoreH Demo.order hArrays hMon (hState 0)).1).2 with
    | .ok _ => true | .error _ => false) = true := by decide +kernel
  revert h
  show _ → (ncWriteH hArrays (ncStoreH Demo.order hArrays hMon (hState 0)).1).2 = .ok ()
  cases (ncWriteH hArrays (ncStoreH Demo.order hArrays hMon (hState 0)).1).2 with
  | ok _ => exact fun _ => rfl
  | error e => exact fun h => (by cases h)

-- its file has 5 and then 10
open Demo in
example : firstOf (runProgram Demo.order politeProgram (hArrays, hMon)).1.2.file 0 = some 5 ∧
    firstOf (runProgram Demo.order politeProgram (hArrays, hMon)).1.2.file 1 = some 10 := by
  constructor <;> decide +kernel

open Demo in
/-- **C72, counterexample.**  A state is stored when its array is 5, the array is then
doubled in place and the file written: the record has 10, not the 5 that was stored. -/
theorem netcdf_change_written :
    firstOf (runProgram Demo.order [.store (hState 0), .change doubled, .write] (hArrays, hMon)).1.2.file 0 = some 10 ∧
    firstOf (runValues Demo.order [.store (hState 0), .change doubled, .write] hArrays (hMon.read hArrays)).1.file 0 = some 5 := by
  constructor <;> decide +kernel

namespace Demo

/-- A plot function that sets every DataArray it is given to zero and counts up every
other object. -/
def vandal : PMem Nat → Dict PVal → PMem Nat × Except Err Unit := fun m d =>
  ({ m with
     arrays := fun l => if d.any (fun kv => kv.2 == .array l) then ⟨[], NDArray.zeros [], []⟩ else m.arrays l
     others := fun l => if d.any (fun kv => kv.2 == .other l) then m.others l + 1 else m.others l }, .ok ())

def plotMem : PMem Nat := ⟨hArrays, 1, fun _ => 7⟩
def plotState : Dict PVal := [("T", .array 0), ("T_again", .array 0), ("n", .other 0)]

end Demo

open Demo in
example : Confined vandal := by
  intro m d
  refine ⟨fun l _ hd => if_neg ?_, fun l hd => if_neg ?_, Nat.le_refl _⟩
  · intro h
    obtain ⟨kv, hk, h⟩ := List.any_eq_true.1 h
    obtain ⟨k, v⟩ := kv
    have : v = .array l := by simpa using h
    subst this
    exact hd k hk
  · intro h
    obtain ⟨kv, hk, h⟩ := List.any_eq_true.1 h
    obtain ⟨k, v⟩ := kv
    have : v = .other l := by simpa using h
    subst this
    exact hd k hk
open Demo in
example : ∀ q l, (q, PVal.array l) ∈ plotState → l < plotMem.next := by
  intro q l h
  simp [plotState] at h
  rcases h with h | h <;> simp [h, plotMem]
-- the function did change what it was given, and the state's array is as before
open Demo in
example : ((plotStore vandal plotMem plotState).1.arrays 1).arr.get [] = 0 ∧
    ((plotStore vandal plotMem plotState).1.arrays 0).arr.get [1] = 6 := by
  constructor <;> decide +kernel

open Demo in
/-- **C73, the limit.**  An object of the state that is not a DataArray is not copied: the
plot function can change it. -/
theorem plot_shares_other_objects : (plotStore vandal plotMem plotState).1.others 0 = 8 := by decide +kernel

end Verif
