import Verif.Props.NetCDF
/-!
# C49 – C51: non-vacuity and counterexamples
-/

namespace Verif

theorem lastStored_mem {ps : List (Int × State)} {t : Int} {q : String} {v : Val} (h : lastStored ps t q = some v) :
    ∃ p ∈ ps, p.1 = t ∧ (q, v) ∈ p.2 := by
  induction ps with
  | nil => cases h
  | cons p ps ih =>
    obtain ⟨t', s⟩ := p
    unfold lastStored at h
    rw [Option.or_eq_some_iff] at h
    rcases h with h | ⟨-, h⟩
    · obtain ⟨p, hp, e⟩ := ih h
      exact ⟨p, List.mem_cons_of_mem _ hp, e⟩
    · split at h
      · rename_i e
        exact ⟨_, List.mem_cons_self, e, Dict.mem_of_get? h⟩
      · cases h

namespace Demo

def sameHead : Val → Val → Bool
  | .da a, .da b => decide (a.dims = b.dims) && decide (a.arr.shape = b.arr.shape) && decide (a.attrs = b.attrs)
  | _, _ => false

def fitsB (L : String → Nat) (f : NCFile) (q : String) : Val → Bool
  | .time _ => false
  | .da a => decide (a.dims.length = a.arr.shape.length) && decide ("time" ∉ a.dims) &&
      decide (a.arr.shape.length ≠ 0) && decide (a.arr.shape = a.dims.map L) &&
      match f.vars.get? q with
      | none => true
      | some v => decide (rowShape f v.dims.tail = a.arr.shape) && decide (v.dims = "time" :: a.dims) &&
          a.attrs.all (fun kv => v.attrs.get? kv.1 == some kv.2)

/-- Test of the hypotheses on a batch. -/
def batchB (L : String → Nat) (f : NCFile) (ps : List (Int × State)) : Bool :=
  (ps.all fun p => ps.all fun p' => p.2.all fun x => p'.2.all fun x' => decide (x.1 ≠ x'.1) || sameHead x.2 x'.2) &&
  (ps.all fun p => p.2.all fun x => fitsB L f x.1 x.2) &&
  (f.dims.all fun d => match d.2 with | none => decide (d.1 = "time") | some n => decide (L d.1 = n) && decide (d.1 ≠ "time"))

theorem batchB_spec {L : String → Nat} {f : NCFile} {ps : List (Int × State)} (h : batchB L f ps = true) :
    RegularBatch f ps ∧ FitsFile L f ps := by
  unfold batchB at h
  rw [Bool.and_eq_true, Bool.and_eq_true] at h
  obtain ⟨⟨h1, h2⟩, h3⟩ := h
  simp only [List.all_eq_true] at h1 h2 h3
  have hfit : ∀ q t v, lastStored ps t q = some v → fitsB L f q v = true := by
    intro q t v hv
    obtain ⟨p, hp, -, hm⟩ := lastStored_mem hv
    exact h2 p hp _ hm
  have key : ∀ q t a, lastStored ps t q = some (.da a) → a.dims.length = a.arr.shape.length ∧ "time" ∉ a.dims ∧
      a.arr.shape.length ≠ 0 ∧ a.arr.shape = a.dims.map L ∧ ∀ v, f.vars.get? q = some v →
        rowShape f v.dims.tail = a.arr.shape ∧ v.dims = "time" :: a.dims ∧ ∀ k u, (k, u) ∈ a.attrs → v.attrs.get? k = some u := by
    intro q t a ha
    have := hfit q t _ ha
    unfold fitsB at this
    simp only [Bool.and_eq_true, decide_eq_true_eq] at this
    obtain ⟨⟨⟨⟨e1, e2⟩, e3⟩, e4⟩, e5⟩ := this
    refine ⟨e1, e2, e3, e4, fun v hv => ?_⟩
    rw [hv] at e5
    simp only [Bool.and_eq_true, decide_eq_true_eq, List.all_eq_true, beq_iff_eq] at e5
    exact ⟨e5.1.1, e5.1.2, fun k u hk => e5.2 _ hk⟩
  refine ⟨⟨?_, ?_, ?_⟩, ⟨?_, ?_, ?_, ?_⟩⟩
  · intro q t t' a a' ha ha'
    obtain ⟨p, hp, -, hm⟩ := lastStored_mem ha
    obtain ⟨p', hp', -, hm'⟩ := lastStored_mem ha'
    have := h1 p hp p' hp' _ hm _ hm'
    simp only [ne_eq, not_true_eq_false, decide_false, Bool.false_or, sameHead, Bool.and_eq_true, decide_eq_true_eq] at this
    exact ⟨this.1.1, this.1.2, this.2⟩
  · intro q t a v ha hv
    exact ((key q t a ha).2.2.2.2 v hv).1
  · intro q t a ha
    exact ⟨(key q t a ha).1, (key q t a ha).2.1⟩
  · intro q t v hv
    cases v with
    | time x => exact absurd (hfit q t _ hv) (by simp [fitsB])
    | da a => exact ⟨a, rfl, (key q t a hv).2.2.1, (key q t a hv).2.2.2.1⟩
  · intro d n hd
    have := h3 _ (Dict.mem_of_get? hd)
    simp only [Bool.and_eq_true, decide_eq_true_eq] at this
    exact this.1
  · intro x hx
    have := h3 _ (Dict.mem_of_get? hx)
    cases x with
    | none => rfl
    | some n => simp at this
  · intro q t a v ha hv
    exact ((key q t a ha).2.2.2.2 v hv).2

/-- A profile on `x` in K. -/
def ncT (v : Rat) (units : String) : Val := .da ⟨["x"], ⟨[2], fun i => v + (i.getD 0 0 : Nat)⟩, [("units", units)]⟩

/-- A new monitor without file; seconds, timedeltas. -/
def ncMon : NCMon := ⟨none, [], 1000000, true, none, false, []⟩

theorem ncMon_new : NewMonitor ncMon := ⟨rfl, by decide +kernel, empty_valid _ _⟩

def ncState (t : Int) (v : Rat) : State := [("T", ncT v "K"), ("time", .time t)]

theorem ncT_ok {v : Rat} {u : String} {t : Int} : StateOk [("T", ncT v u), ("time", .time t)] := by
  refine ⟨show ["T", "time"].Nodup by decide, ?_⟩
  intro n a h
  have := Dict.mem_of_get? h
  simp only [ncT, List.mem_cons, Prod.mk.injEq, List.not_mem_nil, or_false] at this
  rcases this with ⟨_, h⟩ | ⟨_, h⟩
  · cases h; rfl
  · cases h

/-- One record is written; then two states for the time 3 s and one for 1 s are stored. -/
def ncOps : List NCOp := [.store (ncState 0 5), .write, .store (ncState 3000000 6), .store (ncState 1000000 7),
  .store (ncState 3000000 8)]

theorem ncOps_ok : ∀ s, .store s ∈ ncOps → StateOk s := by
  intro s h
  simp only [ncOps, List.mem_cons, NCOp.store.injEq, reduceCtorEq, List.not_mem_nil, or_false, false_or] at h
  rcases h with rfl | rfl | rfl | rfl <;> exact ncT_ok

theorem ncOps_batch : batchB (fun _ => 2) ((ncAfter order ncMon ncOps).1.file.getD NCFile.empty) (ncAfter order ncMon ncOps).2 = true := by
  decide +kernel

end Demo

/-- `netcdf_write_partial` and `netcdf_write_succeeds` apply to a file with a record and
three stores, two for one time. -/
example : ∃ f' ts, (ncWrite (ncAfter Demo.order Demo.ncMon Demo.ncOps).1).1.file = some f' ∧
    Appended ((ncAfter Demo.order Demo.ncMon Demo.ncOps).1.file.getD NCFile.empty) f'
      (ncAfter Demo.order Demo.ncMon Demo.ncOps).2 ts ∧ (ncAfter Demo.order Demo.ncMon Demo.ncOps).2.length = 3 := by
  have hb := Demo.batchB_spec Demo.ncOps_batch
  have hne : (ncAfter Demo.order Demo.ncMon Demo.ncOps).2 ≠ [] := by
    have : (ncAfter Demo.order Demo.ncMon Demo.ncOps).2.length = 3 := by decide +kernel
    intro e
    rw [e] at this
    cases this
  have hcons : ¬ InconsistentBatch ((ncAfter Demo.order Demo.ncMon Demo.ncOps).1.file.getD NCFile.empty)
      (ncAfter Demo.order Demo.ncMon Demo.ncOps).2 := by
    have h1 : ∀ p ∈ (ncAfter Demo.order Demo.ncMon Demo.ncOps).2, ∀ q,
        (lastStored (ncAfter Demo.order Demo.ncMon Demo.ncOps).2 p.1 q).isSome ↔ q = "T" := by
      intro p hp q
      have k1 : ((ncAfter Demo.order Demo.ncMon Demo.ncOps).2.all fun p =>
          (lastStored (ncAfter Demo.order Demo.ncMon Demo.ncOps).2 p.1 "T").isSome &&
          p.2.all fun x => decide (x.1 = "T")) = true := by decide +kernel
      rw [List.all_eq_true] at k1
      constructor
      · intro hq
        obtain ⟨v, hv⟩ := Option.isSome_iff_exists.1 hq
        obtain ⟨p', hp', -, hm⟩ := lastStored_mem hv
        have := k1 p' hp'
        rw [Bool.and_eq_true, List.all_eq_true] at this
        simpa using this.2 _ hm
      · rintro rfl
        have := k1 p hp
        rw [Bool.and_eq_true] at this
        exact this.1
    rintro (⟨p, hp, p', hp', q, hq, hq'⟩ | ⟨-, p, hp, q, hq⟩)
    · exact hq' ((h1 p' hp' q).2 ((h1 p hp q).1 hq))
    · apply hq
      rw [h1 p hp q]
      have : Dict.keys ((ncAfter Demo.order Demo.ncMon Demo.ncOps).1.file.getD NCFile.empty).vars = ["T"] := by
        decide +kernel
      rw [this]
      simp
  have hw := netcdf_write_succeeds Demo.order Demo.ncMon Demo.ncMon_new Demo.ncOps Demo.ncOps_ok (fun _ => 2) hne hb.1 hb.2 hcons
  obtain ⟨f', ts, us, ref, h1, -, h2, -⟩ := netcdf_write_partial Demo.order Demo.ncMon Demo.ncMon_new Demo.ncOps
    Demo.ncOps_ok hb.1 hw
  exact ⟨f', ts, h1, h2, by decide +kernel⟩

/-- What is written in this case. -/
example : (match (ncAfter Demo.order Demo.ncMon (Demo.ncOps ++ [.write])).1.file with
    | none => false
    | some f => decide (f.ntime = 3) && decide ([0, 1, 2].map f.times = [some 0, some 1, some 3]) &&
        match f.vars.get? "T" with
        | none => false
        | some v => decide ([0, 1, 2].map (fun i => (v.rows i).map (·.get [1])) = [some 6, some 8, some 9])) = true := by
  decide +kernel

/-- A stored state with other quantities: the hypothesis of `netcdf_rejects_partial`. -/
def Demo.ncBad : List NCOp := Demo.ncOps ++ [.store [("T", Demo.ncT 1 "K"), ("u", Demo.ncT 1 "m s^-1"), ("time", .time 9000000)]]

example : InconsistentBatch ((ncAfter Demo.order Demo.ncMon Demo.ncBad).1.file.getD NCFile.empty)
    (ncAfter Demo.order Demo.ncMon Demo.ncBad).2 := by
  have h : ((ncAfter Demo.order Demo.ncMon Demo.ncBad).2.any fun p => (ncAfter Demo.order Demo.ncMon Demo.ncBad).2.any fun p' =>
      (lastStored (ncAfter Demo.order Demo.ncMon Demo.ncBad).2 p.1 "u").isSome &&
      !(lastStored (ncAfter Demo.order Demo.ncMon Demo.ncBad).2 p'.1 "u").isSome) = true := by decide +kernel
  simp only [List.any_eq_true, Bool.and_eq_true, Bool.not_eq_true'] at h
  obtain ⟨p, hp, p', hp', h1, h2⟩ := h
  exact .inl ⟨p, hp, p', hp', "u", h1, by rw [h2]; simp⟩

/-- **C49 fails** if the units of a quantity change between stores: the number in degC is
in the file as one in K. -/
theorem netcdf_mixes_units :
    ∃ f v, (ncAfter Demo.order Demo.ncMon [.store [("T", Demo.ncT 300 "K"), ("time", .time 0)],
        .store [("T", Demo.ncT 20 "degC"), ("time", .time 1000000)], .write]) = (⟨some f, [], 1000000, true, none, false, []⟩, []) ∧
      f.vars.get? "T" = some v ∧ v.attrs = [("units", "K")] ∧ (v.rows 1).map (·.get [0]) = some 20 := by
  refine ⟨_, _, rfl, rfl, ?_, ?_⟩
  · decide +kernel
  · decide +kernel

/-- A square array with values `10 i + j` in the order of its dims. -/
def Demo.ncSq (dims : List String) : Val :=
  .da ⟨dims, ⟨[2, 2], fun i => (i.getD 0 0 : Nat) * 10 + (i.getD 1 0 : Nat)⟩, [("units", "K")]⟩

/-- **C49 fails** if the order of the dims of a quantity changes between stores: the
second array has 10 at y = 1, x = 0, and the file has it at x = 1, y = 0. -/
theorem netcdf_mixes_dims :
    ∃ f v, (ncAfter Demo.order Demo.ncMon [.store [("T", Demo.ncSq ["x", "y"]), ("time", .time 0)],
        .store [("T", Demo.ncSq ["y", "x"]), ("time", .time 1000000)], .write]) = (⟨some f, [], 1000000, true, none, false, []⟩, []) ∧
      f.vars.get? "T" = some v ∧ v.dims = ["time", "x", "y"] ∧ (v.rows 1).map (·.get [1, 0]) = some 10 := by
  refine ⟨_, _, rfl, rfl, ?_, ?_⟩
  · decide +kernel
  · decide +kernel

/-- **C50 fails** if the file has records without quantities: a quantity is added without
an exception, and the first record has no value for it. -/
theorem netcdf_quantities_added :
    ∃ f v, (ncAfter Demo.order Demo.ncMon [.store [("time", .time 0)], .write,
        .store [("T", Demo.ncT 20 "K"), ("time", .time 1000000)], .write]) = (⟨some f, [], 1000000, true, none, false, []⟩, []) ∧
      f.ntime = 2 ∧ f.vars.get? "T" = some v ∧ (v.rows 0).isNone ∧ (v.rows 1).map (·.get [0]) = some 20 := by
  refine ⟨_, _, rfl, rfl, rfl, ?_, ?_⟩
  · decide +kernel
  · decide +kernel

/-- **C49 fails** for scalars: after any sequence of calls, a write with a scalar quantity
raises. -/
theorem netcdf_scalar_raises (order : SetOrder) (m : NCMon) (hm : NewMonitor m) (ops : List NCOp)
    (hops : ∀ s, .store s ∈ ops → StateOk s) (t : Int) (q : String) (a : DataArray)
    (hq : lastStored (ncAfter order m ops).2 t q = some (.da a)) (ha : a.arr.shape = []) :
    (ncWrite (ncAfter order m ops).1).2 ≠ .ok () := by
  have hinv := ncAfter_inv (order := order) hm.inv ops hops
  generalize (ncAfter order m ops).1 = m' at *
  generalize (ncAfter order m ops).2 = ps at *
  rw [(ncWrite_eq m').1]
  intro h
  obtain ⟨p, hp, rfl, -⟩ := lastStored_mem hq
  obtain ⟨⟨t, s⟩, hts, e⟩ := List.mem_map.1 ((hinv.cache.times p.1).2 ⟨p, hp, rfl⟩)
  dsimp only at e
  subst e
  rw [← hinv.cache.vals, cacheGet_of_mem hinv.cache.nodup hts] at hq
  have hkeys := ncCheckKeys_iff (f := m'.file.getD NCFile.empty) hinv.cache.keys hinv.file.nodup
  unfold ncWriteFile at h
  cases hk : ncCheckKeys m'.cache (m'.file.getD NCFile.empty) with
  | error e => rw [hk] at h; cases h
  | ok u =>
    rw [hk] at h
    dsimp only at h
    obtain ⟨same, -⟩ := hkeys.1.1 hk
    have hperm := ncSort_perm m'.cache
    cases hs : ncSort m'.cache with
    | nil => rw [hs] at h; cases h
    | cons x rest =>
      rw [hs] at h hperm
      dsimp only at h
      rcases hr : ensureTime m'.usPerUnit m'.deltas (m'.file.getD NCFile.empty) x.1 with ⟨f1, r⟩
      rw [hr] at h
      cases r with
      | error e => cases h
      | ok u =>
        dsimp only at h
        cases hcs : combineStates ((x :: rest).map (·.2)) with
        | error e => rw [show ((x.1, x.2) :: rest) = x :: rest from rfl, hcs] at h; cases h
        | ok stk =>
          have hst : ∀ s, s ∈ (x :: rest).map (·.2) → ∃ t, (t, s) ∈ m'.cache := by
            intro s hs'
            obtain ⟨⟨t, s'⟩, hm, rfl⟩ := List.mem_map.1 hs'
            exact ⟨t, hperm.mem_iff.1 hm⟩
          obtain ⟨-, -, n3, -⟩ := combineStates_ok hcs
            (fun s hs' => by
              obtain ⟨t, hm⟩ := hst s hs'
              exact hinv.cache.keys t s hm)
            (fun s hs' s' hs'' q => by
              obtain ⟨t, hm⟩ := hst s hs'
              obtain ⟨t', hm'⟩ := hst s' hs''
              exact same t s t' s' hm hm' q)
          obtain ⟨b, hb, hb'⟩ := n3 s (List.mem_map.2 ⟨_, hperm.mem_iff.2 hts, rfl⟩) q _ hq
          injection hb with hb
          subst hb
          rw [ha] at hb'
          exact hb' rfl

/-- The record of a write that raises in this way has a time and no values; a second write
adds another one. -/
theorem netcdf_scalar_appends_times :
    (match (ncAfter Demo.order Demo.ncMon [.store [("p", .da ⟨[], ⟨[], fun _ => 5⟩, [("units", "Pa")]⟩), ("time", .time 7000000)],
        .write, .write]).1.file with
      | none => false
      | some f => decide (f.ntime = 2) && decide ([0, 1].map f.times = [some 7, some 7]) && decide (Dict.keys f.vars = [])) = true := by
  decide +kernel

/-! ## C51 -/

/-- A monitor with two aliases. -/
def Demo.ncAliasMon : NCMon :=
  { Demo.ncMon with aliases := [("temperature", "T"), ("_from_radiation", "_rad")], storeNames := some ["temperature", "temperature_tendency_from_radiation"] }

def Demo.ncAliasState : State :=
  [("temperature", Demo.ncT 1 "K"), ("u", Demo.ncT 2 "K"), ("temperature_tendency_from_radiation", Demo.ncT 3 "K"), ("time", .time 0)]

theorem Demo.noClash : NoClash Demo.ncAliasMon.aliases (Selected Demo.ncAliasMon.storeNames Demo.ncAliasState) := by
  have key : ∀ n, Selected Demo.ncAliasMon.storeNames Demo.ncAliasState n →
      n ∈ ["temperature", "temperature_tendency_from_radiation", "time"] := by
    rintro n ⟨h1, h2⟩
    rcases h2 with rfl | h2
    · decide
    · have := h2 _ rfl
      simp only [List.mem_cons, List.not_mem_nil, or_false] at this ⊢
      rcases this with h | h
      · exact .inl h
      · exact .inr (.inl h)
  have gen : ∀ (l : List String) (names : String → Prop), (∀ n, names n → n ∈ l) → ∀ (a b : String),
      (l.all fun x => l.all fun y => decide (x = y) || (decide (ncRename a b x ≠ ncRename a b y) && decide (ncRename a b x ≠ y))) = true →
      (l.all fun x => decide (ncRename a b x ≠ "")) = true →
      (∀ x y, names x → names y → x ≠ y → ncRename a b x ≠ ncRename a b y ∧ ncRename a b x ≠ y) ∧
      (∀ x, names x → ncRename a b x ≠ "") ∧ ∀ n, (∃ x, names x ∧ ncRename a b x = n) → n ∈ l.map (ncRename a b) := by
    intro l names hn a b h1 h2
    simp only [List.all_eq_true] at h1 h2
    refine ⟨fun x y hx hy hxy => ?_, fun x hx => by simpa using h2 x (hn x hx), ?_⟩
    · have := h1 x (hn x hx) y (hn y hy)
      simpa [hxy] using this
    · rintro n ⟨x, hx, rfl⟩
      exact List.mem_map.2 ⟨x, hn x hx, rfl⟩
  obtain ⟨g1, g2, g3⟩ := gen _ _ key "temperature" "T" (by decide +kernel) (by decide +kernel)
  obtain ⟨g4, g5, -⟩ := gen _ _ g3 "_from_radiation" "_rad" (by decide +kernel) (by decide +kernel)
  exact ⟨g1, g2, g4, g5, trivial⟩

/-- `netcdf_aliases_partial` applies, and the names are as expected. -/
example : ∃ cs, ncPrepare Demo.order Demo.ncAliasMon Demo.ncAliasState = .ok (0, cs) ∧
    Dict.get? cs "T_tendency_rad" = Dict.get? Demo.ncAliasState "temperature_tendency_from_radiation" ∧
    Dict.get? cs "T" = Dict.get? Demo.ncAliasState "temperature" := by
  have hok : StateOk Demo.ncAliasState := by
    refine ⟨by decide, ?_⟩
    intro n a h
    have := Dict.mem_of_get? h
    simp only [Demo.ncAliasState, Demo.ncT, List.mem_cons, Prod.mk.injEq, List.not_mem_nil, or_false] at this
    rcases this with ⟨_, h⟩ | ⟨_, h⟩ | ⟨_, h⟩ | ⟨_, h⟩
    · cases h; rfl
    · cases h; rfl
    · cases h; rfl
    · cases h
  obtain ⟨cs, h1, h2, -⟩ := netcdf_aliases_partial Demo.order Demo.ncAliasMon Demo.ncAliasState hok 0 rfl
    (fun h => absurd h.1 (by decide)) Demo.noClash (by decide +kernel)
  refine ⟨cs, h1, ?_, ?_⟩
  · have := h2 "temperature_tendency_from_radiation" ⟨by decide, .inr (fun l hl => by injection hl with hl; subst hl; decide)⟩ (by decide)
    rw [show finalName Demo.ncAliasMon.aliases "temperature_tendency_from_radiation" = "T_tendency_rad" by decide +kernel] at this
    exact this
  · have := h2 "temperature" ⟨by decide, .inr (fun l hl => by injection hl with hl; subst hl; decide)⟩ (by decide)
    rw [show finalName Demo.ncAliasMon.aliases "temperature" = "T" by decide +kernel] at this
    exact this

/-- An alias that makes a name empty, after one that does not
(`netcdf_alias_empty_partial`). -/
example : ncRename "T" "" (finalName [("temperature", "T")] "temperature") = "" := by decide +kernel

/-- **C51 fails** if an alias gives a quantity the old name of another, although the names
after the alias are different and none is empty: the value of `x_y` is lost and `x_y_y`
has that of `x`. -/
theorem alias_loses_quantity :
    finalName [("x", "x_y")] "x" = "x_y" ∧ finalName [("x", "x_y")] "x_y" = "x_y_y" ∧
    Exc.test (ncPrepare Demo.order { Demo.ncMon with aliases := [("x", "x_y")] }
      [("x", Demo.ncT 1 "K"), ("x_y", Demo.ncT 2 "K"), ("time", .time 0)])
      (fun r => decide (Dict.keys r.2 = ["x_y_y"]) &&
        match Dict.get? r.2 "x_y_y" with
        | some (.da a) => decide (a.arr.get [0] = 1)
        | _ => false) = true := by
  refine ⟨?_, ?_, ?_⟩ <;> decide +kernel

/-- **C51 fails** for every state if the aliases rename `time`, and nothing to `time`:
KeyError. -/
theorem alias_renames_time (order : SetOrder) (m : NCMon) (s : State) (hs : StateOk s)
    (he : ¬ Selected m.storeNames s "") (hal : NoClash m.aliases (Selected m.storeNames s))
    (hother : ∀ n, Selected m.storeNames s n → finalName m.aliases n ≠ "time") :
    ncStore order m s = (m, .error .keyError) := by
  obtain ⟨sn, sv⟩ := ncSelect_spec order m.storeNames hs.1
  have hsel := mem_select (order := order) (names := m.storeNames) hs.1
  have he' : "" ∉ Dict.keys (ncSelect order m.storeNames s) := fun h => he ((hsel _).2 h)
  obtain ⟨cs', a1, a2, a3, a4, a5, a6⟩ := ncAliases_spec sn he' hsel hal
  have hnone : Dict.get? cs' "time" = none := by
    rw [Dict.get?_eq_none_iff]
    intro hm
    obtain ⟨n, hn, e⟩ := a5 _ hm
    exact hother n ((hsel n).2 hn) e
  have hp : ncPrepare order m s = .error .keyError := by
    unfold ncPrepare
    dsimp only
    rw [if_neg he', a1, Exc.ok_bind, hnone]
  unfold ncStore
  rw [hp]

example : finalName [("m", "mass")] "time" = "timasse" := by decide +kernel

end Verif
