import Verif.Model.MainLoop
import Verif.Spec.MainLoop
import Verif.Props.WriteTimes
import Verif.Props.RunsComplete
/-!
# C112: the main loop of the documentation
-/

namespace Verif

section
variable {τ σ : Type} {L : String → Nat} {D : String → Option (List String × Dict String)}
  {call : τ → σ → State → Int → τ × σ × State × Except Err (Dict DataArray × State)} {dt : Int}

/-- Stepping goes on: in the situations of `I` a call succeeds, the state with the diagnostics
has the quantities of `D`, and the next situation is one of `I`. -/
def GoesOn (I : Int → τ → σ → State → Prop) (L : String → Nat) (D : String → Option (List String × Dict String))
    (call : τ → σ → State → Int → τ × σ × State × Except Err (Dict DataArray × State)) (dt : Int) : Prop :=
  ∀ t x s state, I t x s state → Dict.get? state "time" = some (.time t) ∧
    ∃ x' s' st diag next, call x s state dt = (x', s', st, .ok (diag, next)) ∧
      HasQuantities L D t (Dict.update st (Dict.mapVal Val.da diag)) ∧
      I (t + dt) x' s' (Dict.set next "time" (.time (t + dt)))

theorem time_of_get {s : State} {t : Int} (h : Dict.get? s "time" = some (.time t)) : State.time s = .ok t := by
  unfold State.time; rw [h]

theorem HasQuantities.stateOk {t : Int} {s : State} (h : HasQuantities L D t s) : StateOk s := by
  refine ⟨h.keys, fun q a ha => ?_⟩
  by_cases hq : q = "time"
  · subst hq; rw [h.time] at ha; cases ha
  · cases hD : D q with
    | none => rw [h.absent q hq hD] at ha; cases ha
    | some x =>
      obtain ⟨b, hb, e1, -, e3⟩ := h.present q x.1 x.2 hq hD
      rw [hb] at ha; cases ha
      rw [e3, e1, List.length_map]

theorem HasQuantities.mem {t : Int} {s : State} (h : HasQuantities L D t s) {q : String} (hq : q ≠ "time") :
    q ∈ Dict.keys s ↔ (D q).isSome := by
  cases hD : D q with
  | none => simpa using (Dict.get?_eq_none_iff _ _).1 (h.absent q hq hD)
  | some x =>
    obtain ⟨b, hb, -⟩ := h.present q x.1 x.2 hq hD
    simpa using Dict.mem_keys_of_get? hb

/-- A monitor that stores all quantities under their names. -/
structure StoresAll (m : NCMon) : Prop where
  cache : m.cache = []
  file : m.file = none
  units : 0 < m.usPerUnit
  names : m.storeNames = none
  aliases : m.aliases = []

theorem StoresAll.prepare {m : NCMon} (h : StoresAll m) (order : SetOrder) {t : Int} {s : State}
    (hs : HasQuantities L D t s) (hD : D "" = none) : ncPrepare order m s = .ok (t, Dict.erase s "time") := by
  unfold ncPrepare
  rw [h.names, h.aliases]
  have he : "" ∉ Dict.keys s := by
    rw [hs.mem (by decide), hD]; simp
  simp only [ncSelect, if_neg he, ncAliases, Exc.ok_bind, hs.time, time_of_get hs.time]

/-- The states of the run and their times. -/
theorem statesOfRun_spec {I : Int → τ → σ → State → Prop} (hI : GoesOn I L D call dt) :
    ∀ (n : Nat) (t : Int) (x : τ) (s : σ) (state : State), I t x s state →
      (statesOfRun call dt n t x s state).length = n ∧
      ∀ (i : Nat) st, (statesOfRun call dt n t x s state)[i]? = some st → HasQuantities L D (t + i * dt) st := by
  intro n
  induction n with
  | zero => intro t x s state _; exact ⟨rfl, fun i st h => by cases i <;> cases h⟩
  | succ n ih =>
    intro t x s state h
    obtain ⟨-, x', s', st, diag, next, hc, hq, hn⟩ := hI t x s state h
    obtain ⟨h1, h2⟩ := ih _ _ _ _ hn
    unfold statesOfRun
    rw [hc]
    refine ⟨by simp only [List.length_cons, h1], fun i st' hi => ?_⟩
    cases i with
    | zero => cases hi; simpa using hq
    | succ i =>
      have := h2 i st' hi
      rwa [show t + dt + (i : Int) * dt = t + ((i + 1 : Nat) : Int) * dt by push_cast; ring] at this

/-- The states without their times, with the times `t`, `t + dt`, … -/
def numbered (dt : Int) : Int → List State → List (Int × State)
  | _, [] => []
  | t, s :: states => (t, Dict.erase s "time") :: numbered dt (t + dt) states

theorem shift_time (t : Int) (i : Nat) : t + ((i + 1 : Nat) : Int) * dt = t + dt + (i : Int) * dt := by push_cast; ring

theorem storedBy_stores {order : SetOrder} {m : NCMon} (hm : StoresAll m) (hD : D "" = none) :
    ∀ {states : List State} {t : Int}, (∀ (i : Nat) st, states[i]? = some st → HasQuantities L D (t + i * dt) st) →
      storedBy order m (states.map .store) = numbered dt t states := by
  intro states
  induction states with
  | nil => intro t _; rfl
  | cons s states ih =>
    intro t h
    have h0 := h 0 s rfl
    rw [show t + ((0 : Nat) : Int) * dt = t by simp] at h0
    have := ih (t := t + dt) fun i st hi => by
      have := h (i + 1) st hi
      rwa [shift_time] at this
    rw [List.map_cons]
    unfold storedBy
    rw [hm.prepare order h0 hD]
    dsimp only
    rw [this, numbered]

/-- What is stored, item by item. -/
theorem mem_numbered : ∀ {states : List State} {t : Int} {p : Int × State}, p ∈ numbered dt t states ↔
      ∃ (i : Nat) (s : State), states[i]? = some s ∧ p = (t + i * dt, Dict.erase s "time") := by
  intro states
  induction states with
  | nil => intro t p; simp [numbered]
  | cons s0 states ih =>
    intro t p
    rw [numbered, List.mem_cons, ih]
    constructor
    · rintro (rfl | ⟨i, s, hs, rfl⟩)
      · exact ⟨0, s0, rfl, by simp⟩
      · exact ⟨i + 1, s, hs, by rw [shift_time]⟩
    · rintro ⟨i, s, hs, rfl⟩
      cases i with
      | zero => cases hs; exact .inl (by simp)
      | succ i => exact .inr ⟨i, s, hs, by rw [shift_time]⟩

theorem lastStored_numbered (hdt : 0 < dt) : ∀ {states : List State} {t : Int} {i : Nat} {s : State} {q : String}
    (_ : states[i]? = some s), lastStored (numbered dt t states) (t + i * dt) q = Dict.get? (Dict.erase s "time") q := by
  intro states
  induction states with
  | nil => intro t i s q h; cases h
  | cons s0 states ih =>
    intro t i s q h
    rw [numbered]
    unfold lastStored
    cases i with
    | zero =>
      cases h
      rw [lastStored_none fun p hp => ?_]
      · simp
      · obtain ⟨i, s', -, rfl⟩ := mem_numbered.1 hp
        have : (0 : Int) ≤ (i : Int) * dt := mul_nonneg (Int.natCast_nonneg i) hdt.le
        simp only [Nat.cast_zero, zero_mul, add_zero]
        omega
    | succ i =>
      have := ih (t := t + dt) (q := q) (i := i) h
      rw [shift_time, this, if_neg, Option.or_none]
      have : (0 : Int) ≤ (i : Int) * dt := mul_nonneg (Int.natCast_nonneg i) hdt.le
      omega

theorem numbered_increasing (hdt : 0 < dt) : ∀ (states : List State) (t : Int),
    ((numbered dt t states).map (·.1)).Pairwise (· < ·) := by
  intro states
  induction states with
  | nil => intro t; exact .nil
  | cons s states ih =>
    intro t
    rw [numbered, List.map_cons, List.pairwise_cons]
    refine ⟨fun t' ht' => ?_, ih _⟩
    obtain ⟨p, hp, rfl⟩ := List.mem_map.1 ht'
    obtain ⟨i, s', -, rfl⟩ := mem_numbered.1 hp
    have : (0 : Int) ≤ (i : Int) * dt := mul_nonneg (Int.natCast_nonneg i) hdt.le
    dsimp only
    omega

theorem numbered_getElem : ∀ {states : List State} {t : Int} {i : Nat} {s : State}, states[i]? = some s →
    ((numbered dt t states).map (·.1))[i]? = some (t + i * dt) := by
  intro states
  induction states with
  | nil => intro t i s h; cases h
  | cons s0 states ih =>
    intro t i s h
    rw [numbered, List.map_cons]
    cases i with
    | zero => simp
    | succ i => rw [shift_time]; exact ih (t := t + dt) h

theorem length_numbered : ∀ (states : List State) (t : Int), (numbered dt t states).length = states.length := by
  intro states
  induction states with
  | nil => intro t; rfl
  | cons s states ih => intro t; rw [numbered, List.length_cons, List.length_cons, ih]

/-- A program that stores the states of a run is a good one. -/
theorem stores_good {order : SetOrder} {m : NCMon} (hm : StoresAll m) (hD : D "" = none) (hdt : 0 < dt)
    (hdims : ∀ q ds u, D q = some (ds, u) → ds ≠ [] ∧ "time" ∉ ds ∧ (Dict.keys u).Nodup) (hDt : D "time" = none)
    {states : List State} {t : Int} (h : ∀ (i : Nat) st, states[i]? = some st → HasQuantities L D (t + i * dt) st) :
    GoodProgram L D order m (states.map .store) := by
  have hst := storedBy_stores (order := order) hm hD h
  refine ⟨⟨hm.cache, hm.file, hm.units⟩, fun s hs => ?_, ?_, ?_⟩
  · obtain ⟨s', hs', e⟩ := List.mem_map.1 hs
    cases e
    obtain ⟨i, hi⟩ := List.mem_iff_getElem?.1 hs'
    exact (h i s hi).stateOk
  · rw [hst]
    refine ⟨fun q hq p hp => ?_, fun q ds u hq p hp => ?_, hdims⟩
    · obtain ⟨i, s, hs, rfl⟩ := mem_numbered.1 hp
      rw [lastStored_numbered hdt hs]
      by_cases e : q = "time"
      · subst e; exact Dict.get?_erase_self (h i s hs).keys _
      · rw [Dict.get?_erase_ne _ (Ne.symm e)]; exact (h i s hs).absent q e hq
    · obtain ⟨i, s, hs, rfl⟩ := mem_numbered.1 hp
      rw [lastStored_numbered hdt hs]
      by_cases e : q = "time"
      · subst e; rw [hDt] at hq; cases hq
      · rw [Dict.get?_erase_ne _ (Ne.symm e)]; exact (h i s hs).present q ds u e hq
  · intro pre op post e _ p hp p' hp'
    have hsplit : storedBy order m (states.map .store) = storedBy order m (pre ++ [op]) ++ storedBy order m post := by
      rw [e, ← storedBy_append]; simp
    have hinc := numbered_increasing hdt states t
    rw [← hst, hsplit, List.map_append, List.pairwise_append] at hinc
    exact hinc.2.2 _ (List.mem_map_of_mem hp) _ (List.mem_map_of_mem hp')

/-- The records are those of the states. -/
theorem FileOfRun.of_records (hdt : 0 < dt) {us : Rat} {deltas : Bool} {states : List State} {t : Int} {f : NCFile}
    {ts : List Int} (hne : states ≠ []) (h : ∀ (i : Nat) st, states[i]? = some st → HasQuantities L D (t + i * dt) st)
    (hr : RecordsOf us deltas (numbered dt t states) f ts) : FileOfRun us deltas t dt states f := by
  have hts : ts = (numbered dt t states).map (·.1) := by
    refine List.Perm.eq_of_pairwise (le := (· < ·)) (fun a b _ _ h1 h2 => by omega) hr.increasing
      (numbered_increasing hdt states t) ?_
    refine (List.perm_ext_iff_of_nodup (hr.increasing.imp (fun h => by omega))
      ((numbered_increasing hdt states t).imp (fun h => by omega))).2 fun t' => ?_
    rw [hr.times, List.mem_map]
  subst hts
  have hhead : ((numbered dt t states).map (·.1)).headD 0 = t := by
    cases states with
    | nil => exact absurd rfl hne
    | cons s states => rfl
  have hget : ∀ i < states.length, ∃ s, states[i]? = some s := fun i hi => ⟨_, List.getElem?_eq_getElem hi⟩
  refine ⟨by rw [hr.ntime, List.length_map, length_numbered], by rw [hr.timeVar, hhead], fun i hi => ?_,
    fun s hs q => ?_, fun i s q a hi ha => ?_⟩
  · obtain ⟨s, hs⟩ := hget i hi
    have := hr.numbers i _ (numbered_getElem hs)
    rwa [hhead] at this
  · obtain ⟨i, hi⟩ := List.mem_iff_getElem?.1 hs
    have hm : t + i * dt ∈ (numbered dt t states).map (·.1) := List.mem_iff_getElem?.2 ⟨i, numbered_getElem hi⟩
    rw [hr.complete _ hm q, lastStored_numbered hdt hi]
    by_cases e : q = "time"
    · subst e; rw [Dict.get?_erase_self (h i s hi).keys]; simp
    · rw [Dict.get?_erase_ne _ (Ne.symm e), Dict.get?_isSome_iff]
      exact ⟨fun h => ⟨h, e⟩, fun h => h.1⟩
  · refine hr.values i _ q a (numbered_getElem hi) ?_
    rw [lastStored_numbered hdt hi]
    have e : q ≠ "time" := by
      rintro rfl; rw [(h i s hi).time] at ha; cases ha
    rw [Dict.get?_erase_ne _ (Ne.symm e), ha]

theorem ncAfter_store (order : SetOrder) (m : NCMon) (pre : List NCOp) (s : State) :
    (ncAfter order m (pre ++ [.store s])).1 = (ncStore order (ncAfter order m pre).1 s).1 := by
  unfold ncAfter
  rw [List.foldl_append]
  rfl

/-- The turns of the loop that are left. -/
theorem loop_turns {I : Int → τ → σ → State → Prop} (hI : GoesOn I L D call dt) {order : SetOrder} {m : NCMon}
    (hm : StoresAll m) (hD : D "" = none) {stop : Int} {ops : List NCOp} (hgood : GoodProgram L D order m ops) :
    ∀ (k fuel : Nat) (t : Int) (x : τ) (s : σ) (state : State) (pre : List NCOp), I t x s state → k < fuel →
      (∀ j < k, t + (j : Int) * dt < stop) → stop ≤ t + k * dt →
      ops = pre ++ (statesOfRun call dt k t x s state).map .store →
      ∃ x' s' last, documentedLoop order call dt stop fuel x s state (ncAfter order m pre).1 =
        ((ncAfter order m ops).1, some (.ok last)) ∧ I (t + k * dt) x' s' last := by
  intro k
  induction k with
  | zero =>
    intro fuel t x s state pre h hf _ hstop hops
    obtain ⟨fuel, rfl⟩ : ∃ n, fuel = n + 1 := ⟨fuel - 1, by omega⟩
    obtain ⟨ht, -⟩ := hI t x s state h
    unfold documentedLoop
    rw [time_of_get ht]
    dsimp only
    simp only [Nat.cast_zero, zero_mul, add_zero] at hstop ⊢
    rw [if_neg (by omega), hops]
    refine ⟨x, s, state, ?_, h⟩
    rw [statesOfRun, List.map_nil, List.append_nil]
  | succ k ih =>
    intro fuel t x s state pre h hf hlt hstop hops
    obtain ⟨fuel, rfl⟩ : ∃ n, fuel = n + 1 := ⟨fuel - 1, by omega⟩
    obtain ⟨ht, x', s', st, diag, next, hc, hq, hn⟩ := hI t x s state h
    have h0 : t < stop := by have := hlt 0 (by omega); simpa using this
    rw [statesOfRun, hc] at hops
    dsimp only at hops
    rw [List.map_cons] at hops
    have hres := (netcdf_file_of_program hgood).1 pre _ _ hops
    have hok : (ncStore order (ncAfter order m pre).1 (Dict.update st (Dict.mapVal Val.da diag))).2 = .ok () := by
      rcases hres with hr | ⟨hr, -⟩ | ⟨s'', e, hr, he, -⟩
      · exact hr
      · cases hr
      · cases hr
        rw [hm.prepare order hq hD] at he
        cases he
    have hafter := ncAfter_store order m pre (Dict.update st (Dict.mapVal Val.da diag))
    obtain ⟨x'', s'', last, hl, hl'⟩ := ih fuel (t + dt) x' s' _ (pre ++ [.store (Dict.update st (Dict.mapVal Val.da diag))]) hn
      (by omega) (fun j hj => by have := hlt (j + 1) (by omega); rwa [shift_time] at this)
      (by rwa [shift_time] at hstop) (by rw [hops]; simp)
    refine ⟨x'', s'', last, ?_, by rw [shift_time]; exact hl'⟩
    unfold documentedLoop
    rw [time_of_get ht]
    dsimp only
    rw [if_pos h0, hc]
    dsimp only
    rw [← hl, hafter]
    generalize ncStore order (ncAfter order m pre).1 (Dict.update st (Dict.mapVal Val.da diag)) = r at hok
    obtain ⟨r1, r2⟩ := r
    dsimp only at hok ⊢
    subst hok
    dsimp only
    rw [time_of_get hq.time]

/-- The number of turns until a time is reached. -/
theorem exists_turns (hdt : 0 < dt) {t stop : Int} (h : t < stop) :
    ∃ k : Nat, 0 < k ∧ (∀ j < k, t + (j : Int) * dt < stop) ∧ stop ≤ t + k * dt := by
  have hex : ∃ k : Nat, stop ≤ t + k * dt := by
    refine ⟨(stop - t).toNat, ?_⟩
    have h1 : ((stop - t).toNat : Int) = stop - t := Int.toNat_of_nonneg (by omega)
    rw [h1]
    nlinarith
  classical
  refine ⟨Nat.find hex, ?_, fun j hj => ?_, Nat.find_spec hex⟩
  · rcases Nat.eq_zero_or_pos (Nat.find hex) with h0 | h0
    · have := Nat.find_spec hex
      rw [h0] at this
      simp at this
      omega
    · exact h0
  · have := Nat.find_min hex hj
    omega

/-- **C112.**  The main loop of the documentation with a NetCDFMonitor, for any way of stepping
whose calls succeed and whose states, with the diagnostics, have the same quantities with the
same dims, attributes and shapes: it ends, after the turns that it takes to reach the time
`stop`, without an exception; and after a `write` the file has one record for each turn, with
the time and all quantities, diagnostics included, that the state had in it. -/
theorem documented_loop_file {I : Int → τ → σ → State → Prop} (hI : GoesOn I L D call dt) {order : SetOrder} {m : NCMon}
    (hm : StoresAll m) (hD : D "" = none) (hDt : D "time" = none)
    (hdims : ∀ q ds u, D q = some (ds, u) → ds ≠ [] ∧ "time" ∉ ds ∧ (Dict.keys u).Nodup) (hdt : 0 < dt)
    {t0 stop : Int} (h0 : t0 < stop) {x : τ} {s : σ} {state : State} (h : I t0 x s state) :
    ∃ k : Nat, 0 < k ∧ (∀ j < k, t0 + (j : Int) * dt < stop) ∧ stop ≤ t0 + k * dt ∧
      (statesOfRun call dt k t0 x s state).length = k ∧
      ∀ fuel > k, ∃ m' x' s' last,
        documentedLoop order call dt stop fuel x s state m = (m', some (.ok last)) ∧ I (t0 + k * dt) x' s' last ∧
        ∃ f, (ncWrite m').1.file = some f ∧
          FileOfRun m.usPerUnit m.deltas t0 dt (statesOfRun call dt k t0 x s state) f := by
  obtain ⟨k, hk, hlt, hle⟩ := exists_turns hdt h0
  obtain ⟨hlen, hall⟩ := statesOfRun_spec hI k t0 x s state h
  refine ⟨k, hk, hlt, hle, hlen, fun fuel hf => ?_⟩
  have hgood := stores_good (order := order) hm hD hdt hdims hDt hall
  have hst := storedBy_stores (order := order) hm hD hall
  obtain ⟨x', s', last, hl, hl'⟩ := loop_turns hI hm hD hgood k fuel t0 x s state [] h hf hlt hle rfl
  have hne : statesOfRun call dt k t0 x s state ≠ [] := by
    intro e; rw [e] at hlen; simp at hlen; omega
  obtain ⟨f, ts, hf', hrec⟩ := (netcdf_file_of_program hgood).2 (by
    rw [hst]
    intro e
    have := length_numbered (dt := dt) (statesOfRun call dt k t0 x s state) t0
    rw [e, hlen] at this
    simp at this
    omega)
  rw [hst] at hrec
  exact ⟨_, x', s', last, hl, hl', f, hf', .of_records hdt hne hall hrec⟩

end

/-! ## The time steppers -/

section
variable {σ : Type} {R : Registry} {L : String → Nat} {Q N : List String} {state0 state : State}
  {G : String → Option (List String × Dict String)} {dt : Int} {prog : Prog σ}

theorem moved_get (t : Int) {k : String} (hk : k ≠ "time") : Dict.get? (state0.moved t) k = Dict.get? state0 k :=
  Dict.get?_set_ne _ _ (Ne.symm hk)

theorem moved_time (t : Int) : Dict.get? (state0.moved t) "time" = some (.time t) := Dict.get?_set_self _ _ _

theorem Startable.moved (h : Startable L Q state0) (t : Int) : Startable L Q (state0.moved t) where
  keys := Dict.nodup_keys_set h.keys _ _
  arrays := fun k v hk hv => h.arrays k v hk (by rwa [moved_get t hk] at hv)
  stepped := fun k hk => ⟨(h.stepped k hk).1, (Dict.get?_isSome_iff _ _).1 (by
    rw [moved_get t (h.stepped k hk).1]; exact (Dict.get?_isSome_iff _ _).2 (h.stepped k hk).2)⟩
  time := fun a ha => by rw [moved_time] at ha; cases ha

theorem Ready.moved {c : Rat} {t : Int} (h : Ready L Q c (state0.moved t) state) (t' : Int) :
    Ready L Q c (state0.moved t') (Dict.set state "time" (.time t')) where
  keys := Dict.nodup_keys_set h.keys _ _
  time := by rw [moved_time]; exact Dict.get?_set_self _ _ _
  absent := fun k hk hn => by
    rw [Dict.get?_set_ne _ _ (Ne.symm hk)]
    exact h.absent k hk (by rw [moved_get t hk]; rwa [moved_get t' hk] at hn)
  present := fun k b hk hb => by
    rw [Dict.get?_set_ne _ _ (Ne.symm hk)]
    exact h.present k b hk (by rw [moved_get t hk]; rwa [moved_get t' hk] at hb)

theorem ABReady.moved (hS : Startable L Q state0) {order : Nat} {t : Int} {ab : AB}
    (h : ABReady L Q (state0.moved t) dt order ab) (t' : Int) : ABReady L Q (state0.moved t') dt order ab where
  same := h.same
  timestep := h.timestep
  length := h.length
  hist := fun x hx => ⟨(h.hist x hx).keys, (h.hist x hx).mem, fun k b hk hb => by
    have hne := (hS.stepped k hk).1
    exact (h.hist x hx).vals k b hk (by rw [moved_get t hne]; rwa [moved_get t' hne] at hb)⟩

theorem LFReady.moved (hS : Startable L Q state0) {t : Int} {lf : LF} (h : LFReady L Q (state0.moved t) dt lf) (t' : Int) :
    LFReady L Q (state0.moved t') dt lf where
  timestep := h.timestep
  old := fun o ho k hk b hb => by
    have hne := (hS.stepped k hk).1
    exact h.old o ho k hk b (by rw [moved_get t hne]; rwa [moved_get t' hne] at hb)

/-- What a NetCDFMonitor needs of the first state and of the diagnostics. -/
structure Writable (state0 : State) (G : String → Option (List String × Dict String)) : Prop where
  unnamed : "" ∉ Dict.keys state0 ∧ G "" = none
  time : G "time" = none
  own : ∀ q a, Dict.get? state0 q = some (.da a) → a.dims ≠ [] ∧ "time" ∉ a.dims ∧ (Dict.keys a.attrs).Nodup
  given : ∀ q ds u, G q = some (ds, u) → ds ≠ [] ∧ "time" ∉ ds ∧ (Dict.keys u).Nodup

theorem stored_has (hS : Startable L Q state0) (hw : Writable state0 G) {t : Int}
    (h : Ready L Q 1 (state0.moved t) state) {diag : Dict DataArray} (hd : DiagnosticsOf L G diag) :
    HasQuantities L (withDiagnostics state0 G) t (Dict.update state (Dict.mapVal Val.da diag)) := by
  have hn : (Dict.keys (Dict.mapVal Val.da diag)).Nodup := by rw [Dict.keys_mapVal]; exact hd.keys
  have hget : ∀ q, Dict.get? (Dict.update state (Dict.mapVal Val.da diag)) q =
      ((Dict.get? diag q).map Val.da).or (Dict.get? state q) := fun q => by
    rw [Dict.get?_update _ _ hn, Dict.get?_mapVal]
  refine ⟨Dict.nodup_keys_update h.keys _, ?_, fun q hq hD => ?_, fun q ds u hq hD => ?_⟩
  · rw [hget, hd.absent _ hw.time, h.time, moved_time]; rfl
  · unfold withDiagnostics at hD
    cases hG : G q with
    | some x => rw [hG] at hD; cases hD
    | none =>
      rw [hG, Option.none_or] at hD
      rw [hget, hd.absent q hG]
      refine h.absent q hq ?_
      rw [moved_get t hq]
      cases hv : Dict.get? state0 q with
      | none => rfl
      | some v =>
        obtain ⟨a, rfl, -⟩ := hS.arrays q v hq hv
        rw [hv] at hD; cases hD
  · unfold withDiagnostics at hD
    rw [hget]
    cases hG : G q with
    | some x =>
      rw [hG] at hD
      cases hD
      obtain ⟨a, ha, h'⟩ := hd.present q ds u hG
      rw [ha]
      exact ⟨a, rfl, h'⟩
    | none =>
      rw [hG, Option.none_or] at hD
      rw [hd.absent q hG]
      cases hv : Dict.get? state0 q with
      | none => rw [hv] at hD; cases hD
      | some v =>
        obtain ⟨b, rfl, -⟩ := hS.arrays q v hq hv
        rw [hv] at hD
        cases hD
        obtain ⟨a, ha, hl, -⟩ := h.present q b hq (by rw [moved_get t hq]; exact hv)
        exact ⟨a, ha, hl.dims, hl.attrs, by rw [hl.sized.2, hl.dims]⟩

theorem withDiagnostics_dims (hw : Writable state0 G) (q : String) (ds : List String) (u : Dict String)
    (h : withDiagnostics state0 G q = some (ds, u)) : ds ≠ [] ∧ "time" ∉ ds ∧ (Dict.keys u).Nodup := by
  unfold withDiagnostics at h
  cases hG : G q with
  | some x => rw [hG] at h; cases h; exact hw.given q ds u hG
  | none =>
    rw [hG, Option.none_or] at h
    cases hv : Dict.get? state0 q with
    | none => rw [hv] at h; cases h
    | some v =>
      cases v with
      | time t => rw [hv] at h; cases h
      | da a => rw [hv] at h; cases h; exact hw.own q a hv

theorem withDiagnostics_unnamed (hw : Writable state0 G) : withDiagnostics state0 G "" = none := by
  unfold withDiagnostics
  rw [hw.unnamed.2, (Dict.get?_eq_none_iff _ _).2 hw.unnamed.1]; rfl

theorem withDiagnostics_time (hS : Startable L Q state0) (hw : Writable state0 G) :
    withDiagnostics state0 G "time" = none := by
  unfold withDiagnostics
  rw [hw.time, Option.none_or]
  cases hv : Dict.get? state0 "time" with
  | none => rfl
  | some v =>
    cases v with
    | time t => rfl
    | da a => exact absurd hv (hS.time a)

/-! ### Diagnostics are those of the first call of the components -/

theorem ab_diag {ab ab' : AB} {s s' : σ} {diag : Dict DataArray} {new : State}
    (h : AB.call R prog ab s state dt = (ab', s', .ok (diag, new))) : ∃ r, (prog s state dt).2 = .ok r ∧ diag = r.2 := by
  unfold AB.call at h
  split at h
  · cases hr : (prog s state dt).2 with
    | error e => rw [hr] at h; cases h
    | ok r =>
      rw [hr] at h
      dsimp only at h
      split at h
      · cases h
      · split at h
        · cases h
        · cases h; exact ⟨r, rfl, rfl⟩
  · cases h

theorem lf_diag {lf lf' : LF} {s s' : σ} {st : State} {diag : Dict DataArray} {new : State}
    (h : LF.call R prog lf s state dt = (lf', s', st, .ok (diag, new))) : ∃ r, (prog s state dt).2 = .ok r ∧ diag = r.2 := by
  unfold LF.call at h
  split at h
  · cases hr : (prog s state dt).2 with
    | error e => rw [hr] at h; cases h
    | ok r =>
      rw [hr] at h
      dsimp only at h
      split at h
      · cases h
      · split at h
        · split at h
          · cases h
          · cases h; exact ⟨r, rfl, rfl⟩
        · split at h
          · cases h
          · cases h; exact ⟨r, rfl, rfl⟩
  · cases h

theorem euler_diag {ab ab' : AB} {s s' : σ} {diag : Dict DataArray} {new : State}
    (h : eulerCall R prog ab s state dt = (ab', s', .ok (diag, new))) : ∃ r, (prog s state dt).2 = .ok r ∧ diag = r.2 := by
  unfold eulerCall at h
  rcases hc : AB.call R prog ab s state dt with ⟨a, b, o⟩
  rw [hc] at h
  cases o with
  | error e => cases h
  | ok o => cases h; exact ab_diag hc

theorem ssprk_diag {three : Bool} {ab ab' : AB} {s s' : σ} {diag : Dict DataArray} {new : State}
    (h : ssprkCall R prog three ab s state dt = (ab', s', .ok (diag, new))) :
    ∃ r, (prog s state dt).2 = .ok r ∧ diag = r.2 := by
  unfold ssprkCall at h
  rcases hc : eulerCall R prog ab s state dt with ⟨ab1, s1, o⟩
  have key : ∀ d st1, o = .ok (d, st1) → d = diag → ∃ r, (prog s state dt).2 = .ok r ∧ diag = r.2 := by
    rintro d st1 rfl rfl; exact euler_diag hc
  cases three with
  | false =>
    rw [if_neg (by decide)] at h
    unfold ssprk2 at h
    rw [hc] at h
    cases o with
    | error e => cases h
    | ok o =>
      obtain ⟨d, st1⟩ := o
      refine key d st1 rfl ?_
      dsimp only at h
      split at h
      · cases h
      · injection h with _ h
        injection h with _ h
        obtain ⟨x, -, h⟩ := Exc.bind_ok_iff.1 h
        obtain ⟨y, -, h⟩ := Exc.bind_ok_iff.1 h
        cases h; rfl
  | true =>
    rw [if_pos rfl] at h
    unfold ssprk3 at h
    rw [hc] at h
    cases o with
    | error e => cases h
    | ok o =>
      obtain ⟨d, st1⟩ := o
      refine key d st1 rfl ?_
      dsimp only at h
      split at h
      · cases h
      · split at h
        · cases h
        · split at h
          · cases h
          · injection h with _ h
            injection h with _ h
            obtain ⟨x, -, h⟩ := Exc.bind_ok_iff.1 h
            obtain ⟨y, -, h⟩ := Exc.bind_ok_iff.1 h
            obtain ⟨z, -, h⟩ := Exc.bind_ok_iff.1 h
            cases h; rfl

/-- Components for the main loop: for states like `state0`, at any time, they do not raise, give
tendencies to the quantities of `Q`, which can be added, and the diagnostics of `G`. -/
structure Drives (R : Registry) (L : String → Nat) (Q : List String) (G : String → Option (List String × Dict String))
    (state0 : State) (dt : Int) (prog : Prog σ) : Prop where
  rates : ∀ t, Supplies R L Q [] (state0.moved t) dt prog
  diags : ∀ t s state r, Ready L Q 1 (state0.moved t) state → (prog s state dt).2 = .ok r → DiagnosticsOf L G r.2

/-- The run that the main loop makes, and its file. -/
def LoopWrites {τ : Type} (call : τ → σ → State → Int → τ × σ × State × Except Err (Dict DataArray × State))
    (L : String → Nat) (Q : List String) (state0 : State) (order : SetOrder) (m : NCMon) (dt t0 stop : Int) (x : τ) (s : σ) :
    Prop :=
  ∃ k : Nat, 0 < k ∧ (∀ j < k, t0 + (j : Int) * dt < stop) ∧ stop ≤ t0 + k * dt ∧
    (statesOfRun call dt k t0 x s state0).length = k ∧
    ∀ fuel > k, ∃ m' last, documentedLoop order call dt stop fuel x s state0 m = (m', some (.ok last)) ∧
      Ready L Q 1 (state0.moved (t0 + k * dt)) last ∧
      ∃ f, (ncWrite m').1.file = some f ∧
        FileOfRun m.usPerUnit m.deltas t0 dt (statesOfRun call dt k t0 x s state0) f

theorem Ready.start_moved (hS : Startable L Q state0) {t0 : Int} (ht : Dict.get? state0 "time" = some (.time t0)) :
    Ready L Q 1 (state0.moved t0) state0 := by
  refine (Ready.start (hS.moved t0)).congr hS.keys fun k => ?_
  by_cases hk : k = "time"
  · subst hk; rw [moved_time, ht]
  · rw [moved_get t0 hk]

/-- A stepper that is ready in the sense of `M`. -/
theorem loop_writes {τ : Type} {call : τ → σ → State → Int → τ × σ × State × Except Err (Dict DataArray × State)}
    (hS : Startable L Q state0) (hw : Writable state0 G) {M : Int → τ → Prop}
    (hstep : ∀ t x s state, M t x → Ready L Q 1 (state0.moved t) state → ∃ x' s' st diag next,
      call x s state dt = (x', s', st, .ok (diag, next)) ∧ M (t + dt) x' ∧ Ready L Q 1 (state0.moved t) st ∧
      Ready L Q 1 (state0.moved t) next ∧ DiagnosticsOf L G diag)
    {order : SetOrder} {m : NCMon} (hm : StoresAll m) (hdt : 0 < dt) {t0 stop : Int}
    (ht : Dict.get? state0 "time" = some (.time t0)) (h0 : t0 < stop) {x : τ} (hx : M t0 x) (s : σ) (inProps outProps : PropDict)
    (inst : String) :
    LoopWrites (tsCall R inProps outProps inst false call) L Q state0 order m dt t0 stop x s := by
  have hI : GoesOn (fun t x (_ : σ) state => M t x ∧ Ready L Q 1 (state0.moved t) state) L (withDiagnostics state0 G)
      (tsCall R inProps outProps inst false call) dt := by
    rintro t x s state ⟨hM, hr⟩
    obtain ⟨x', s', st, diag, next, hc, hM', hst, hnext, hd⟩ := hstep t x s state hM hr
    refine ⟨by rw [hr.time, moved_time], x', s', st, diag, copyUntouched st next, ?_, stored_has hS hw hst hd, hM', ?_⟩
    · unfold tsCall
      rw [hc]
      rfl
    · exact (hnext.again (hS.moved t) hst).moved (t + dt)
  obtain ⟨k, h1, h2, h3, h4, h5⟩ := documented_loop_file hI (order := order) hm (withDiagnostics_unnamed hw)
    (withDiagnostics_time hS hw) (withDiagnostics_dims hw) hdt h0 (x := x) (s := s) ⟨hx, Ready.start_moved hS ht⟩
  refine ⟨k, h1, h2, h3, h4, fun fuel hf => ?_⟩
  obtain ⟨m', x', s', last, a, b, c⟩ := h5 fuel hf
  exact ⟨m', last, a, b.2, c⟩

/-- **C112.**  AdamsBashforth of any order in the main loop of the documentation. -/
theorem ab_loop_writes (hS : Startable L Q state0) (hw : Writable state0 G) (hp : Drives R L Q G state0 dt prog)
    {order : SetOrder} {m : NCMon} (hm : StoresAll m) (hdt : 0 < dt) {t0 stop : Int}
    (ht : Dict.get? state0 "time" = some (.time t0)) (h0 : t0 < stop) (j : Int) (ab : AB) (hj : AB.make j = .ok ab) (s : σ)
    (inProps outProps : PropDict) (inst : String) :
    LoopWrites (tsCall R inProps outProps inst false (abCall R prog)) L Q state0 order m dt t0 stop ab s := by
  obtain ⟨k1, k4, -⟩ := AB.make_order hj
  have hab : ABReady L Q (state0.moved t0) dt ab.order ab := by
    unfold AB.make at hj
    split at hj
    · cases hj
      exact ⟨rfl, .inl rfl, fun t ht => (by cases ht), k1⟩
    · cases hj
  refine loop_writes (M := fun t ab' => ABReady L Q (state0.moved t) dt ab.order ab') hS hw (fun t x s state hM hr => ?_)
    hm hdt ht h0 hab s inProps outProps inst
  obtain ⟨ab', s', diag, new, hc, hab', hnew, -⟩ := ab_ready (hS.moved t) (hp.rates t) hr k4 hM s
  obtain ⟨r, hr1, rfl⟩ := ab_diag hc
  exact ⟨ab', s', state, r.2, new, by unfold abCall; rw [hc], hab'.moved hS _, hr, hnew, hp.diags t s state r hr hr1⟩

/-- **C112.**  Leapfrog with any filter.  (`_apart`: Leapfrog keeps the dict of the last state,
which the loop updates with the diagnostics; no stepped quantity is among them.) -/
theorem lf_loop_writes (hS : Startable L Q state0) (hw : Writable state0 G) (hp : Drives R L Q G state0 dt prog)
    (_apart : ∀ q ∈ Q, G q = none)
    {order : SetOrder} {m : NCMon} (hm : StoresAll m) (hdt : 0 < dt) {t0 stop : Int}
    (ht : Dict.get? state0 "time" = some (.time t0)) (h0 : t0 < stop) (strength alpha : Rat) (s : σ)
    (inProps outProps : PropDict) (inst : String) :
    LoopWrites (tsCall R inProps outProps inst false (LF.call R prog)) L Q state0 order m dt t0 stop
      { strength := strength, alpha := alpha } s := by
  refine loop_writes (M := fun t lf => LFReady L Q (state0.moved t) dt lf) hS hw (fun t x s state hM hr => ?_)
    hm hdt ht h0 ⟨.inl rfl, fun old h => by cases h⟩ s inProps outProps inst
  obtain ⟨lf', s', st, diag, new, hc, hlf', hst, hnew, -⟩ := lf_ready (hS.moved t) (hp.rates t) hr hM s
  obtain ⟨r, hr1, rfl⟩ := lf_diag hc
  exact ⟨lf', s', st, r.2, new, hc, hlf'.moved hS _, hst, hnew, hp.diags t s state r hr hr1⟩

/-- **C112.**  SSPRungeKutta with two or three stages. -/
theorem ssprk_loop_writes (hS : Startable L Q state0) (hw : Writable state0 G) (hp : Drives R L Q G state0 dt prog)
    {order : SetOrder} {m : NCMon} (hm : StoresAll m) (hdt : 0 < dt) {t0 stop : Int}
    (ht : Dict.get? state0 "time" = some (.time t0)) (h0 : t0 < stop) (three : Bool) (s : σ)
    (inProps outProps : PropDict) (inst : String) :
    LoopWrites (tsCall R inProps outProps inst false (sspCall R prog three)) L Q state0 order m dt t0 stop
      { order := 1 } s := by
  refine loop_writes (M := fun t ab => ABReady L Q (state0.moved t) dt 1 ab) hS hw (fun t x s state hM hr => ?_)
    hm hdt ht h0 ⟨rfl, .inl rfl, fun t ht => (by cases ht), by decide⟩ s inProps outProps inst
  obtain ⟨ab', s', diag, new, hc, hab', hnew, -⟩ := ssprk_ready (hS.moved t) (hp.rates t) hr three hM s
  obtain ⟨r, hr1, rfl⟩ := ssprk_diag hc
  exact ⟨ab', s', state, r.2, new, by unfold sspCall; rw [hc], hab'.moved hS _, hr, hnew, hp.diags t s state r hr hr1⟩

end

/-! ## Steps into the past -/

/-- **C112.**  With a timestep that is not positive the loop never ends: it is still running
after any number of turns, and a `write` is never reached. -/
theorem documented_loop_endless {τ σ : Type} {L : String → Nat} {D : String → Option (List String × Dict String)}
    {call : τ → σ → State → Int → τ × σ × State × Except Err (Dict DataArray × State)} {dt : Int}
    {I : Int → τ → σ → State → Prop} (hI : GoesOn I L D call dt) (hD : D "" = none) (hdt : dt ≤ 0) {order : SetOrder} {stop : Int} (fuel : Nat) :
    ∀ {t : Int} {x : τ} {s : σ} {state : State} {m : NCMon}, m.storeNames = none → m.aliases = [] → m.writeOnStore = false →
      t < stop → I t x s state → (documentedLoop order call dt stop fuel x s state m).2 = none := by
  induction fuel with
  | zero => intros; rfl
  | succ fuel ih =>
    intro t x s state m hn ha hwr h0 h
    obtain ⟨ht, x', s', st, diag, next, hc, hq, hnext⟩ := hI t x s state h
    have he : "" ∉ Dict.keys (Dict.update st (Dict.mapVal Val.da diag)) := by
      rw [hq.mem (by decide), hD]; simp
    have hprep : ncPrepare order m (Dict.update st (Dict.mapVal Val.da diag)) =
        .ok (t, Dict.erase (Dict.update st (Dict.mapVal Val.da diag)) "time") := by
      unfold ncPrepare
      rw [hn, ha]
      simp only [ncSelect, if_neg he, ncAliases, Exc.ok_bind, hq.time, time_of_get hq.time]
    have hst : ncStore order m (Dict.update st (Dict.mapVal Val.da diag)) =
        ({ m with cache := ncCacheAdd m.cache t (Dict.erase (Dict.update st (Dict.mapVal Val.da diag)) "time") }, .ok ()) := by
      unfold ncStore
      rw [hprep]
      dsimp only
      rw [hwr]
      rfl
    unfold documentedLoop
    rw [time_of_get ht]
    dsimp only
    rw [if_pos h0, hc]
    dsimp only
    rw [hst]
    dsimp only
    rw [time_of_get hq.time]
    dsimp only
    exact ih (m := { m with cache := _ }) hn ha hwr (by omega) hnext

/-! ## Example -/

/-- Temperature that decays, with a diagnostic. -/
def Demo.cooling : Prog Nat := fun s state _ =>
  (s + 1, State.da state "T" >>= fun a =>
    .ok ([("T", { a.smul (-1 / 3600) with attrs := [("units", "K s^-1")] })],
      [("deficit", { a.smul (1 / 2) with attrs := [("units", "K"), ("source", "decay")] })]))

def Demo.rod (v : Rat) : State :=
  [("time", .time 0), ("T", .da { dims := ["x"], arr := { shape := [2], get := fun ix => v + ix.headD 0 }, attrs := [("units", "K")] })]

def Demo.rodL : String → Nat := fun _ => 2

def Demo.rodG : String → Option (List String × Dict String) := fun q =>
  if q = "deficit" then some (["x"], [("units", "K"), ("source", "decay")]) else none

theorem Demo.rod_get (v : Rat) {k : String} {b : DataArray} (h : Dict.get? (Demo.rod v) k = some (.da b)) :
    k = "T" ∧ b.dims = ["x"] ∧ b.arr.shape = [2] ∧ b.attrs = [("units", "K")] := by
  unfold Demo.rod at h
  rw [Dict.get?_cons, Dict.get?_cons] at h
  split at h
  · cases h
  · split at h
    · rename_i h2
      cases h
      exact ⟨h2.symm, rfl, rfl, rfl⟩
    · cases h

theorem Demo.rod_startable (v : Rat) : Startable Demo.rodL ["T"] (Demo.rod v) where
  keys := by unfold Demo.rod; simp [Dict.keys]
  arrays := by
    intro k x hk hx
    cases x with
    | time t =>
      unfold Demo.rod at hx
      rw [Dict.get?_cons, if_neg (Ne.symm hk), Dict.get?_cons] at hx
      split at hx <;> cases hx
    | da a =>
      obtain ⟨-, h2, h3, -⟩ := Demo.rod_get v hx
      exact ⟨a, rfl, by rw [h2]; decide, by rw [h2, h3]; rfl⟩
  stepped := by
    intro k hk
    rw [List.mem_singleton.1 hk]
    exact ⟨by decide, by unfold Demo.rod; simp [Dict.keys]⟩
  time := fun a ha => by
    have := (Demo.rod_get v ha).1
    exact absurd this (by decide)

theorem Demo.rod_writable (v : Rat) : Writable (Demo.rod v) Demo.rodG where
  unnamed := ⟨by unfold Demo.rod; simp [Dict.keys], by decide⟩
  time := by decide
  own := fun q a ha => by
    obtain ⟨-, h2, -, h4⟩ := Demo.rod_get v ha
    rw [h2, h4]
    decide
  given := fun q ds u h => by
    unfold Demo.rodG at h
    split at h
    · cases h; decide
    · cases h

theorem Demo.cooling_drives (v : Rat) (dt : Int) : Drives Demo.reg Demo.rodL ["T"] Demo.rodG (Demo.rod v) dt Demo.cooling := by
  have key : ∀ (t : Int) (state : State), Ready Demo.rodL ["T"] 1 ((Demo.rod v).moved t) state →
      ∃ a b, Dict.get? ((Demo.rod v).moved t) "T" = some (.da b) ∧ State.da state "T" = .ok a ∧ a.dims = ["x"] ∧ a.arr.shape = [2] ∧
        b.dims = ["x"] ∧ b.attrs = [("units", "K")] := by
    intro t state h
    have hb : Dict.get? ((Demo.rod v).moved t) "T" = _ := moved_get t (by decide)
    have hb' : ∃ b, Dict.get? (Demo.rod v) "T" = some (.da b) := ⟨_, rfl⟩
    obtain ⟨b, hb'⟩ := hb'
    rw [hb'] at hb
    obtain ⟨-, h2, h3, h4⟩ := Demo.rod_get v hb'
    obtain ⟨a, ha, hl, -⟩ := h.present "T" b (by decide) hb
    refine ⟨a, b, hb, da_ok ha, by rw [hl.dims, h2], ?_, h2, h4⟩
    rw [hl.sized.2, hl.dims, h2]
    rfl
  refine ⟨fun t s state h => ?_, fun t s state r h hr => ?_⟩
  · obtain ⟨a, b, hb, ha, h1, h2, h3, h4⟩ := key t state h
    unfold Demo.cooling
    rw [ha]
    refine ⟨_, rfl, by simp [Dict.keys], fun k => by simp [Dict.keys], fun k w hw => ?_, fun n hn => (by cases hn)⟩
    rw [Dict.get?_cons] at hw
    split at hw
    · rename_i hk
      cases hw
      refine ⟨b, hk ▸ hb, ⟨by show a.dims.Nodup; rw [h1]; decide, by show a.arr.shape = a.dims.map _; rw [h1, h2]; rfl⟩,
        fun d hd => by rw [h3]; rw [← h1]; exact hd, .inr ⟨"K s^-1", "K", (Demo.reg.parse "K s^-1").get (by decide),
          (Demo.reg.parse "K s^-1").get (by decide), rfl, by rw [h4]; rfl, by simp, by simp, rfl⟩⟩
    · cases hw
  · obtain ⟨a, b, hb, ha, h1, h2, h3, h4⟩ := key t state h
    unfold Demo.cooling at hr
    rw [ha] at hr
    cases hr
    refine ⟨by simp [Dict.keys], fun q hq => ?_, fun q ds u hq => ?_⟩
    · unfold Demo.rodG at hq
      split at hq
      · cases hq
      · rename_i hk
        rw [Dict.get?_cons, if_neg (Ne.symm hk)]
        rfl
    · unfold Demo.rodG at hq
      split at hq
      · rename_i hk
        cases hq
        exact ⟨{ a.smul (1 / 2) with attrs := [("units", "K"), ("source", "decay")] },
          by rw [Dict.get?_cons, if_pos hk.symm], h1, rfl, by show a.arr.shape = _; rw [h2]; rfl⟩
      · cases hq

/-- A run of third-order AdamsBashforth from 0 s to 100 s, with a timestep of 30 s, writes four records. -/
example (v : Rat) (m : NCMon) (hm : StoresAll m) : ∃ f states m' last,
    documentedLoop Demo.order (tsCall Demo.reg [] [] "" false (abCall Demo.reg Demo.cooling)) 30000000 100000000 5 { order := 3 } 0
      (Demo.rod v) m = (m', some (.ok last)) ∧ (ncWrite m').1.file = some f ∧ f.ntime = 4 ∧
      FileOfRun m.usPerUnit m.deltas 0 30000000 states f := by
  obtain ⟨k, h1, h2, h3, h4, h5⟩ := ab_loop_writes (Demo.rod_startable v) (Demo.rod_writable v) (Demo.cooling_drives v 30000000)
    (order := Demo.order) hm (by decide) (t0 := 0) (stop := 100000000) rfl (by decide) 3 { order := 3 } rfl 0 [] [] ""
  have hk : k = 4 := by
    have h2' := h2 (k - 1) (by omega)
    have : ((k - 1 : Nat) : Int) = k - 1 := by omega
    rw [this] at h2'
    omega
  subst hk
  obtain ⟨m', last, a, -, f, hf, hr⟩ := h5 5 (by decide)
  exact ⟨f, _, m', last, a, hf, by rw [hr.ntime, h4], hr⟩

/-- Such a monitor. -/
example : StoresAll ⟨none, [], 1000000, true, none, false, []⟩ :=
  ⟨rfl, rfl, by decide, rfl, rfl⟩

end Verif
