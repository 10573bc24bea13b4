import Verif.Props.Restart
import Verif.Props.NetCDFExamples
/-!
# C52 – C54: non-vacuity and counterexamples
-/

namespace Verif

namespace Demo

/-- A state with one array of the given units. -/
def rState (x : Rat) (u : String) (t : Int) : State := [("T", .da ⟨["x"], ⟨[2], fun i => x + (i.getD 0 0 : Nat)⟩, [("units", u)]⟩), ("time", .time t)]

def noFiles : Disk := fun _ => none

theorem rState_get? {x : Rat} {u : String} {t : Int} {q : String} {a : DataArray} (h : Dict.get? (rState x u t) q = some (.da a)) :
    q = "T" ∧ a = ⟨["x"], ⟨[2], fun i => x + (i.getD 0 0 : Nat)⟩, [("units", u)]⟩ := by
  unfold rState at h
  rw [Dict.get?_cons] at h
  split at h
  · rename_i e
    injection h with h
    injection h with h
    exact ⟨e.symm, h.symm⟩
  · rw [Dict.get?_cons] at h
    split at h
    · injection h with h
      cases h
    · cases h

theorem rState_storable (x : Rat) (u : String) (t : Int) : Storable (rState x u t) where
  ok := by
    refine ⟨show ["T", "time"].Nodup by decide, fun n a h => ?_⟩
    obtain ⟨-, rfl⟩ := rState_get? h
    exact ⟨rfl, show "time" ∉ ["x"] by decide⟩
  time := ⟨t, rfl⟩
  name := show "" ∉ ["T", "time"] by decide
  arrays := by
    refine ⟨fun _ => 2, fun q v h hq => ?_⟩
    cases v with
    | da a =>
      obtain ⟨-, rfl⟩ := rState_get? h
      exact ⟨_, rfl, by simp, rfl⟩
    | time t' =>
      exfalso
      unfold rState at h
      rw [Dict.get?_cons, Dict.get?_cons] at h
      split at h
      · injection h with h
        cases h
      · split at h
        · rename_i e
          exact hq e.symm
        · cases h

theorem rState_loadable (x : Rat) (t : Int) (ht : t.natAbs ≤ 9223372036854775) : Loadable (rState x "K" t) where
  range := by
    intro t' h
    have : Dict.get? (rState x "K" t) "time" = some (.time t) := rfl
    rw [this] at h
    injection h with h
    injection h with h
    subst h
    exact ht
  names := by
    intro q q' a hq _ h hin
    obtain ⟨-, rfl⟩ := rState_get? h
    rw [List.mem_singleton] at hin
    subst hin
    revert hq
    show ¬ "x" ∈ ["T", "time"]
    decide
  units := by
    intro q a u h hu
    obtain ⟨-, rfl⟩ := rState_get? h
    have : Dict.get? ([("units", "K")] : Dict String) "units" = some "K" := rfl
    rw [this] at hu
    injection hu with hu
    subst hu
    decide

/-- Two stores, and a third one that stops between the two renames. -/
def rEvents : List REvent :=
  [.store false (rState 1 "K" 0) none, .store false (rState 2 "K" 1000000) none, .store false (rState 3 "K" 2000000) (some 3)]

theorem rEvents_ok : EventsOk rEvents := by
  intro deltas s stop h
  unfold rEvents at h
  simp only [List.mem_cons, REvent.store.injEq, List.not_mem_nil, or_false] at h
  rcases h with ⟨-, rfl, -⟩ | ⟨-, rfl, -⟩ | ⟨-, rfl, -⟩ <;> exact (rState_storable ..).ok

end Demo

/-- C52 for two stores and a stop: the second store returned, and `<f>` does not exist, so
that `<f>.old` is the copy. -/
example : ∃ x, (restartAfter Demo.order Demo.noFiles Demo.rEvents).disk .old = some x ∧
    ∃ s', (s' = Demo.rState 2 "K" 1000000 ∨ s' = Demo.rState 3 "K" 2000000) ∧ x.CopyOf s' := by
  obtain ⟨-, h⟩ := restart_crash_safe Demo.order Demo.noFiles (by simp [Demo.noFiles]) (by simp [Demo.noFiles]) Demo.rEvents
    Demo.rEvents_ok
  have hm : (restartAfter Demo.order Demo.noFiles Demo.rEvents).disk .main = none := rfl
  obtain ⟨x, hx, s', hs', hc⟩ := h [(Demo.rState 1 "K" 0, true)] (Demo.rState 2 "K" 1000000) [(Demo.rState 3 "K" 2000000, false)] rfl
  rw [hm] at hx
  rcases hx with hx | ⟨-, hx⟩
  · cases hx
  · refine ⟨x, hx, s', ?_, hc⟩
    simpa using hs'

/-- C53 for a store over an earlier file. -/
example : ∃ st, restartLoad (restartAfter Demo.order Demo.noFiles (Demo.rEvents.take 2)).disk = .ok st ∧
    ∀ q, Dict.get? st q = Dict.get? (Demo.rState 2 "K" 1000000) q := by
  have hs := Demo.rState_storable 2 "K" 1000000
  exact (restart_load_partial Demo.order (restartAfter Demo.order Demo.noFiles (Demo.rEvents.take 1)).disk _ hs.ok
    (Demo.rState_loadable 2 1000000 (by decide)) (store_returns Demo.order false _ _ hs rfl)).1

/-- **C53 fails** for a quantity in days: two and three days are loaded as numbers of
nanoseconds, without units. -/
theorem load_decodes_units :
    ∃ st a, (restartStore Demo.order false Demo.noFiles (Demo.rState 2 "days" 0)).2 = .ok () ∧
      restartLoad (lastDisk Demo.noFiles (restartStore Demo.order false Demo.noFiles (Demo.rState 2 "days" 0)).1) = .ok st ∧
      Dict.get? st "T" = some (.da a) ∧ a.arr.get [0] = 172800000000000 ∧ a.attrs = [] := by
  have h : Exc.test (restartLoad (lastDisk Demo.noFiles (restartStore Demo.order false Demo.noFiles (Demo.rState 2 "days" 0)).1))
      (fun st => match Dict.get? st "T" with
        | some (.da a) => decide (a.arr.get [0] = 172800000000000) && decide (a.attrs = [])
        | _ => false) = true := by decide +kernel
  obtain ⟨st, h1, h2⟩ := Exc.test_ok h
  cases hT : Dict.get? st "T" with
  | none =>
    rw [hT] at h2
    cases h2
  | some v =>
    rw [hT] at h2
    cases v with
    | time t => cases h2
    | da a =>
      dsimp only at h2
      rw [Bool.and_eq_true, decide_eq_true_eq, decide_eq_true_eq] at h2
      exact ⟨st, a, store_returns _ _ _ _ (Demo.rState_storable ..) rfl, h1, hT, h2⟩

/-- `load_decodes_times` for two and three hours. -/
example : ∃ st b, restartLoad (lastDisk Demo.noFiles (restartStore Demo.order false Demo.noFiles (Demo.rState 2 "hours" 0)).1) =
    .ok st ∧ Dict.get? st "T" = some (.da b) ∧ b.arr.get [1] = 3 * 3600 * 1000000000 ∧ Dict.get? b.attrs "units" = none := by
  obtain ⟨st, h1, -, -, h4⟩ := load_decodes_times Demo.order Demo.noFiles _ (Demo.rState_storable 2 "hours" 0).ok
    (fun t h => by
      have e : Dict.get? (Demo.rState 2 "hours" 0) "time" = some (.time 0) := rfl
      rw [e] at h
      injection h with h
      injection h with h
      subst h
      decide)
    (fun q q' a hq _ h hin => by
      obtain ⟨-, rfl⟩ := Demo.rState_get? h
      rw [List.mem_singleton] at hin
      subst hin
      revert hq
      show ¬ "x" ∈ ["T", "time"]
      decide)
    (store_returns _ _ _ _ (Demo.rState_storable ..) rfl)
  obtain ⟨b, hb, hdec⟩ := h4 "T" _ (by decide) rfl
  obtain ⟨-, -, h, -, hu⟩ := hdec
  refine ⟨st, b, h1, hb, ?_, hu (show ["units"].Nodup by decide)⟩
  rw [h]
  decide +kernel

/-- The hypotheses of `load_timedelta` and `load_out_of_range` (here the year 2600). -/
example : (restartStore Demo.order true Demo.noFiles (Demo.rState 2 "K" 0)).2 = .ok () :=
  store_returns _ _ _ _ (Demo.rState_storable ..) rfl

example : ∀ st, restartLoad (lastDisk Demo.noFiles
    (restartStore Demo.order false Demo.noFiles (Demo.rState 2 "K" 19880899200000000)).1) ≠ .ok st :=
  load_out_of_range Demo.order Demo.noFiles _ (Demo.rState_storable ..).ok 19880899200000000 rfl (by decide)
    (store_returns _ _ _ _ (Demo.rState_storable ..) rfl)

/-- A coordinate among the quantities, as arrays named like their dimension are in states
of models. -/
def Demo.rCoord : State := [("x", .da ⟨["x"], ⟨[2], fun i => (i.getD 0 0 : Nat)⟩, [("units", "m")]⟩), ("time", .time 0)]

example : (restartStore Demo.order false Demo.noFiles Demo.rCoord).2 = .ok () ∧
    restartLoad (lastDisk Demo.noFiles (restartStore Demo.order false Demo.noFiles Demo.rCoord).1) = .error .valueError := by
  refine ⟨rfl, load_named_like_dim Demo.order false Demo.noFiles Demo.rCoord ⟨by decide, fun n a h => ?_⟩ "x" _ rfl (by decide)
    (by decide) rfl⟩
  unfold Demo.rCoord at h
  rw [Dict.get?_cons, Dict.get?_cons] at h
  split at h
  · injection h with h
    injection h with h
    subst h
    exact ⟨rfl, by decide⟩
  · split at h
    · injection h with h
      cases h
    · cases h

/-- A quantity named like the dim of another one: stored, and not loaded. -/
def Demo.rLost : State :=
  [("x", .da ⟨["y"], ⟨[2], fun _ => 1⟩, []⟩), ("T", .da ⟨["x"], ⟨[2], fun _ => 1⟩, []⟩), ("time", .time 0)]

example : ∃ st, (restartStore Demo.order false Demo.noFiles Demo.rLost).2 = .ok () ∧
    restartLoad (lastDisk Demo.noFiles (restartStore Demo.order false Demo.noFiles Demo.rLost).1) = .ok st ∧
    Dict.keys st = ["T", "time"] := by
  have h : Exc.test (restartLoad (lastDisk Demo.noFiles (restartStore Demo.order false Demo.noFiles Demo.rLost).1))
      (fun st => decide (Dict.keys st = ["T", "time"])) = true := by decide +kernel
  obtain ⟨st, h1, h2⟩ := Exc.test_ok h
  exact ⟨st, rfl, h1, of_decide_eq_true h2⟩

/-- C54: the history of `restart_blocked`, a stop after the second store. -/
example : ((restartAfter Demo.order Demo.noFiles Demo.rEvents).disk .new).isSome ∧
    restartLoad (restartAfter Demo.order Demo.noFiles Demo.rEvents).disk = .error .ioError := ⟨rfl, rfl⟩

/-- Then removing `<f>.new` and moving `<f>.old` back gives the second state or the third
one. -/
example : ∃ x s', (restartAfter Demo.order Demo.noFiles (Demo.rEvents ++ [.restoreOld, .removeNew])).disk .main = some x ∧
    s' ∈ [Demo.rState 2 "K" 1000000, Demo.rState 3 "K" 2000000] ∧ x.CopyOf s' := by
  obtain ⟨x, s', h1, h2, h3, -⟩ := restart_recovers Demo.order Demo.noFiles (by simp [Demo.noFiles]) (by simp [Demo.noFiles])
    Demo.rEvents Demo.rEvents_ok [(Demo.rState 1 "K" 0, true)] [(Demo.rState 3 "K" 2000000, false)] (Demo.rState 2 "K" 1000000) rfl
  exact ⟨x, s', h1, by simpa using h2, h3⟩

/-- The hypotheses of `restart_exception_blocks`: a scalar. -/
example : lastDisk Demo.noFiles (restartStore Demo.order false Demo.noFiles
    [("S", .da ⟨[], ⟨[], fun _ => 1⟩, []⟩), ("time", .time 0)]).1 .new = some .broken := rfl

end Verif
