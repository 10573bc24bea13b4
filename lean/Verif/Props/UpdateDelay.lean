import Verif.Props.TimeStages
import Verif.Props.UpdateEach
/-! # The delay by UpdateFrequencyWrapper costs first order, however short the timestep: property C131 -/

namespace Verif

/-- Two runs one after the other are one run. -/
theorem runOver_add {V τ σ : Type} (call : τ → σ → EState V → Int → τ × σ × EState V × Except Err (Dict V × EState V))
    (between : Dict V → EState V → EState V) (dt : Int) : ∀ (m n : Nat) {a a' : τ} {s s' : σ} {x x' : EState V},
      runOver call between dt m a s x = (a', s', .ok x') →
      runOver call between dt (m + n) a s x = runOver call between dt n a' s' x' := by
  intro m
  induction m with
  | zero =>
    intro n a a' s s' x x' h
    unfold runOver at h
    simp only [Prod.mk.injEq, Except.ok.injEq] at h
    obtain ⟨rfl, rfl, rfl⟩ := h
    rw [Nat.zero_add]
  | succ m ih =>
    intro n a a' s s' x x' h
    rw [Nat.succ_add]
    unfold runOver at h
    conv_lhs => unfold runOver
    rcases hc : call a s x dt with ⟨a1, s1, st, e | ⟨d, new⟩⟩
    · rw [hc] at h; cases h
    · rw [hc] at h
      exact ih n h

/-- what `Demo.warming` gives at the time `tl` -/
def Demo.warmth (tl : Int) : Dict DataArray × Dict DataArray := ([("T", ⟨[], ⟨[], fun _ => 2 * seconds tl⟩, []⟩)], [])

/-- the memory of a wrapper that was updated at the time `tl` -/
def Demo.updatedAt (delta tl : Int) : UFW (Dict DataArray × Dict DataArray) :=
  { delta := delta, cached := some (Demo.warmth tl), last := some tl }

private theorem clocks {v : Rat} {t : Int} {x : EState DataArray} (hx : x = Demo.scalarAt v t ∨ x = Demo.atScalar v t) :
    x.clock = .ok t := by
  rcases hx with rfl | rfl <;> rfl

/-- when the wrapper is due it updates -/
theorem Demo.warming_due {v : Rat} {t dt delta : Int} {x : EState DataArray}
    (hx : x = Demo.scalarAt v t ∨ x = Demo.atScalar v t) {c : UFW (Dict DataArray × Dict DataArray)} (hd : c.delta = delta)
    (hl : c.last = none ∨ ∃ tl, c.last = some tl ∧ tl + delta ≤ t) :
    updatingO false Demo.warming ((), c) x dt = (((), Demo.updatedAt delta t), .ok (Demo.warmth t)) := by
  have hc := clocks hx
  have hr : ∀ c : UFW (Dict DataArray × Dict DataArray), c.delta = delta → c.refresh EState.clock
      (fun s x odt => if odt.isSome = false then Demo.warming s x dt else (s, .error .typeError)) () x none =
        (Demo.updatedAt delta t, (), .ok (some (Demo.warmth t))) := by
    intro c hd
    unfold UFW.refresh runComponent Demo.warming
    simp only [Option.isSome_none, if_true, hc]
    rw [← hd]
    rfl
  unfold updatingO UFW.call
  simp only [Bool.false_eq_true, if_false]
  rcases hl with hl | ⟨tl, hl, hle⟩
  · simp only [hl, hr c hd]
  · simp only [hl, hc]
    rw [if_pos (by omega)]
    simp only [hr c hd]

/-- until then it gives what it gave -/
theorem Demo.warming_waits {v : Rat} {t dt delta tl : Int} {x : EState DataArray}
    (hx : x = Demo.scalarAt v t ∨ x = Demo.atScalar v t) (hlt : t < tl + delta) :
    updatingO false Demo.warming ((), Demo.updatedAt delta tl) x dt = (((), Demo.updatedAt delta tl), .ok (Demo.warmth tl)) := by
  have hc := clocks hx
  unfold updatingO UFW.call
  simp only [Demo.updatedAt, hc, Bool.false_eq_true, if_false]
  rw [if_neg (show ¬ (t ≥ tl + delta) by omega)]

/-- A call of a time stepper that adds the timestep times the tendency of the last update, if the wrapper gives that tendency
and will wait. -/
def Demo.TakesEuler (call : ABOver DataArray → Unit × UFW (Dict DataArray × Dict DataArray) → EState DataArray → Int →
    ABOver DataArray × (Unit × UFW (Dict DataArray × Dict DataArray)) × EState DataArray ×
      Except Err (Dict DataArray × EState DataArray)) (dt : Int) : Prop :=
  ∀ (v : Rat) (t tl delta : Int) (ts : Option Int) (x : EState DataArray) (c : UFW (Dict DataArray × Dict DataArray)),
    (ts = none ∨ ts = some dt) → (x = Demo.scalarAt v t ∨ x = Demo.atScalar v t) → t < tl + delta →
    updatingO false Demo.warming ((), c) x dt = (((), Demo.updatedAt delta tl), .ok (Demo.warmth tl)) →
    ∃ st new, (new = Demo.scalarAt (v + seconds dt * (2 * seconds tl)) t ∨ new = Demo.atScalar (v + seconds dt * (2 * seconds tl)) t) ∧
      call { order := 1, timestep := ts } ((), c) x dt =
        ({ order := 1, timestep := some dt }, ((), Demo.updatedAt delta tl), st, .ok ([], new))

/-- One step of AdamsBashforth of order 1. -/
theorem Demo.ab_takes_euler (R : Registry) (dt : Int) : Demo.TakesEuler
    (tsCallO (dataArrayArith R) [] [] "" false (abCallO (dataArrayArith R) (updatingO false Demo.warming))) dt := by
  intro v t tl delta ts x c hts hx _ hc
  have h : ABOver.call (dataArrayArith R) (updatingO false Demo.warming) { order := 1, timestep := ts } ((), c) x dt =
      ({ order := 1, timestep := some dt }, ((), Demo.updatedAt delta tl),
        .ok ([], Demo.atScalar (v + seconds dt * (2 * seconds tl)) t)) := by
    unfold ABOver.call
    rw [if_pos hts, hc]
    rcases hx with rfl | rfl <;> rfl
  refine ⟨x, Demo.atScalar (v + seconds dt * (2 * seconds tl)) t, Or.inr rfl, ?_⟩
  unfold tsCallO abCallO
  rw [h]
  rcases hx with rfl | rfl <;> rfl

/-- One step of SSPRungeKutta. -/
theorem Demo.ssprk_takes_euler (R : Registry) (three : Bool) (dt : Int) : Demo.TakesEuler
    (tsCallO (dataArrayArith R) [] [] "" false (sspCallO (dataArrayArith R) (updatingO false Demo.warming) three)) dt := by
  intro v t tl delta ts x c hts hx hlt hc
  have stage : ∀ (v : Rat) (ts : Option Int) (x : EState DataArray) (c : UFW (Dict DataArray × Dict DataArray)),
      (ts = none ∨ ts = some dt) → (x = Demo.scalarAt v t ∨ x = Demo.atScalar v t) →
      updatingO false Demo.warming ((), c) x dt = (((), Demo.updatedAt delta tl), .ok (Demo.warmth tl)) →
      eulerCallO (dataArrayArith R) (updatingO false Demo.warming) { order := 1, timestep := ts } ((), c) x dt =
        ({ order := 1, timestep := some dt }, ((), Demo.updatedAt delta tl),
          .ok ([], Demo.atScalar (v + seconds dt * (2 * seconds tl)) t)) := by
    intro v ts x c hts hx hc
    unfold eulerCallO ABOver.call
    rw [if_pos hts, hc]
    rcases hx with rfl | rfl <;> rfl
  have again : ∀ (v : Rat) (x : EState DataArray), (x = Demo.scalarAt v t ∨ x = Demo.atScalar v t) →
      eulerCallO (dataArrayArith R) (updatingO false Demo.warming) { order := 1, timestep := some dt }
        ((), Demo.updatedAt delta tl) x dt =
        ({ order := 1, timestep := some dt }, ((), Demo.updatedAt delta tl),
          .ok ([], Demo.atScalar (v + seconds dt * (2 * seconds tl)) t)) := fun v x hx =>
    stage v (some dt) x _ (Or.inr rfl) hx (Demo.warming_waits hx hlt)
  have h1 := stage v ts x c hts hx hc
  generalize seconds dt * (2 * seconds tl) = f at *
  have h2 := again (v + f) _ (Or.inr rfl)
  cases three with
  | false =>
    have h : ssprkCallO (dataArrayArith R) (updatingO false Demo.warming) false { order := 1, timestep := ts } ((), c) x dt =
        ({ order := 1, timestep := some dt }, ((), Demo.updatedAt delta tl),
          .ok ([], Demo.scalarAt (1 / 2 * (v + (v + f + f))) t)) := by
      unfold ssprkCallO
      rw [if_neg (by decide)]
      unfold ssprk2O
      rw [h1]
      dsimp only
      rw [h2]
      rcases hx with rfl | rfl <;> rfl
    rw [show 1 / 2 * (v + (v + f + f)) = v + f by ring] at h
    refine ⟨x, Demo.scalarAt (v + f) t, Or.inl rfl, ?_⟩
    unfold tsCallO sspCallO
    rw [h]
    rcases hx with rfl | rfl <;> rfl
  | true =>
    have hm : ∃ z, (z = Demo.scalarAt (3 / 4 * v + 1 / 4 * (v + f + f)) t) ∧ (scaleStateO (dataArrayArith R) (3 / 4) x >>= fun x =>
        scaleStateO (dataArrayArith R) (1 / 4) (Demo.atScalar (v + f + f) t) >>= fun y => addStatesO (dataArrayArith R) x y) =
          .ok z := by
      rcases hx with rfl | rfl <;> exact ⟨_, rfl, rfl⟩
    obtain ⟨z, hz, hm⟩ := hm
    have h3 := again (3 / 4 * v + 1 / 4 * (v + f + f)) z (Or.inl hz)
    have h : ssprkCallO (dataArrayArith R) (updatingO false Demo.warming) true { order := 1, timestep := ts } ((), c) x dt =
        ({ order := 1, timestep := some dt }, ((), Demo.updatedAt delta tl),
          .ok ([], Demo.scalarAt (1 / 3 * v + 2 / 3 * (3 / 4 * v + 1 / 4 * (v + f + f) + f)) t)) := by
      unfold ssprkCallO
      rw [if_pos rfl]
      unfold ssprk3O
      rw [h1]
      dsimp only
      rw [h2]
      dsimp only
      rw [hm]
      dsimp only
      rw [h3]
      rcases hx with rfl | rfl <;> rfl
    rw [show 1 / 3 * v + 2 / 3 * (3 / 4 * v + 1 / 4 * (v + f + f) + f) = v + f by ring] at h
    refine ⟨x, Demo.scalarAt (v + f) t, Or.inl rfl, ?_⟩
    unfold tsCallO sspCallO
    rw [h]
    rcases hx with rfl | rfl <;> rfl

private theorem ticked {v : Rat} {t dt : Int} {d : Dict DataArray} {x : EState DataArray}
    (hx : x = Demo.scalarAt v t ∨ x = Demo.atScalar v t) :
    Demo.ticks dt d x = Demo.scalarAt v (t + dt) ∨ Demo.ticks dt d x = Demo.atScalar v (t + dt) := by
  rcases hx with rfl | rfl
  · exact Or.inl rfl
  · exact Or.inr rfl

/-- Steps before the next update. -/
theorem Demo.delayed_rest {call : ABOver DataArray → Unit × UFW (Dict DataArray × Dict DataArray) → EState DataArray →
    Int → ABOver DataArray × (Unit × UFW (Dict DataArray × Dict DataArray)) × EState DataArray ×
      Except Err (Dict DataArray × EState DataArray)} {dt : Int} (hE : Demo.TakesEuler call dt)
    (delta tl : Int) : ∀ (j : Nat) (v : Rat) (t : Int) (x : EState DataArray),
    (x = Demo.scalarAt v t ∨ x = Demo.atScalar v t) → (∀ i < j, t + i * dt < tl + delta) → ∃ xf,
      (xf = Demo.scalarAt (v + j * seconds dt * (2 * seconds tl)) (t + j * dt) ∨
        xf = Demo.atScalar (v + j * seconds dt * (2 * seconds tl)) (t + j * dt)) ∧
      runOver call (Demo.ticks dt) dt j { order := 1, timestep := some dt } ((), Demo.updatedAt delta tl) x =
          ({ order := 1, timestep := some dt }, ((), Demo.updatedAt delta tl), .ok xf) := by
  intro j
  induction j with
  | zero =>
    intro v t x hx _
    refine ⟨x, ?_, rfl⟩
    simpa using hx
  | succ j ih =>
    intro v t x hx hlt
    have h0 := hlt 0 (by omega)
    obtain ⟨st, new, hn, h⟩ := hE v t tl delta _ x _ (Or.inr rfl) hx (by simpa using h0)
      (Demo.warming_waits (delta := delta) hx (by simpa using h0))
    obtain ⟨xf, hxf, hrun⟩ := ih _ _ _ (ticked (dt := dt) (d := []) hn) (fun i hi => by
      have := hlt (i + 1) (by omega)
      push_cast at this
      linarith)
    refine ⟨xf, ?_, ?_⟩
    · have e1 : v + seconds dt * (2 * seconds tl) + j * seconds dt * (2 * seconds tl) =
          v + (j + 1 : ℕ) * seconds dt * (2 * seconds tl) := by push_cast; ring
      have e2 : t + dt + j * dt = t + (j + 1 : ℕ) * dt := by push_cast; ring
      rw [e1, e2] at hxf
      exact hxf
    · unfold runOver
      rw [h]
      exact hrun

/-- The steps from one update to the next. -/
theorem Demo.delayed_interval {call : ABOver DataArray → Unit × UFW (Dict DataArray × Dict DataArray) → EState DataArray →
    Int → ABOver DataArray × (Unit × UFW (Dict DataArray × Dict DataArray)) × EState DataArray ×
      Except Err (Dict DataArray × EState DataArray)} {dt : Int} (hE : Demo.TakesEuler call dt)
    (hdt : 0 < dt) {m : Nat} (hm : 1 ≤ m) {v : Rat} {t : Int}
    {ts : Option Int} (hts : ts = none ∨ ts = some dt) {x : EState DataArray}
    (hx : x = Demo.scalarAt v t ∨ x = Demo.atScalar v t) {c : UFW (Dict DataArray × Dict DataArray)} (hd : c.delta = m * dt)
    (hl : c.last = none ∨ ∃ tl, c.last = some tl ∧ tl + m * dt ≤ t) : ∃ xf,
      (xf = Demo.scalarAt (v + m * seconds dt * (2 * seconds t)) (t + m * dt) ∨
        xf = Demo.atScalar (v + m * seconds dt * (2 * seconds t)) (t + m * dt)) ∧
      runOver call (Demo.ticks dt) dt m { order := 1, timestep := ts } ((), c) x =
          ({ order := 1, timestep := some dt }, ((), Demo.updatedAt (m * dt) t), .ok xf) := by
  obtain ⟨j, rfl⟩ : ∃ j, m = j + 1 := ⟨m - 1, by omega⟩
  have hpos : t < t + (j + 1 : ℕ) * dt := by
    have : (0 : Int) < (j + 1 : ℕ) * dt := mul_pos (by exact_mod_cast Nat.succ_pos j) hdt
    linarith
  obtain ⟨st, new, hn, h⟩ := hE v t t ((j + 1 : ℕ) * dt) ts x c hts hx hpos (Demo.warming_due hx hd hl)
  obtain ⟨xf, hxf, hrun⟩ := Demo.delayed_rest hE ((j + 1 : ℕ) * dt) t j _ _ _ (ticked (dt := dt) (d := []) hn) (fun i hi => by
    have h1 : (i : Int) + 1 < (j + 1 : ℕ) := by exact_mod_cast Nat.succ_lt_succ hi
    have := mul_lt_mul_of_pos_right h1 hdt
    linarith)
  refine ⟨xf, ?_, ?_⟩
  · have e1 : v + seconds dt * (2 * seconds t) + j * seconds dt * (2 * seconds t) =
        v + (j + 1 : ℕ) * seconds dt * (2 * seconds t) := by push_cast; ring
    have e2 : t + dt + j * dt = t + (j + 1 : ℕ) * dt := by push_cast; ring
    rw [e1, e2] at hxf
    exact hxf
  · unfold runOver
    rw [h]
    exact hrun

/-- Runs over whole intervals. -/
theorem Demo.delayed_run {call : ABOver DataArray → Unit × UFW (Dict DataArray × Dict DataArray) → EState DataArray →
    Int → ABOver DataArray × (Unit × UFW (Dict DataArray × Dict DataArray)) × EState DataArray ×
      Except Err (Dict DataArray × EState DataArray)} {dt : Int} (hE : Demo.TakesEuler call dt)
    (hdt : 0 < dt) {m : Nat} (hm : 1 ≤ m) (N : Nat) : ∃ abf sf xf a,
    runOver call (Demo.ticks dt) dt (N * m) { order := 1 } ((), { delta := m * dt }) (Demo.scalarAt 0 0) = (abf, sf, .ok xf) ∧
    Dict.get? xf "T" = some (.da a) ∧
    ∀ ix, a.at' ix = (N * seconds (m * dt)) ^ 2 - N * seconds (m * dt) * seconds (m * dt) := by
  have key : ∀ N : Nat, ∃ ts c xf, (ts = none ∨ ts = some dt) ∧ c.delta = m * dt ∧
      (c.last = none ∨ ∃ tl, c.last = some tl ∧ tl + m * dt ≤ N * (m * dt)) ∧
      (xf = Demo.scalarAt (N * (N - 1) * seconds (m * dt) ^ 2) (N * (m * dt)) ∨
        xf = Demo.atScalar (N * (N - 1) * seconds (m * dt) ^ 2) (N * (m * dt))) ∧
      runOver call (Demo.ticks dt) dt (N * m) { order := 1 } ((), { delta := m * dt }) (Demo.scalarAt 0 0) =
          ({ order := 1, timestep := ts }, ((), c), .ok xf) := by
    intro N
    induction N with
    | zero =>
      refine ⟨none, { delta := m * dt }, Demo.scalarAt 0 0, Or.inl rfl, rfl, Or.inl rfl, Or.inl (by simp), ?_⟩
      rw [Nat.zero_mul]
      rfl
    | succ N ih =>
      obtain ⟨ts, c, x, hts, hd, hl, hx, hrun⟩ := ih
      obtain ⟨xf, hxf, hint⟩ := Demo.delayed_interval hE hdt hm hts hx hd hl
      refine ⟨some dt, Demo.updatedAt (m * dt) (N * (m * dt)), xf, Or.inr rfl, rfl,
        Or.inr ⟨N * (m * dt), rfl, le_of_eq (by push_cast; ring)⟩, ?_, ?_⟩
      · have e1 : (N * (N - 1) * seconds (m * dt) ^ 2 + m * seconds dt * (2 * seconds (N * (m * dt))) : Rat) =
            (N + 1 : ℕ) * ((N + 1 : ℕ) - 1) * seconds (m * dt) ^ 2 := by
          unfold seconds
          push_cast
          ring
        have e2 : (N * (m * dt) + m * dt : Int) = (N + 1 : ℕ) * (m * dt) := by push_cast; ring
        rw [e1, e2] at hxf
        exact hxf
      · rw [Nat.succ_mul, runOver_add _ _ _ _ _ hrun]
        exact hint
  obtain ⟨ts, c, xf, _, _, _, hxf, hrun⟩ := key N
  have e : (N * (N - 1) * seconds (m * dt) ^ 2 : Rat) =
      (N * seconds (m * dt)) ^ 2 - N * seconds (m * dt) * seconds (m * dt) := by ring
  rw [e] at hxf
  rcases hxf with rfl | rfl
  · exact ⟨_, _, _, _, hrun, rfl, fun ix => rfl⟩
  · exact ⟨_, _, _, _, hrun, rfl, fun ix => rfl⟩

/-- C131: with the tendency `2 t` in an UpdateFrequencyWrapper with the time `delta = m dt` between updates, from 0 at the
time 0, every run of AdamsBashforth of order 1 and of SSPRungeKutta with two or three stages over `N` intervals succeeds and
ends at `T^2 - T delta`, `T = N delta`: off the solution `T^2` by exactly `T delta`, however short the timestep. -/
theorem updates_no_better_order (R : Registry) {dt : Int} (hdt : 0 < dt) {m : Nat} (hm : 1 ≤ m) (N : Nat) :
    (∃ abf sf xf a, runOver (tsCallO (dataArrayArith R) [] [] "" false (abCallO (dataArrayArith R)
        (updatingO false Demo.warming))) (Demo.ticks dt) dt (N * m) { order := 1 } ((), { delta := m * dt })
        (Demo.scalarAt 0 0) = (abf, sf, .ok xf) ∧ Dict.get? xf "T" = some (.da a) ∧
      ∀ ix, a.at' ix = (N * seconds (m * dt)) ^ 2 - N * seconds (m * dt) * seconds (m * dt)) ∧
    ∀ three, ∃ abf sf xf a, runOver (tsCallO (dataArrayArith R) [] [] "" false (sspCallO (dataArrayArith R)
        (updatingO false Demo.warming) three)) (Demo.ticks dt) dt (N * m) { order := 1 } ((), { delta := m * dt })
        (Demo.scalarAt 0 0) = (abf, sf, .ok xf) ∧ Dict.get? xf "T" = some (.da a) ∧
      ∀ ix, a.at' ix = (N * seconds (m * dt)) ^ 2 - N * seconds (m * dt) * seconds (m * dt) :=
  ⟨Demo.delayed_run (Demo.ab_takes_euler R dt) hdt hm N,
    fun three => Demo.delayed_run (Demo.ssprk_takes_euler R three dt) hdt hm N⟩

/-- three intervals of four steps of half a second: 36 - 12 -/
example : Exc.test (runOver (tsCallO (dataArrayArith Demo.reg) [] [] "" false (abCallO (dataArrayArith Demo.reg)
      (updatingO false Demo.warming))) (Demo.ticks 500000) 500000 12 { order := 1 } ((), { delta := 2000000 })
      (Demo.scalarAt 0 0)).2.2
    (fun x => Exc.test (EState.da x "T") (fun a => a.at' (fun _ => 0) == 24)) = true := by
  decide +kernel

end Verif
