import Verif.Props.UpdateDelay
/-! # The delay by UpdateFrequencyWrapper costs first order with Leapfrog too: property C131 -/

namespace Verif

/-- the state with the value `v` at the time `t`, in either order of its names -/
def Demo.IsScalar (v : Rat) (t : Int) (x : EState DataArray) : Prop := x = Demo.scalarAt v t ∨ x = Demo.atScalar v t

/-- The calls of a Leapfrog without filter for the delayed tendency `2 t`. -/
def Demo.leapCall (R : Registry) := tsCallO (dataArrayArith R) [] [] "" false
  (LFOver.call (dataArrayArith R) (updatingO false Demo.warming))

/-- The values of a step from `ov` and `v`; the filter adds a multiple of its strength 0. -/
theorem Demo.leap_values (R : Registry) (dt : Int) (v : Rat) (t tl : Int) (ov : Rat) (ot : Int) {old x : EState DataArray}
    (hold : Demo.IsScalar ov ot old) (hx : Demo.IsScalar v t x) :
    ∃ y, Demo.IsScalar (v + 1 / 2 * (1 / 2 * 0 * (ov - 2 * v + (ov + seconds dt * (2 * (2 * seconds tl)))))) t y ∧
      stepLeapfrogO (dataArrayArith R) 0 (1 / 2) old (Demo.warmth tl).1 dt ["T"] x [] =
        (y, .ok (Demo.scalarT (ov + seconds dt * (2 * (2 * seconds tl)) +
          (1 / 2 - 1) * (1 / 2 * 0 * (ov - 2 * v + (ov + seconds dt * (2 * (2 * seconds tl)))))))) := by
  have hne : (1 / 2 : Rat) ≠ 1 := by norm_num
  rcases hx with rfl | rfl
  · refine ⟨_, Or.inl rfl, ?_⟩
    simp only [stepLeapfrogO, leapfrogEntryO, if_pos hne]
    rcases hold with rfl | rfl <;> rfl
  · refine ⟨_, Or.inr rfl, ?_⟩
    simp only [stepLeapfrogO, leapfrogEntryO, if_pos hne]
    rcases hold with rfl | rfl <;> rfl

/-- One step, from the state `o` remembered if there is one. -/
theorem Demo.leap_step (R : Registry) {dt : Int} {v : Rat} {t tl delta : Int} {ts : Option Int} {o : Option (EState DataArray)}
    {x : EState DataArray} {c : UFW (Dict DataArray × Dict DataArray)} (hts : ts = none ∨ ts = some dt)
    (ho : o = none ∨ ∃ ov ot old, o = some old ∧ Demo.IsScalar ov ot old) (hx : Demo.IsScalar v t x)
    (hc : updatingO false Demo.warming ((), c) x dt = (((), Demo.updatedAt delta tl), .ok (Demo.warmth tl))) :
    ∃ v1 y new, Demo.IsScalar v t y ∧ Demo.IsScalar v1 t new ∧
      (∀ ov ot old, o = some old → Demo.IsScalar ov ot old → v1 = ov + seconds dt * (2 * (2 * seconds tl))) ∧
      Demo.leapCall R { strength := 0, alpha := 1 / 2, timestep := ts, old := o } ((), c) x dt =
        ({ strength := 0, alpha := 1 / 2, timestep := some dt, old := some y }, ((), Demo.updatedAt delta tl), y,
          .ok ([], new)) := by
  rcases ho with rfl | ⟨ov, ot, old, rfl, hold⟩
  · have h : LFOver.call (dataArrayArith R) (updatingO false Demo.warming)
        { strength := 0, alpha := 1 / 2, timestep := ts, old := none } ((), c) x dt =
        ({ strength := 0, alpha := 1 / 2, timestep := some dt, old := some x }, ((), Demo.updatedAt delta tl), x,
          .ok ([], Demo.atScalar (v + seconds dt * (2 * seconds tl)) t)) := by
      unfold LFOver.call
      rw [if_pos hts, hc]
      rcases hx with rfl | rfl <;> rfl
    refine ⟨_, x, Demo.atScalar (v + seconds dt * (2 * seconds tl)) t, hx, Or.inr rfl, (fun _ _ _ e => absurd e (by simp)), ?_⟩
    unfold Demo.leapCall tsCallO
    rw [h]
    rcases hx with rfl | rfl <;> rfl
  · have h : ∃ v' n' y new, v' = v ∧ n' = ov + seconds dt * (2 * (2 * seconds tl)) ∧ Demo.IsScalar v' t y ∧
        Demo.IsScalar n' t new ∧ Demo.leapCall R
        { strength := 0, alpha := 1 / 2, timestep := ts, old := some old } ((), c) x dt =
        ({ strength := 0, alpha := 1 / 2, timestep := some dt, old := some y }, ((), Demo.updatedAt delta tl), y,
          .ok ([], new)) := by
      refine ⟨v + 1 / 2 * (1 / 2 * 0 * (ov - 2 * v + (ov + seconds dt * (2 * (2 * seconds tl))))),
        ov + seconds dt * (2 * (2 * seconds tl)) +
          (1 / 2 - 1) * (1 / 2 * 0 * (ov - 2 * v + (ov + seconds dt * (2 * (2 * seconds tl))))), ?_⟩
      obtain ⟨y, hy, hp⟩ := Demo.leap_values R dt v t tl ov ot hold hx
      have hconv : convertTendenciesO (dataArrayArith R) x (Demo.warmth tl).1 = .ok (Demo.warmth tl).1 := by
        rcases hx with rfl | rfl <;> rfl
      have hk : Dict.keys (Demo.warmth tl).1 = ["T"] := rfl
      refine ⟨y, _, by ring, by ring, hy, Or.inr rfl, ?_⟩
      unfold Demo.leapCall tsCallO LFOver.call
      rw [if_pos hts, hc]
      simp only [hconv, hk, hp]
      rcases hy with rfl | rfl <;> rfl
    obtain ⟨v', n', y, new, rfl, rfl, hy, hn, h⟩ := h
    refine ⟨_, y, new, hy, hn, ?_, h⟩
    intro ov' ot' old' e h'
    cases e
    have : ov' = ov := by
      have e1 : ∀ {w s} {z : EState DataArray}, Demo.IsScalar w s z →
          EState.da z "T" >>= (fun a => .ok (a.at' (fun _ => 0))) = (.ok w : Except Err Rat) := by
        rintro w s z (rfl | rfl) <;> rfl
      have := (e1 h').symm.trans (e1 hold)
      cases this
      rfl
    rw [this]

private theorem ticked {v : Rat} {t dt : Int} {d : Dict DataArray} {x : EState DataArray}
    (hx : Demo.IsScalar v t x) : Demo.IsScalar v (t + dt) (Demo.ticks dt d x) := by
  rcases hx with rfl | rfl
  · exact Or.inl rfl
  · exact Or.inr rfl

/-- Two steps, the second before the next update. -/
theorem Demo.leap_pair (R : Registry) {dt : Int} {v : Rat} {t tl delta : Int} {ts : Option Int} {o : Option (EState DataArray)}
    {x : EState DataArray} {c : UFW (Dict DataArray × Dict DataArray)} (hts : ts = none ∨ ts = some dt)
    (ho : o = none ∨ ∃ ov ot old, o = some old ∧ Demo.IsScalar ov ot old) (hx : Demo.IsScalar v t x)
    (hc : updatingO false Demo.warming ((), c) x dt = (((), Demo.updatedAt delta tl), .ok (Demo.warmth tl)))
    (hlt : t + dt < tl + delta) : ∃ o' xf, (∃ ov ot old, o' = some old ∧ Demo.IsScalar ov ot old) ∧
      Demo.IsScalar (v + 2 * seconds dt * (2 * seconds tl)) (t + 2 * dt) xf ∧
      runOver (Demo.leapCall R) (Demo.ticks dt) dt 2 { strength := 0, alpha := 1 / 2, timestep := ts, old := o } ((), c) x =
        ({ strength := 0, alpha := 1 / 2, timestep := some dt, old := o' }, ((), Demo.updatedAt delta tl), .ok xf) := by
  obtain ⟨v1, y, n1, hy, hn1, _, h1⟩ := Demo.leap_step R hts ho hx hc
  have hx1 := ticked (dt := dt) (d := []) hn1
  obtain ⟨v2, y2, n2, hy2, hn2, hv2, h2⟩ := Demo.leap_step R (Or.inr rfl) (Or.inr ⟨v, t, y, rfl, hy⟩) hx1
    (Demo.warming_waits hx1 hlt)
  have hx2 := ticked (dt := dt) (d := []) hn2
  rw [hv2 v t y rfl hy] at hx2
  rw [show v + seconds dt * (2 * (2 * seconds tl)) = v + 2 * seconds dt * (2 * seconds tl) by ring,
    show t + dt + dt = t + 2 * dt by ring] at hx2
  refine ⟨some y2, _, ⟨_, _, y2, rfl, hy2⟩, hx2, ?_⟩
  unfold runOver
  rw [h1]
  dsimp only
  unfold runOver
  rw [h2]
  rfl

/-- Pairs of steps before the next update. -/
theorem Demo.leap_rest (R : Registry) (dt delta tl : Int) (hdt : 0 < dt) : ∀ (j : Nat) (v : Rat) (t : Int)
    (o : Option (EState DataArray)) (x : EState DataArray), (∃ ov ot old, o = some old ∧ Demo.IsScalar ov ot old) →
    Demo.IsScalar v t x → t + (2 * j : ℕ) * dt ≤ tl + delta → ∃ o' xf,
      (∃ ov ot old, o' = some old ∧ Demo.IsScalar ov ot old) ∧
      Demo.IsScalar (v + (2 * j : ℕ) * seconds dt * (2 * seconds tl)) (t + (2 * j : ℕ) * dt) xf ∧
      runOver (Demo.leapCall R) (Demo.ticks dt) dt (2 * j)
          { strength := 0, alpha := 1 / 2, timestep := some dt, old := o } ((), Demo.updatedAt delta tl) x =
        ({ strength := 0, alpha := 1 / 2, timestep := some dt, old := o' }, ((), Demo.updatedAt delta tl), .ok xf) := by
  intro j
  induction j with
  | zero =>
    intro v t o x ho hx _
    refine ⟨o, x, ho, ?_, rfl⟩
    simpa using hx
  | succ j ih =>
    intro v t o x ho hx hle
    have hj : (0 : Int) ≤ (2 * j : ℕ) * dt := mul_nonneg (by positivity) hdt.le
    have e : ((2 * (j + 1) : ℕ) : Int) * dt = (2 * j : ℕ) * dt + 2 * dt := by push_cast; ring
    rw [e] at hle
    obtain ⟨o1, x1, ho1, hx1, h1⟩ := Demo.leap_pair R (dt := dt) (delta := delta) (tl := tl) (Or.inr rfl) (Or.inr ho) hx
      (Demo.warming_waits hx (by linarith)) (by linarith)
    obtain ⟨o2, x2, ho2, hx2, h2⟩ := ih _ _ o1 x1 ho1 hx1 (by linarith)
    refine ⟨o2, x2, ho2, ?_, ?_⟩
    · have e1 : v + 2 * seconds dt * (2 * seconds tl) + (2 * j : ℕ) * seconds dt * (2 * seconds tl) =
          v + (2 * (j + 1) : ℕ) * seconds dt * (2 * seconds tl) := by push_cast; ring
      have e2 : t + 2 * dt + (2 * j : ℕ) * dt = t + (2 * (j + 1) : ℕ) * dt := by push_cast; ring
      rw [e1, e2] at hx2
      exact hx2
    · rw [show 2 * (j + 1) = 2 + 2 * j by ring, runOver_add _ _ _ _ _ h1]
      exact h2

/-- C131 for Leapfrog without filter, for every even number `m` of timesteps between updates: with the tendency `2 t` in an
UpdateFrequencyWrapper with the time `delta = m dt` between updates, from 0 at the time 0, every run over `N` intervals succeeds
and ends at `T^2 - T delta`, `T = N delta`. -/
theorem leapfrog_updates_no_better_order (R : Registry) {dt : Int} (hdt : 0 < dt) {m : Nat} (hm : 1 ≤ m) (he : 2 ∣ m) (N : Nat) :
    ∃ lff sf xf a, runOver (tsCallO (dataArrayArith R) [] [] "" false (LFOver.call (dataArrayArith R)
        (updatingO false Demo.warming))) (Demo.ticks dt) dt (N * m) { strength := 0, alpha := 1 / 2 }
        ((), { delta := m * dt }) (Demo.scalarAt 0 0) = (lff, sf, .ok xf) ∧ Dict.get? xf "T" = some (.da a) ∧
      ∀ ix, a.at' ix = (N * seconds (m * dt)) ^ 2 - N * seconds (m * dt) * seconds (m * dt) := by
  have key : ∀ N : Nat, ∃ ts o c xf, (ts = none ∨ ts = some dt) ∧
      (o = none ∨ ∃ ov ot old, o = some old ∧ Demo.IsScalar ov ot old) ∧ c.delta = m * dt ∧
      (c.last = none ∨ ∃ tl, c.last = some tl ∧ tl + m * dt ≤ N * (m * dt)) ∧
      Demo.IsScalar (N * (N - 1) * seconds (m * dt) ^ 2) (N * (m * dt)) xf ∧
      runOver (Demo.leapCall R) (Demo.ticks dt) dt (N * m) { strength := 0, alpha := 1 / 2 } ((), { delta := m * dt })
          (Demo.scalarAt 0 0) = ({ strength := 0, alpha := 1 / 2, timestep := ts, old := o }, ((), c), .ok xf) := by
    intro N
    induction N with
    | zero =>
      refine ⟨none, none, { delta := m * dt }, Demo.scalarAt 0 0, Or.inl rfl, Or.inl rfl, rfl, Or.inl rfl,
        Or.inl (by simp), ?_⟩
      rw [Nat.zero_mul]
      rfl
    | succ N ih =>
      obtain ⟨ts, o, c, x, hts, ho, hd, hl, hx, hrun⟩ := ih
      obtain ⟨j, hj⟩ : ∃ j, m = 2 + 2 * j := by
        obtain ⟨k, rfl⟩ := he
        exact ⟨k - 1, by omega⟩
      have hmd : (m * dt : Int) = 2 * dt + (2 * j : ℕ) * dt := by rw [hj]; push_cast; ring
      have hj0 : (0 : Int) ≤ (2 * j : ℕ) * dt := mul_nonneg (by positivity) hdt.le
      obtain ⟨o1, x1, ho1, hx1, h1⟩ := Demo.leap_pair R hts ho hx (Demo.warming_due hx hd hl) (by rw [hmd]; linarith)
      obtain ⟨o2, x2, ho2, hx2, h2⟩ := Demo.leap_rest R dt (m * dt) (N * (m * dt)) hdt j _ _ o1 x1 ho1 hx1 (by linarith)
      refine ⟨some dt, o2, Demo.updatedAt (m * dt) (N * (m * dt)), x2, Or.inr rfl, Or.inr ho2, rfl,
        Or.inr ⟨N * (m * dt), rfl, le_of_eq (by push_cast; ring)⟩, ?_, ?_⟩
      · have hmq : (m : Rat) = 2 + (2 * j : ℕ) := by rw [hj]; push_cast; ring
        have e1 : (N * (N - 1) * seconds (m * dt) ^ 2 + 2 * seconds dt * (2 * seconds (N * (m * dt))) +
            (2 * j : ℕ) * seconds dt * (2 * seconds (N * (m * dt))) : Rat) =
            (N + 1 : ℕ) * ((N + 1 : ℕ) - 1) * seconds (m * dt) ^ 2 := by
          have : (2 * seconds dt * (2 * seconds (N * (m * dt))) + (2 * j : ℕ) * seconds dt * (2 * seconds (N * (m * dt))) : Rat)
              = m * seconds dt * (2 * seconds (N * (m * dt))) := by rw [hmq]; ring
          rw [add_assoc, this]
          unfold seconds
          push_cast
          ring
        have e2 : (N * (m * dt) + 2 * dt + (2 * j : ℕ) * dt : Int) = (N + 1 : ℕ) * (m * dt) := by
          rw [add_assoc, ← hmd]
          push_cast
          ring
        rw [e1, e2] at hx2
        exact hx2
      · rw [Nat.succ_mul, runOver_add _ _ _ _ _ hrun]
        have h3 : m = 2 + 2 * j := hj
        have h4 := runOver_add (Demo.leapCall R) (Demo.ticks dt) dt 2 (2 * j) h1
        rw [← h3] at h4
        rw [h4]
        exact h2
  obtain ⟨ts, o, c, xf, _, _, _, _, hxf, hrun⟩ := key N
  have e : (N * (N - 1) * seconds (m * dt) ^ 2 : Rat) =
      (N * seconds (m * dt)) ^ 2 - N * seconds (m * dt) * seconds (m * dt) := by ring
  rw [e] at hxf
  rcases hxf with rfl | rfl
  · exact ⟨_, _, _, _, hrun, rfl, fun ix => rfl⟩
  · exact ⟨_, _, _, _, hrun, rfl, fun ix => rfl⟩

/-- two intervals of two steps of a second: 16 - 8 -/
example : Exc.test (runOver (tsCallO (dataArrayArith Demo.reg) [] [] "" false (LFOver.call (dataArrayArith Demo.reg)
      (updatingO false Demo.warming))) (Demo.ticks 1000000) 1000000 4 { strength := 0, alpha := 1 / 2 } ((), { delta := 2000000 })
      (Demo.scalarAt 0 0)).2.2
    (fun x => Exc.test (EState.da x "T") (fun a => a.at' (fun _ => 0) == 8)) = true := by
  decide +kernel

end Verif
