import Verif.Props.SSPRK
import Verif.Props.TendencyStepper
/-!
# C65: whole runs with steady tendencies

The usual loop `diagnostics, state = stepper(state, timestep)`, for any number of steps
and each of the time steppers.
-/

namespace Verif

variable {σ τ : Type}

/-- `n` times `diagnostics, state = stepper(state, timestep)`: the stepper, the
components' world and the state afterwards; `none` if a call raised. -/
def runSteps (call : τ → σ → State → Int → τ × σ × State × Except Err (Dict DataArray × State)) (dt : Int) :
    Nat → τ → σ → State → Option (τ × σ × State)
  | 0, x, s, state => some (x, s, state)
  | n + 1, x, s, state =>
    match call x s state dt with
    | (x', s', _, .ok (_, new)) => runSteps call dt n x' s' new
    | _ => none

/-- `_call` of SSPRungeKutta, which leaves the caller's state alone. -/
def sspCall (R : Registry) (prog : Prog σ) (three : Bool) (ab : AB) (s : σ) (state : State) (dt : Int) :
    AB × σ × State × Except Err (Dict DataArray × State) :=
  let r := ssprkCall R prog three ab s state dt
  (r.1, r.2.1, state, r.2.2)

/-- The state has quantity `q` in units `u`. -/
def HasUnits (state : State) (q u : String) : Prop :=
  ∃ x, Dict.get? state q = some (.da x) ∧ x.attrs.get? "units" = some u

/-- Whatever the state and their own memory, the components give quantity `q`, when it
is in units `u`, the tendency `c` in `u` per second. -/
def Steady (R : Registry) (prog : Prog σ) (dt : Int) (q u : String) (c : (String → Nat) → Rat) : Prop :=
  ∀ s state r t, HasUnits state q u → (prog s state dt).2 = .ok r → convertTendencies R state r.1 = .ok t →
    q ∈ Dict.keys t ∧ ∀ ix, tval t q ix = c ix

theorem runSteps_linear {call : τ → σ → State → Int → τ × σ × State × Except Err (Dict DataArray × State)}
    {dt : Int} {q : String} {c : (String → Nat) → Rat} (I : τ → State → Prop)
    (hstep : ∀ x s state x' s' st' diag new, I x state → call x s state dt = (x', s', st', .ok (diag, new)) →
      I x' new ∧ ∀ ix, State.val new q ix = State.val state q ix + seconds dt * c ix) :
    ∀ (n : Nat) (x : τ) (s : σ) (state : State) (x' : τ) (s' : σ) (final : State), I x state →
      runSteps call dt n x s state = some (x', s', final) →
      I x' final ∧ ∀ ix, State.val final q ix = State.val state q ix + n * (seconds dt * c ix) := by
  intro n
  induction n with
  | zero =>
    intro x s state x' s' final hI h
    unfold runSteps at h
    simp only [Option.some.injEq, Prod.mk.injEq] at h
    obtain ⟨rfl, rfl, rfl⟩ := h
    exact ⟨hI, fun ix => by simp⟩
  | succ n ih =>
    intro x s state x' s' final hI h
    unfold runSteps at h
    split at h
    · rename_i x1 s1 st1 d1 new hc
      obtain ⟨hI1, hv⟩ := hstep x s state x1 s1 st1 d1 new hI hc
      obtain ⟨hI2, hv2⟩ := ih x1 s1 new x' s' final hI1 h
      refine ⟨hI2, fun ix => ?_⟩
      rw [hv2 ix, hv ix]
      push_cast
      ring
    · cases h

theorem State.val_of_get {s : State} {q : String} {a : DataArray} (h : Dict.get? s q = some (.da a))
    (ix : String → Nat) : State.val s q ix = a.at' ix := by
  unfold State.val; rw [h]

/-! ## AdamsBashforth -/

theorem abFormula_const {m : Nat} (h1 : 1 ≤ m) (h4 : m ≤ 4) (x dt c : Rat) :
    abFormula m x dt (fun _ => c) = x + dt * c := by
  rcases (by omega : m = 1 ∨ m = 2 ∨ m = 3 ∨ m = 4) with rfl | rfl | rfl | rfl <;>
    simp [abFormula, abCoef, List.range_succ] <;> ring_nf <;> simp

/-- All tendencies remembered are the steady ones. -/
def SteadyHist (q : String) (c : (String → Nat) → Rat) (hist : List (Dict DataArray)) : Prop :=
  ∀ t ∈ hist, q ∈ Dict.keys t ∧ ∀ ix, tval t q ix = c ix

theorem ab_steady_call {R : Registry} {prog : Prog σ} {dt : Int} {q u : String} {c : (String → Nat) → Rat}
    (hS : Steady R prog dt q u c) {ab ab' : AB} {s s' : σ} {state : State} {diag : Dict DataArray} {new : State}
    (hh : SteadyHist q c ab.hist) (hu : HasUnits state q u)
    (h : AB.call R prog ab s state dt = (ab', s', .ok (diag, new))) :
    SteadyHist q c ab'.hist ∧ HasUnits new q u ∧
      ∀ ix, State.val new q ix = State.val state q ix + seconds dt * c ix := by
  cases ab_outcome R prog ab s state dt with
  | rejected hts hc ht => rw [hc] at h; cases h
  | early e hts hc ht => rw [hc] at h; cases h
  | late t e hts ht hp hc => rw [hc] at h; cases h
  | done t r new' hts hr hconv ht hp hc =>
    rw [hc] at h
    simp only [Prod.mk.injEq, Except.ok.injEq] at h
    obtain ⟨hab, rfl, rfl, rfl⟩ := h
    have hall : SteadyHist q c (ab.hist ++ [t]) := by
      intro t' ht'
      rcases List.mem_append.1 ht' with ht' | ht'
      · exact hh t' ht'
      · rw [List.mem_singleton] at ht'; subst ht'
        exact hS s state r _ hu hr hconv
    obtain ⟨m, hm, m1, m4, hk, hq⟩ := performStep_spec hp
    obtain ⟨_, c2, _⟩ := copyUntouched_spec state new'
    have hlen : m ≤ (ab.hist ++ [t]).length := by rw [hm]; exact Nat.min_le_right _ _
    have hmem : q ∈ Dict.keys new' := by
      rw [hk]
      by_cases h1 : m = 1
      · rw [if_pos h1]
        simp only [List.getLast?_append, List.getLast?_singleton, Option.some_or, Option.getD_some]
        exact (hall t (by simp)).1
      · rw [if_neg h1]
        cases hh' : ab.hist ++ [t] with
        | nil => simp at hh'
        | cons t0 l =>
          exact (hall t0 (by rw [hh']; simp)).1
    obtain ⟨x, r', hx, hr', ha, _, hj, hval⟩ := hq q hmem
    have hn : Dict.get? (copyUntouched state new') q = some (.da r') := by rw [c2 q hmem]; exact hr'
    refine ⟨?_, ?_, ?_⟩
    · rw [← hab]
      split
      · intro t' ht'; exact hall t' (List.mem_of_mem_tail ht')
      · exact hall
    · obtain ⟨x', hx', hux⟩ := hu
      rw [hx] at hx'; cases hx'
      exact ⟨r', hn, by rw [ha]; exact hux⟩
    · intro ix
      rw [State.val_of_get hn, State.val_of_get hx, hval ix]
      have hpast : (List.range m).map (fun j => abCoef m j * tval ((ab.hist ++ [t]).reverse.getD j []) q ix) =
          (List.range m).map (fun j => abCoef m j * c ix) := by
        apply List.map_congr_left
        intro j hj'
        rw [List.mem_range] at hj'
        have hjl : j < (ab.hist ++ [t]).reverse.length := by rw [List.length_reverse]; omega
        have : (ab.hist ++ [t]).reverse.getD j [] ∈ ab.hist ++ [t] := by
          rw [← List.mem_reverse, List.getD_eq_getElem?_getD, List.getElem?_eq_getElem hjl]
          exact List.getElem_mem hjl
        rw [(hall _ this).2 ix]
      unfold abFormula
      rw [hpast]
      exact abFormula_const m1 m4 (x.at' ix) (seconds dt) (c ix)

/-- **C65, AdamsBashforth** of any order, through `TendencyStepper.__call__`: from a
new stepper, after `n` steps the quantity has changed by `n` times the timestep times
the tendency. -/
theorem ab_steady_run {R : Registry} {prog : Prog σ} {dt : Int} {q u : String} {c : (String → Nat) → Rat}
    (hS : Steady R prog dt q u c) {inProps outProps : PropDict} {inst : String} {tid : Bool}
    (k : Int) (ab : AB) (hk : AB.make k = .ok ab) (n : Nat) (s s' : σ) (state final : State) (ab' : AB)
    (hu : HasUnits state q u)
    (h : runSteps (tsCall R inProps outProps inst tid (abCall R prog)) dt n ab s state = some (ab', s', final)) :
    HasUnits final q u ∧ ∀ ix, State.val final q ix = State.val state q ix + n * (seconds dt * c ix) := by
  have hh : SteadyHist q c ab.hist := by
    unfold AB.make at hk
    split at hk
    · injection hk with hk; subst hk
      intro t ht; cases ht
    · cases hk
  have := runSteps_linear (q := q) (c := c) (fun (ab : AB) state => SteadyHist q c ab.hist ∧ HasUnits state q u)
    (fun x s state x' s' st' diag new hI hc => by
      obtain ⟨⟨d, o⟩, ho, _, hst⟩ := tsCall_state hc
      unfold abCall at ho
      simp only [Prod.mk.injEq] at ho
      obtain ⟨h1, h2, rfl, h3⟩ := ho
      have hcall : AB.call R prog x s state dt = (x', s', .ok (d, o)) := Prod.ext h1 (Prod.ext h2 h3)
      obtain ⟨e1, e2, e3⟩ := ab_steady_call hS hI.1 hI.2 hcall
      obtain ⟨_, _, _, hkeys, _⟩ := ab_untouched h3
      have hg := hst (fun q hq => (hkeys q).2 hq) q
      refine ⟨⟨e1, ?_⟩, fun ix => ?_⟩
      · obtain ⟨y, hy, hyu⟩ := e2; exact ⟨y, by rw [hg]; exact hy, hyu⟩
      · rw [State.val_congr hg]; exact e3 ix)
    n ab s state ab' s' final ⟨hh, hu⟩ h
  exact ⟨this.1.2, this.2⟩

/-! ## Leapfrog -/

/-- The remembered state is one step behind. -/
def OneBehind (dt : Int) (q u : String) (c : (String → Nat) → Rat) (lf : LF) (state : State) : Prop :=
  ∀ old, lf.old = some old → HasUnits old q u ∧
    ∀ ix, State.val old q ix = State.val state q ix - seconds dt * c ix

/-- **C65, Leapfrog**, with any filter: steady tendencies are integrated exactly and the
filter changes nothing. -/
theorem lf_steady_run {R : Registry} {prog : Prog σ} (hd : prog.Dicts) {dt : Int} {q u : String}
    {c : (String → Nat) → Rat} (hS : Steady R prog dt q u c) {inProps outProps : PropDict} {inst : String}
    {tid : Bool} (strength alpha : Rat) (n : Nat) (s s' : σ) (state final : State) (lf' : LF)
    (hu : HasUnits state q u)
    (h : runSteps (tsCall R inProps outProps inst tid (LF.call R prog)) dt n
      { strength := strength, alpha := alpha } s state = some (lf', s', final)) :
    HasUnits final q u ∧ ∀ ix, State.val final q ix = State.val state q ix + n * (seconds dt * c ix) := by
  have := runSteps_linear (q := q) (c := c)
    (fun (lf : LF) state => OneBehind dt q u c lf state ∧ HasUnits state q u)
    (fun x s state x' s' st' diag new hI hc => by
      obtain ⟨⟨d, o⟩, ho, _, hst⟩ := tsCall_state hc
      obtain ⟨_, _, _, hkeys, hkeys', _⟩ := lf_untouched hd ho
      have hg := hst (fun q hq => (hkeys q).2 ((hkeys' q).1 hq)) q
      have hlt : ∀ t, lfTendency R prog x s state dt = some t → q ∈ Dict.keys t ∧ ∀ ix, tval t q ix = c ix := by
        intro t ht
        unfold lfTendency abTendency at ht
        split at ht
        · cases hr : (prog s state dt).2 with
          | error e => rw [hr] at ht; cases ht
          | ok r =>
            rw [hr] at ht
            dsimp only at ht
            cases hcv : convertTendencies R state r.1 with
            | error e => rw [hcv] at ht; cases ht
            | ok t' =>
              rw [hcv] at ht
              injection ht with ht; subst ht
              exact hS s state r _ hI.2 hr hcv
        · cases ht
      cases hold : x.old with
      | none =>
        obtain ⟨rfl, hlf, t, ht, hst1⟩ := leapfrog_first_call ho hold
        obtain ⟨hq, htv⟩ := hlt t ht
        obtain ⟨a, b, ha, hb, hab, hval⟩ := hst1 q hq
        obtain ⟨a', ha', hua⟩ := hI.2
        rw [ha] at ha'; cases ha'
        have hnew : Dict.get? new q = some (.da b) := by rw [hg]; exact hb
        have hv : ∀ ix, State.val new q ix = State.val st' q ix + seconds dt * c ix := by
          intro ix; rw [State.val_of_get hnew, State.val_of_get ha, hval ix, htv ix]
        refine ⟨⟨?_, b, hnew, by rw [hab]; exact hua⟩, hv⟩
        intro old hold'
        rw [hlf] at hold'
        injection hold' with hold'
        subst hold'
        exact ⟨⟨a, ha, hua⟩, fun ix => by rw [hv ix]; ring⟩
      | some old =>
        obtain ⟨hlf, t, ht, hst1⟩ := leapfrog_later_call hd ho hold
        obtain ⟨hq, htv⟩ := hlt t ht
        obtain ⟨a, b, b', m, ha, hb, hb', hm, hab, _, hma, hval⟩ := hst1 q hq
        obtain ⟨⟨a', ha', hua⟩, hbeh⟩ := hI.1 old hold
        rw [ha] at ha'; cases ha'
        obtain ⟨b0, hb0, hub⟩ := hI.2
        rw [hb] at hb0; cases hb0
        have hnew : Dict.get? new q = some (.da m) := by rw [hg]; exact hm
        have hδ : ∀ ix, b'.at' ix = b.at' ix ∧ m.at' ix = b.at' ix + seconds dt * c ix := by
          intro ix
          obtain ⟨h1, h2, _⟩ := hval ix
          have hba := hbeh ix
          rw [State.val_of_get ha, State.val_of_get hb] at hba
          rw [htv ix] at h1 h2
          rw [h1, h2, hba]
          unfold filterDisplacement
          constructor <;> ring
        have hv : ∀ ix, State.val new q ix = State.val state q ix + seconds dt * c ix := by
          intro ix; rw [State.val_of_get hnew, State.val_of_get hb]; exact (hδ ix).2
        refine ⟨⟨?_, m, hnew, by rw [hma]; exact hua⟩, hv⟩
        intro old' hold'
        rw [hlf] at hold'
        injection hold' with hold'
        subst hold'
        refine ⟨⟨b', hb', by rw [hab]; exact hub⟩, fun ix => ?_⟩
        rw [hv ix, State.val_of_get hb', State.val_of_get hb, (hδ ix).1]; ring)
    n _ s state lf' s' final ⟨fun old h => (by cases h), hu⟩ h
  exact ⟨this.1.2, this.2⟩

/-! ## SSPRungeKutta -/

theorem ab_order (R : Registry) (prog : Prog σ) (ab : AB) (s : σ) (state : State) (dt : Int) :
    (AB.call R prog ab s state dt).1.order = ab.order := by
  cases ab_outcome R prog ab s state dt with
  | rejected hts hc ht => rw [hc]
  | early e hts hc ht => rw [hc]
  | late t e hts ht hp hc => rw [hc]
  | done t r new' hts hr hconv ht hp hc => rw [hc]; dsimp only; split <;> rfl

theorem euler_order {R : Registry} {prog : Prog σ} {ab ab' : AB} {s s' : σ} {state : State} {dt : Int}
    {r : Except Err (Dict DataArray × State)} (h : eulerCall R prog ab s state dt = (ab', s', r)) :
    ab'.order = ab.order := by
  unfold eulerCall at h
  simp only [Prod.mk.injEq] at h
  rw [← h.1]; exact ab_order R prog ab s state dt

theorem ssprk_order {R : Registry} {prog : Prog σ} {three : Bool} {ab ab' : AB} {s s' : σ} {state : State} {dt : Int}
    {r : Except Err (Dict DataArray × State)} (h : ssprkCall R prog three ab s state dt = (ab', s', r)) :
    ab'.order = ab.order := by
  unfold ssprkCall at h
  cases three with
  | true =>
    simp only [if_true] at h
    unfold ssprk3 at h
    split at h
    · rename_i h1; cases h; exact euler_order h1
    · rename_i h1
      split at h
      · rename_i h2; cases h; exact (euler_order h2).trans (euler_order h1)
      · rename_i h2
        split at h
        · cases h; exact (euler_order h2).trans (euler_order h1)
        · split at h
          · rename_i h3; cases h; exact (euler_order h3).trans ((euler_order h2).trans (euler_order h1))
          · rename_i h3; cases h; exact (euler_order h3).trans ((euler_order h2).trans (euler_order h1))
  | false =>
    simp only [Bool.false_eq_true, if_false] at h
    unfold ssprk2 at h
    split at h
    · rename_i h1; cases h; exact euler_order h1
    · rename_i h1
      split at h
      · rename_i h2; cases h; exact (euler_order h2).trans (euler_order h1)
      · rename_i h2; cases h; exact (euler_order h2).trans (euler_order h1)

theorem HasUnits.of_sameAttrs {s t : State} {q u : String} (h : HasUnits s q u) (hs : SameAttrs s t) :
    HasUnits t q u := by
  obtain ⟨x, hx, hu⟩ := h
  obtain ⟨y, hy, e⟩ := hs q x hx
  exact ⟨y, hy, by rw [e]; exact hu⟩

theorem tsCall_new {R : Registry} {inProps outProps : PropDict} {inst : String} {tid : Bool}
    {call : τ → σ → State → Int → τ × σ × State × Except Err (Dict DataArray × State)}
    {x x' : τ} {s s' : σ} {state st' : State} {dt : Int} {diag : Dict DataArray} {new : State}
    (h : tsCall R inProps outProps inst tid call x s state dt = (x', s', st', .ok (diag, new))) :
    ∃ o, call x s state dt = (x', s', st', .ok o) ∧ new = copyUntouched st' o.2 := by
  unfold tsCall at h
  simp only [Prod.mk.injEq] at h
  obtain ⟨h1, h2, h3, h⟩ := h
  obtain ⟨o, ho, h⟩ := Exc.bind_ok_iff.1 h
  obtain ⟨dg, hdg, h⟩ := Exc.bind_ok_iff.1 h
  simp only [Except.ok.injEq, Prod.mk.injEq] at h
  subst h1 h2 h3
  exact ⟨o, Prod.ext rfl (Prod.ext rfl (Prod.ext rfl ho)), h.2.symm⟩

theorem ssprkCall_spec {R : Registry} {prog : Prog σ} (hd : prog.Dicts) {three : Bool} {ab ab' : AB} {s s' : σ}
    {state : State} {dt : Int} {diag : Dict DataArray} {out : State} (hord : ab.order = 1)
    (hnd : (Dict.keys state).Nodup) (hT : state.TimeOk)
    (h : ssprkCall R prog three ab s state dt = (ab', s', .ok (diag, out))) :
    SSPSpec R prog (if three then shuOsher else heun) s state dt s' diag out := by
  unfold ssprkCall at h
  cases three with
  | true => exact ssprk3_ok hd hord hnd hT h
  | false => exact ssprk2_ok hd hord hnd hT h

/-- **C65, SSPRungeKutta** with two or three stages. -/
theorem ssprk_steady_run {R : Registry} {prog : Prog σ} (hd : prog.Dicts) {dt : Int} {q u : String}
    {c : (String → Nat) → Rat} (hS : Steady R prog dt q u c) {inProps outProps : PropDict} {inst : String}
    {tid : Bool} (three : Bool) (n : Nat) (s s' : σ) (state final : State) (ab' : AB)
    (hnd : (Dict.keys state).Nodup) (hT : state.TimeOk) (hu : HasUnits state q u)
    (h : runSteps (tsCall R inProps outProps inst tid (sspCall R prog three)) dt n { order := 1 } s state =
      some (ab', s', final)) :
    HasUnits final q u ∧ ∀ ix, State.val final q ix = State.val state q ix + n * (seconds dt * c ix) := by
  have := runSteps_linear (q := q) (c := c)
    (fun (ab : AB) state => (ab.order = 1 ∧ (Dict.keys state).Nodup ∧ state.TimeOk) ∧ HasUnits state q u)
    (fun x s state x' s' st' diag new hI hc => by
      obtain ⟨⟨hord, hnd, hT⟩, hu⟩ := hI
      obtain ⟨⟨d, o⟩, ho, rfl⟩ := tsCall_new hc
      unfold sspCall at ho
      simp only [Prod.mk.injEq] at ho
      obtain ⟨h1, h2, rfl, h3⟩ := ho
      have hcall : ssprkCall R prog three x s state dt = (x', s', .ok (d, o)) := Prod.ext h1 (Prod.ext h2 h3)
      have S := ssprkCall_spec hd hord hnd hT hcall
      obtain ⟨c1, c2, c3⟩ := copyUntouched_spec state o
      have hget : ∀ p, Dict.get? (copyUntouched state o) p = Dict.get? o p := by
        intro p
        by_cases hp : p ∈ Dict.keys o
        · exact c2 p hp
        · rw [c3 p hp, (Dict.get?_eq_none_iff _ _).2 hp,
            (Dict.get?_eq_none_iff _ _).2 (fun h => hp ((S.keys p).2 h))]
      obtain ⟨Y, K, W, D, hY0, _, _, _, hst, hattr, hout⟩ := S.step
      have hK : ∀ i < (if three then shuOsher else heun).stages, ∀ ix, tval (K i) q ix = c ix := by
        intro i hi
        obtain ⟨⟨r, hr, hcv, _⟩, _, _, hat, _⟩ := hst i hi
        exact (hS (W i) (Y i) r (K i) (hu.of_sameAttrs hat) (by rw [hr]) hcv).2
      refine ⟨⟨⟨(ssprk_order hcall).trans hord, nodup_copyUntouched _ _ S.nodup,
        TimeOk.congr ((hget "time").trans S.time) hT⟩, ?_⟩, fun ix => ?_⟩
      · obtain ⟨y, hy, e⟩ := hu.of_sameAttrs hattr
        exact ⟨y, by rw [hget]; exact hy, e⟩
      · rw [State.val_congr (hget q), hout q ix]
        cases three with
        | true =>
          have k0 := hK 0 (by show 0 < 3; omega) ix
          have k1 := hK 1 (by show 1 < 3; omega) ix
          have k2 := hK 2 (by show 2 < 3; omega) ix
          simp [List.range_succ, shuOsher, k0, k1, k2]
          ring_nf
          simp
        | false =>
          have k0 := hK 0 (by show 0 < 2; omega) ix
          have k1 := hK 1 (by show 1 < 2; omega) ix
          simp [List.range_succ, heun, k0, k1]
          ring_nf
          simp)
    n _ s state ab' s' final ⟨⟨rfl, hnd, hT⟩, hu⟩ h
  exact ⟨this.1.2, this.2⟩

/-! ## Examples -/

/-- A tendency of `h` of 3000 m/s at the second of three levels (0 and 6000 m/s at the
others) in every call. -/
def Demo.steadyTend : DataArray := ⟨["z"], ⟨[3], fun i => 3000 * i.getD 0 0⟩, [("units", "m s^-1")]⟩

def Demo.steadyProg : Prog Unit := fun u _ _ => (u, .ok ([("h", Demo.steadyTend)], []))

theorem Demo.steadyProg_dicts : Demo.steadyProg.Dicts := by
  intro s state dt r h
  injection h with h; subst h
  exact List.nodup_singleton _

/-- The components are steady for `h` in km: 3 km/s at the second level. -/
theorem Demo.steadyProg_steady : ∃ c, Steady Demo.reg Demo.steadyProg Demo.dt "h" "km" c ∧ c (fun _ => 1) = 3 := by
  have h : Exc.test (Demo.steadyTend.toUnits Demo.reg ("km" ++ " s^-1")) (fun a => decide (a.at' (fun _ => 1) = 3)) =
      true := by decide +kernel
  obtain ⟨v, hv, hval⟩ := Exc.test_ok h
  refine ⟨fun ix => v.at' ix, ?_, of_decide_eq_true hval⟩
  rintro s state r t ⟨x, hx, hu⟩ hr hc
  injection hr with hr; subst hr
  unfold convertTendencies convertTendency at hc
  have hun : Demo.steadyTend.attrs.get? "units" = some "m s^-1" := rfl
  simp only [hun] at hc
  rw [State.da_ok.2 hx, Exc.ok_bind, Dict.get_eq_ok.2 hu, Exc.ok_bind, hv, Exc.ok_bind] at hc
  unfold convertTendencies at hc
  injection hc with hc; subst hc
  exact ⟨by simp [Dict.keys], fun ix => rfl⟩

def Demo.finalH {τ : Type} : Option (τ × Unit × State) → Option Rat
  | some r => some (State.val r.2.2 "h" (fun _ => 1))
  | none => none

/-- C65: hypotheses met by five steps of one second with each stepper: `h` goes from
2 km to 17 km. -/
example : HasUnits Demo.state "h" "km" ∧
    Demo.finalH (runSteps (tsCall Demo.reg Demo.tsProps Demo.tsProps "S" true (abCall Demo.reg Demo.steadyProg))
      Demo.dt 5 { order := 4 } () Demo.state) = some 17 ∧
    Demo.finalH (runSteps (tsCall Demo.reg Demo.tsProps Demo.tsProps "S" true (LF.call Demo.reg Demo.steadyProg))
      Demo.dt 5 { strength := 1 / 10, alpha := 7 / 10 } () Demo.state) = some 17 ∧
    Demo.finalH (runSteps (tsCall Demo.reg Demo.tsProps Demo.tsProps "S" false (sspCall Demo.reg Demo.steadyProg true))
      Demo.dt 5 { order := 1 } () Demo.state) = some 17 := by
  refine ⟨⟨_, rfl, rfl⟩, ?_, ?_, ?_⟩
  · decide +kernel
  · decide +kernel
  · decide +kernel

end Verif
