import Verif.Props.SteadyRuns
/-!
# C87: tendencies that depend on time

The documented loop of a model,
`diagnostics, next_state = stepper(state, timestep)` and
`next_state['time'] = state['time'] + timestep` (docs/quickstart.rst:43-52), with components whose tendency of a quantity is a function of `state['time']`.
-/

namespace Verif

variable {σ τ : Type}

/-- `n` times around the loop of docs/quickstart.rst:43-52; `none` if a call raised or the
state has no time. -/
def runClock (call : τ → σ → State → Int → τ × σ × State × Except Err (Dict DataArray × State)) (dt : Int) :
    Nat → τ → σ → State → Option (τ × σ × State)
  | 0, x, s, state => some (x, s, state)
  | n + 1, x, s, state =>
    match call x s state dt with
    | (x', s', _, .ok (_, new)) =>
      match Dict.get? state "time" with
      | some (.time t) => runClock call dt n x' s' (Dict.set new "time" (.time (t + dt)))
      | _ => none
    | _ => none

/-- Whatever else the state holds and whatever the components remember, the tendency they
give quantity `q`, when it is in units `u`, is `g t` in `u` per second at time `t`. -/
def Forced (R : Registry) (prog : Prog σ) (dt : Int) (q u : String) (g : Int → (String → Nat) → Rat) : Prop :=
  ∀ s state r t T, HasUnits state q u → Dict.get? state "time" = some (.time T) → (prog s state dt).2 = .ok r →
    convertTendencies R state r.1 = .ok t → q ∈ Dict.keys t ∧ ∀ ix, tval t q ix = g T ix

/-- The state at the time of step `i`. -/
def AtStep (T0 dt : Int) (q u : String) (i : Nat) (state : State) : Prop :=
  HasUnits state q u ∧ Dict.get? state "time" = some (.time (T0 + i * dt))

theorem HasUnits.ne_time {state : State} {q u : String} {t : Int} (h : HasUnits state q u)
    (ht : Dict.get? state "time" = some (.time t)) : q ≠ "time" := by
  rintro rfl
  obtain ⟨x, hx, _⟩ := h
  rw [ht] at hx; cases hx

theorem runClock_invariant {call : τ → σ → State → Int → τ × σ × State × Except Err (Dict DataArray × State)}
    {dt T0 : Int} {q u : String} (I : Nat → τ → State → Prop)
    (hset : ∀ i x state t, q ≠ "time" → I i x state → I i x (Dict.set state "time" (.time t)))
    (hstep : ∀ i x s state x' s' st' diag new, I i x state → AtStep T0 dt q u i state →
      call x s state dt = (x', s', st', .ok (diag, new)) →
      I (i + 1) x' new ∧ HasUnits new q u) :
    ∀ (n i : Nat) (x : τ) (s : σ) (state : State) (x' : τ) (s' : σ) (final : State), I i x state →
      AtStep T0 dt q u i state → runClock call dt n x s state = some (x', s', final) →
      I (i + n) x' final ∧ AtStep T0 dt q u (i + n) final := by
  intro n
  induction n with
  | zero =>
    intro i x s state x' s' final hI hA h
    unfold runClock at h
    simp only [Option.some.injEq, Prod.mk.injEq] at h
    obtain ⟨rfl, rfl, rfl⟩ := h
    exact ⟨hI, hA⟩
  | succ n ih =>
    intro i x s state x' s' final hI hA h
    unfold runClock at h
    split at h
    · rename_i x1 s1 st1 d1 new hc
      obtain ⟨hI1, hu1⟩ := hstep i x s state x1 s1 st1 d1 new hI hA hc
      rw [hA.2] at h
      dsimp only at h
      have hq : q ≠ "time" := hA.1.ne_time hA.2
      have := ih (i + 1) x1 s1 _ x' s' final (hset _ _ _ _ hq hI1) ⟨?_, ?_⟩ h
      · rw [Nat.add_right_comm i 1 n] at this; exact this
      · obtain ⟨y, hy, hyu⟩ := hu1
        exact ⟨y, by rw [Dict.get?_set_ne _ _ (Ne.symm hq)]; exact hy, hyu⟩
      · rw [Dict.get?_set_self]
        push_cast
        congr 2
        ring
    · cases h

theorem val_set_time {state : State} {q : String} (hq : q ≠ "time") (v : Val) (ix : String → Nat) :
    State.val (Dict.set state "time" v) q ix = State.val state q ix :=
  State.val_congr (Dict.get?_set_ne _ _ (Ne.symm hq)) ix

theorem seconds_step (T0 dt : Int) (i : Nat) : seconds (T0 + i * dt) = seconds T0 + i * seconds dt := by
  unfold seconds
  push_cast
  ring

/-! ## AdamsBashforth -/

/-- The tendencies remembered at step `i` are those of the steps before. -/
def Remembers (q : String) (f : Nat → (String → Nat) → Rat) (k i : Nat) (ab : AB) : Prop :=
  ab.order = k ∧ ab.hist.length = min i (k - 1) ∧
  ∀ j t, ab.hist.reverse[j]? = some t → q ∈ Dict.keys t ∧ ∀ ix, tval t q ix = f (i - 1 - j) ix

/-- The value after `n` steps: at step `i` the scheme of order `min k (i + 1)`. -/
def abSum (k : Nat) (dt : Rat) (f : Nat → Rat) : Nat → Rat
  | 0 => 0
  | n + 1 => abFormula (min k (n + 1)) (abSum k dt f n) dt (fun j => f (n - j))

theorem ab_forced_call {R : Registry} {prog : Prog σ} {dt T0 : Int} {q u : String} {g : Int → (String → Nat) → Rat}
    (hS : Forced R prog dt q u g) {k i : Nat} (hk : 1 ≤ k) {ab ab' : AB} {s s' : σ} {state : State}
    {diag : Dict DataArray} {new : State} (hh : Remembers q (fun i => g (T0 + i * dt)) k i ab)
    (hA : AtStep T0 dt q u i state) (h : AB.call R prog ab s state dt = (ab', s', .ok (diag, new))) :
    Remembers q (fun i => g (T0 + i * dt)) k (i + 1) ab' ∧ HasUnits new q u ∧
      ∀ ix, State.val new q ix =
        abFormula (min k (i + 1)) (State.val state q ix) (seconds dt) (fun j => g (T0 + (i - j : Nat) * dt) ix) := by
  obtain ⟨ho, hl, hpast⟩ := hh
  cases ab_outcome R prog ab s state dt with
  | rejected hts hc ht => rw [hc] at h; cases h
  | early e hts hc ht => rw [hc] at h; cases h
  | late t e hts ht hp hc => rw [hc] at h; cases h
  | done t r new' hts hr hconv ht hp hc =>
    rw [hc] at h
    simp only [Prod.mk.injEq, Except.ok.injEq] at h
    obtain ⟨hab, rfl, rfl, rfl⟩ := h
    have hall : ∀ j t', (ab.hist ++ [t]).reverse[j]? = some t' →
        q ∈ Dict.keys t' ∧ ∀ ix, tval t' q ix = g (T0 + (i - j : Nat) * dt) ix := by
      intro j t' hj
      rw [List.reverse_append, List.reverse_singleton, List.singleton_append] at hj
      cases j with
      | zero =>
        simp only [List.getElem?_cons_zero, Option.some.injEq] at hj
        subst hj
        exact hS s state r _ _ hA.1 hA.2 hr hconv
      | succ j =>
        rw [List.getElem?_cons_succ] at hj
        have := hpast j t' hj
        rw [show i - 1 - j = i - (j + 1) by omega] at this
        exact this
    obtain ⟨m, hm, m1, m4, hkk, hq⟩ := performStep_spec hp
    have hm' : m = min k (i + 1) := by
      rw [hm, ho, List.length_append, hl, List.length_singleton]; omega
    obtain ⟨_, c2, _⟩ := copyUntouched_spec state new'
    have hmemall : ∀ t' ∈ ab.hist ++ [t], q ∈ Dict.keys t' := by
      intro t' ht'
      rw [← List.mem_reverse] at ht'
      obtain ⟨j, hj⟩ := List.getElem?_of_mem ht'
      exact (hall j t' hj).1
    have hmem : q ∈ Dict.keys new' := by
      rw [hkk]
      by_cases h1 : m = 1
      · rw [if_pos h1]
        simp only [List.getLast?_append, List.getLast?_singleton, Option.some_or, Option.getD_some]
        exact hmemall t (by simp)
      · rw [if_neg h1]
        cases hh' : ab.hist ++ [t] with
        | nil => simp at hh'
        | cons t0 l => exact hmemall t0 (by rw [hh']; simp)
    obtain ⟨x, r', hx, hr', ha, _, hj, hval⟩ := hq q hmem
    have hn : Dict.get? (copyUntouched state new') q = some (.da r') := by rw [c2 q hmem]; exact hr'
    refine ⟨?_, ?_, ?_⟩
    · rw [← hab]
      split
      · rename_i hfull
        rw [List.length_append, List.length_singleton, hl, ho] at hfull
        refine ⟨ho, ?_, ?_⟩
        · rw [List.length_tail, List.length_append, List.length_singleton, hl]; omega
        · intro j t' hj'
          dsimp only at hj'
          have hjl : j < (ab.hist ++ [t]).tail.reverse.length := by
            by_contra hcon
            rw [List.getElem?_eq_none (Nat.le_of_not_lt hcon)] at hj'; cases hj'
          have := hall j t' ?_
          · rw [show i + 1 - 1 - j = i - j by omega]; exact this
          · rw [← hj']
            have he : ab.hist ++ [t] = (ab.hist ++ [t]).head (by simp) :: (ab.hist ++ [t]).tail := by
              rw [List.cons_head_tail]
            conv_lhs => rw [he]
            rw [List.reverse_cons, List.getElem?_append_left hjl]
      · rename_i hfull
        rw [List.length_append, List.length_singleton, hl, ho] at hfull
        refine ⟨ho, ?_, ?_⟩
        · rw [List.length_append, List.length_singleton, hl]; omega
        · intro j t' hj'
          rw [show i + 1 - 1 - j = i - j by omega]; exact hall j t' hj'
    · obtain ⟨x', hx', hux⟩ := hA.1
      rw [hx] at hx'; cases hx'
      exact ⟨r', hn, by rw [ha]; exact hux⟩
    · intro ix
      rw [State.val_of_get hn, State.val_of_get hx, hval ix, ← hm']
      unfold abFormula
      congr 3
      apply List.map_congr_left
      intro j hj'
      rw [List.mem_range] at hj'
      have hjl : j < (ab.hist ++ [t]).reverse.length := by
        rw [List.length_reverse]
        have : m ≤ (ab.hist ++ [t]).length := by rw [hm]; exact Nat.min_le_right _ _
        omega
      have hg : (ab.hist ++ [t]).reverse[j]? = some ((ab.hist ++ [t]).reverse.getD j []) := by
        rw [List.getD_eq_getElem?_getD, List.getElem?_eq_getElem hjl]; rfl
      dsimp only
      rw [(hall j _ hg).2 ix]

theorem abFormula_add (m : Nat) (a x dt : Rat) (f : Nat → Rat) : abFormula m (a + x) dt f = a + abFormula m x dt f := by
  unfold abFormula; ring

theorem abFormula_congr {m : Nat} {x dt : Rat} {f g : Nat → Rat} (h : ∀ j < m, f j = g j) :
    abFormula m x dt f = abFormula m x dt g := by
  unfold abFormula
  rw [List.map_congr_left fun j hj => by rw [h j (List.mem_range.1 hj)]]

/-- What holds of the stepper and the state at step `i`. -/
def ABRun (T0 dt : Int) (q : String) (g : Int → (String → Nat) → Rat) (k : Nat) (v0 : (String → Nat) → Rat) (i : Nat)
    (ab : AB) (state : State) : Prop :=
  Remembers q (fun i => g (T0 + i * dt)) k i ab ∧
  ∀ ix, State.val state q ix = v0 ix + abSum k (seconds dt) (fun i => g (T0 + i * dt) ix) i

theorem ab_forced_invariant {R : Registry} {prog : Prog σ} {dt T0 : Int} {q u : String}
    {g : Int → (String → Nat) → Rat} (hS : Forced R prog dt q u g) {inProps outProps : PropDict} {inst : String}
    {tid : Bool} {k : Nat} (hk : 1 ≤ k) {v0 : (String → Nat) → Rat} (n i : Nat) (s s' : σ) (state final : State)
    (ab ab' : AB) (hI : ABRun T0 dt q g k v0 i ab state) (hA : AtStep T0 dt q u i state)
    (h : runClock (tsCall R inProps outProps inst tid (abCall R prog)) dt n ab s state = some (ab', s', final)) :
    ABRun T0 dt q g k v0 (i + n) ab' final ∧ AtStep T0 dt q u (i + n) final := by
  refine runClock_invariant (ABRun T0 dt q g k v0) ?_ ?_ n i ab s state ab' s' final hI hA h
  · intro i x state t hq hI
    exact ⟨hI.1, fun ix => by rw [val_set_time hq]; exact hI.2 ix⟩
  · intro i x s state x' s' st' diag new hI hA hc
    obtain ⟨⟨d, o⟩, ho, _, hst⟩ := tsCall_state hc
    unfold abCall at ho
    simp only [Prod.mk.injEq] at ho
    obtain ⟨h1, h2, rfl, h3⟩ := ho
    have hcall : AB.call R prog x s state dt = (x', s', .ok (d, o)) := Prod.ext h1 (Prod.ext h2 h3)
    obtain ⟨e1, e2, e3⟩ := ab_forced_call hS hk hI.1 hA hcall
    obtain ⟨_, _, _, hkeys, _⟩ := ab_untouched h3
    have hg := hst (fun q hq => (hkeys q).2 hq) q
    refine ⟨⟨e1, fun ix => ?_⟩, ?_⟩
    · rw [State.val_congr hg, e3 ix, hI.2 ix, abFormula_add]
      rfl
    · obtain ⟨y, hy, hyu⟩ := e2; exact ⟨y, by rw [hg]; exact hy, hyu⟩

theorem AB.make_order {k : Int} {ab : AB} (h : AB.make k = .ok ab) :
    1 ≤ ab.order ∧ ab.order ≤ 4 ∧ (ab.order : Int) = k ∧ ab.hist = [] := by
  unfold AB.make at h
  split at h
  · rename_i hk
    injection h with h; subst h
    dsimp only
    refine ⟨?_, ?_, ?_, rfl⟩ <;> omega
  · cases h

/-- **C87, AdamsBashforth.**  For a forcing that is a polynomial in time of degree less
than the order `k`, every run after the first `k - 1` steps is exact: between step `m`
and step `m + n` the quantity changes by the integral of the forcing. -/
theorem ab_forced_exact_partial {R : Registry} {prog : Prog σ} {dt T0 : Int} {q u : String}
    {P : (String → Nat) → Polynomial ℚ}
    (hS : Forced R prog dt q u (fun t ix => (P ix).derivative.eval (seconds t))) {inProps outProps : PropDict}
    {inst : String} {tid : Bool} (k : Int) (ab : AB) (hk : AB.make k = .ok ab)
    (hP : ∀ ix, ((P ix).natDegree : Int) ≤ k) (m n : Nat) (hm : k - 1 ≤ m) (s s1 s' : σ) (state mid final : State)
    (ab1 ab' : AB) (hu : HasUnits state q u) (hT : Dict.get? state "time" = some (.time T0))
    (h1 : runClock (tsCall R inProps outProps inst tid (abCall R prog)) dt m ab s state = some (ab1, s1, mid))
    (h2 : runClock (tsCall R inProps outProps inst tid (abCall R prog)) dt n ab1 s1 mid = some (ab', s', final)) :
    ∀ ix, State.val final q ix = State.val mid q ix +
      ((P ix).eval (seconds (T0 + (m + n) * dt)) - (P ix).eval (seconds (T0 + m * dt))) := by
  obtain ⟨k1, k4, hkk, hnil⟩ := AB.make_order hk
  have hI : ABRun T0 dt q (fun t ix => (P ix).derivative.eval (seconds t)) ab.order (fun ix => State.val state q ix) 0
      ab state := by
    refine ⟨⟨rfl, by rw [hnil]; simp, fun j t hj => ?_⟩, fun ix => by simp [abSum]⟩
    rw [hnil] at hj; cases hj
  have hA : AtStep T0 dt q u 0 state := ⟨hu, by rw [hT]; simp⟩
  obtain ⟨i1, a1⟩ := ab_forced_invariant hS k1 m 0 s s1 state mid ab ab1 hI hA h1
  obtain ⟨i2, a2⟩ := ab_forced_invariant hS k1 n _ s1 s' mid final ab1 ab' i1 a1 h2
  intro ix
  have hsum : ∀ n : Nat, abSum ab.order (seconds dt) (fun i => (P ix).derivative.eval (seconds (T0 + i * dt))) (m + n) =
      abSum ab.order (seconds dt) (fun i => (P ix).derivative.eval (seconds (T0 + i * dt))) m +
      ((P ix).eval (seconds (T0 + (m + n) * dt)) - (P ix).eval (seconds (T0 + m * dt))) := by
    intro n
    induction n with
    | zero => simp
    | succ n ih =>
      show abFormula (min ab.order (m + n + 1)) (abSum ab.order _ _ (m + n)) _ _ = _
      rw [ih, show min ab.order (m + n + 1) = ab.order by omega]
      have := ab_formula_exact ab.order k1 k4 (P ix) (by have := hP ix; omega) (seconds T0 + (m + n : Nat) * seconds dt)
        (seconds dt) (abSum ab.order (seconds dt) (fun i => (P ix).derivative.eval (seconds (T0 + i * dt))) m +
          ((P ix).eval (seconds (T0 + (m + n) * dt)) - (P ix).eval (seconds (T0 + m * dt))))
      have e : ∀ j < ab.order, (P ix).derivative.eval (seconds (T0 + (m + n - j : Nat) * dt)) =
          (P ix).derivative.eval (seconds T0 + (m + n : Nat) * seconds dt - j * seconds dt) := by
        intro j hj
        rw [seconds_step, Nat.cast_sub (by omega)]
        congr 1
        ring
      refine ((abFormula_congr e).trans this).trans ?_
      have t1 : seconds T0 + (m + n : Nat) * seconds dt = seconds (T0 + (m + n) * dt) := by
        rw [← seconds_step]; push_cast; rfl
      have t2 : seconds T0 + (m + n : Nat) * seconds dt + seconds dt = seconds (T0 + (m + (n + 1 : Nat)) * dt) := by
        rw [t1]; unfold seconds; push_cast; ring
      rw [t2, t1]
      ring
  have := i2.2 ix
  have hv1 := i1.2 ix
  rw [Nat.zero_add] at this hv1
  rw [this, hsum n, hv1]
  ring

/-! ## Leapfrog -/

/-- The error of the first step, which is a forward Euler step. -/
noncomputable def firstError (P : Polynomial ℚ) (T0 dt : Int) : Rat :=
  seconds dt * P.derivative.eval (seconds T0) - (P.eval (seconds (T0 + dt)) - P.eval (seconds T0))

/-- The change of the quantity up to step `i`. -/
noncomputable def lfValue (P : Polynomial ℚ) (T0 dt : Int) (i : Nat) : Rat :=
  P.eval (seconds (T0 + i * dt)) - P.eval (seconds T0) + if i % 2 = 1 then firstError P T0 dt else 0

theorem midpoint_exact (P : Polynomial ℚ) (hP : P.natDegree ≤ 2) (t h : ℚ) :
    P.eval (t + h) - P.eval (t - h) = 2 * h * P.derivative.eval t := by
  have hz : ∀ i, 2 < i → P.coeff i = 0 := fun i hi => Polynomial.coeff_eq_zero_of_natDegree_lt (by omega)
  have h4 : P.natDegree ≤ 4 := by omega
  simp only [eval_poly P h4, eval_poly_derivative P h4]
  simp [Finset.sum_range_succ, hz 3 (by omega), hz 4 (by omega), hz 5 (by omega)]
  ring

theorem lfValue_step (P : Polynomial ℚ) (hP : P.natDegree ≤ 2) (T0 dt : Int) (i : Nat) :
    lfValue P T0 dt (i + 2) = lfValue P T0 dt i + 2 * seconds dt * P.derivative.eval (seconds (T0 + (i + 1 : Nat) * dt)) := by
  rw [← midpoint_exact P hP]
  unfold lfValue
  rw [show (i + 2) % 2 = i % 2 by omega,
    show seconds (T0 + (i + 1 : Nat) * dt) + seconds dt = seconds (T0 + (i + 2 : Nat) * dt) by
      unfold seconds; push_cast; ring,
    show seconds (T0 + (i + 1 : Nat) * dt) - seconds dt = seconds (T0 + i * dt) by
      unfold seconds; push_cast; ring]
  ring

def LFRun (T0 dt : Int) (q u : String) (P : (String → Nat) → Polynomial ℚ) (v0 : (String → Nat) → Rat) (i : Nat)
    (lf : LF) (state : State) : Prop :=
  lf.strength = 0 ∧ (∀ ix, State.val state q ix = v0 ix + lfValue (P ix) T0 dt i) ∧
  match i with
  | 0 => lf.old = none
  | i + 1 => ∃ old, lf.old = some old ∧ HasUnits old q u ∧ ∀ ix, State.val old q ix = v0 ix + lfValue (P ix) T0 dt i

/-- **C87, Leapfrog** without filter, for a forcing of degree at most one in time: after an
even number of steps the result is exact, after an odd number it has the error of the
first step, however many steps there are. -/
theorem lf_forced_exact_partial {R : Registry} {prog : Prog σ} (hd : prog.Dicts) {dt T0 : Int} {q u : String}
    {P : (String → Nat) → Polynomial ℚ}
    (hS : Forced R prog dt q u (fun t ix => (P ix).derivative.eval (seconds t)))
    (hP : ∀ ix, (P ix).natDegree ≤ 2) {inProps outProps : PropDict} {inst : String} {tid : Bool} (alpha : Rat) (n : Nat)
    (s s' : σ) (state final : State) (lf' : LF) (hu : HasUnits state q u)
    (hT : Dict.get? state "time" = some (.time T0))
    (h : runClock (tsCall R inProps outProps inst tid (LF.call R prog)) dt n { strength := 0, alpha := alpha } s state =
      some (lf', s', final)) :
    ∀ ix, State.val final q ix = State.val state q ix +
      ((P ix).eval (seconds (T0 + n * dt)) - (P ix).eval (seconds T0)) +
      if n % 2 = 1 then firstError (P ix) T0 dt else 0 := by
  have hI : LFRun T0 dt q u P (fun ix => State.val state q ix) 0 { strength := 0, alpha := alpha } state :=
    ⟨rfl, fun ix => by unfold lfValue; simp, rfl⟩
  have := runClock_invariant (LFRun T0 dt q u P (fun ix => State.val state q ix)) ?_ ?_ n 0 _ s state lf' s' final hI
    (⟨hu, by rw [hT]; simp⟩ : AtStep T0 dt q u 0 state) h
  · intro ix
    have := this.1.2.1 ix
    rw [Nat.zero_add] at this
    rw [this]
    unfold lfValue
    ring
  · intro i x st t hq hI
    refine ⟨hI.1, fun ix => by rw [val_set_time hq]; exact hI.2.1 ix, hI.2.2⟩
  · intro i x s1 st x' s1' st' diag new hI hA hc
    obtain ⟨⟨d, o⟩, ho, _, hst⟩ := tsCall_state hc
    obtain ⟨_, _, _, hkeys, hkeys', _⟩ := lf_untouched hd ho
    have hg := hst (fun q hq => (hkeys q).2 ((hkeys' q).1 hq)) q
    have hlt : ∀ t, lfTendency R prog x s1 st dt = some t →
        q ∈ Dict.keys t ∧ ∀ ix, tval t q ix = (P ix).derivative.eval (seconds (T0 + i * dt)) := by
      intro t ht
      unfold lfTendency abTendency at ht
      split at ht
      · cases hr : (prog s1 st dt).2 with
        | error e => rw [hr] at ht; cases ht
        | ok r =>
          rw [hr] at ht
          dsimp only at ht
          cases hcv : convertTendencies R st r.1 with
          | error e => rw [hcv] at ht; cases ht
          | ok t' =>
            rw [hcv] at ht
            injection ht with ht; subst ht
            exact hS s1 st r _ _ hA.1 hA.2 hr hcv
      · cases ht
    obtain ⟨hν, hval, hold⟩ := hI
    obtain ⟨b0, hb0, hub⟩ := hA.1
    cases i with
    | zero =>
      obtain ⟨rfl, hlf, t, ht, hst1⟩ := leapfrog_first_call ho hold
      obtain ⟨hq, htv⟩ := hlt t ht
      obtain ⟨a, b, ha, hb, hab, hv⟩ := hst1 q hq
      obtain rfl : b0 = a := by rw [ha] at hb0; cases hb0; rfl
      have hnew : Dict.get? new q = some (.da b) := by rw [hg]; exact hb
      refine ⟨⟨by rw [hlf]; exact hν, fun ix => ?_, st', by rw [hlf], ⟨b0, ha, hub⟩, hval⟩, b, hnew, by rw [hab]; exact hub⟩
      rw [State.val_of_get hnew, hv ix, htv ix, ← State.val_of_get ha, hval ix]
      unfold lfValue firstError
      simp
    | succ i =>
      obtain ⟨old, hold, hou, hov⟩ := hold
      obtain ⟨hlf, t, ht, hst1⟩ := leapfrog_later_call hd ho hold
      obtain ⟨hq, htv⟩ := hlt t ht
      obtain ⟨a, b, b', m, ha, hb, hb', hm, hab, _, hma, hv⟩ := hst1 q hq
      rw [hb] at hb0; cases hb0
      obtain ⟨a', ha', hua⟩ := hou
      rw [ha] at ha'; cases ha'
      have hnew : Dict.get? new q = some (.da m) := by rw [hg]; exact hm
      have hδ : ∀ o y z, filterDisplacement x.strength o y z = 0 := by
        intro o y z
        unfold filterDisplacement
        rw [hν]; ring
      refine ⟨⟨by rw [hlf]; exact hν, fun ix => ?_, st', by rw [hlf], ⟨b', hb', by rw [hab]; exact hub⟩, fun ix => ?_⟩,
        m, hnew, by rw [hma]; exact hua⟩
      · obtain ⟨_, h2, _⟩ := hv ix
        rw [hδ] at h2
        rw [State.val_of_get hnew, h2, htv ix, ← State.val_of_get ha, hov ix, lfValue_step _ (hP ix)]
        ring
      · obtain ⟨h1, _⟩ := hv ix
        rw [hδ] at h1
        rw [State.val_of_get hb', h1, ← State.val_of_get hb, hval ix]
        ring

/-! ## SSPRungeKutta -/

def sumTo (f : Nat → Rat) (n : Nat) : Rat := ((List.range n).map f).sum

theorem sumTo_succ (f : Nat → Rat) (n : Nat) : sumTo f (n + 1) = sumTo f n + f n := by
  unfold sumTo
  rw [List.range_succ, List.map_append, List.sum_append]
  simp

/-- **C87, SSPRungeKutta.**  All stages see the time of the input state, so a forcing is
integrated by forward Euler steps, with two stages as with three. -/
theorem ssprk_forced_is_euler {R : Registry} {prog : Prog σ} (hd : prog.Dicts) {dt T0 : Int} {q u : String}
    {g : Int → (String → Nat) → Rat} (hS : Forced R prog dt q u g) {inProps outProps : PropDict} {inst : String}
    {tid : Bool} (three : Bool) (n : Nat) (s s' : σ) (state final : State) (ab' : AB)
    (hnd : (Dict.keys state).Nodup) (hu : HasUnits state q u) (hT : Dict.get? state "time" = some (.time T0))
    (h : runClock (tsCall R inProps outProps inst tid (sspCall R prog three)) dt n { order := 1 } s state =
      some (ab', s', final)) :
    ∀ ix, State.val final q ix = State.val state q ix + sumTo (fun i => seconds dt * g (T0 + i * dt) ix) n := by
  have := runClock_invariant
    (fun i (ab : AB) st => ab.order = 1 ∧ (Dict.keys st).Nodup ∧
      ∀ ix, State.val st q ix = State.val state q ix + sumTo (fun i => seconds dt * g (T0 + i * dt) ix) i)
    ?_ ?_ n 0 _ s state ab' s' final ⟨rfl, hnd, fun ix => by simp [sumTo]⟩ (⟨hu, by rw [hT]; simp⟩ : AtStep T0 dt q u 0 state) h
  · intro ix
    have := this.1.2.2 ix
    rw [Nat.zero_add] at this
    exact this
  · intro i x st t hq hI
    exact ⟨hI.1, Dict.nodup_keys_set hI.2.1 _ _, fun ix => by rw [val_set_time hq]; exact hI.2.2 ix⟩
  · rintro i x s1 st x' s1' st' diag new ⟨hord, hnd, hv⟩ hA hc
    have hTO : State.TimeOk st := fun a ha => by rw [hA.2] at ha; cases ha
    obtain ⟨⟨d, o⟩, ho, rfl⟩ := tsCall_new hc
    unfold sspCall at ho
    simp only [Prod.mk.injEq] at ho
    obtain ⟨h1, h2, rfl, h3⟩ := ho
    have hcall : ssprkCall R prog three x s1 st dt = (x', s1', .ok (d, o)) := Prod.ext h1 (Prod.ext h2 h3)
    have S := ssprkCall_spec hd hord hnd hTO hcall
    obtain ⟨c1, c2, c3⟩ := copyUntouched_spec st o
    have hget : ∀ p, Dict.get? (copyUntouched st o) p = Dict.get? o p := by
      intro p
      by_cases hp : p ∈ Dict.keys o
      · exact c2 p hp
      · rw [c3 p hp, (Dict.get?_eq_none_iff _ _).2 hp,
          (Dict.get?_eq_none_iff _ _).2 (fun h => hp ((S.keys p).2 h))]
    obtain ⟨Y, K, W, D, hY0, _, _, _, hst, hattr, hout⟩ := S.step
    have hK : ∀ i' < (if three then shuOsher else heun).stages, ∀ ix, tval (K i') q ix = g (T0 + i * dt) ix := by
      intro i' hi
      obtain ⟨⟨r, hr, hcv, _⟩, htime, _, hat, _⟩ := hst i' hi
      exact (hS (W i') (Y i') r (K i') _ (hA.1.of_sameAttrs hat) (by rw [htime]; exact hA.2) (by rw [hr]) hcv).2
    refine ⟨⟨(ssprk_order hcall).trans hord, nodup_copyUntouched _ _ S.nodup, fun ix => ?_⟩, ?_⟩
    · rw [State.val_congr (hget q), hout q ix, hv ix, sumTo_succ]
      have hK := fun j hj => hK j hj ix
      generalize sumTo _ i = Z
      generalize g (T0 + i * dt) ix = G at hK
      cases three with
      | true =>
        have k0 := hK 0 (by show 0 < 3; omega)
        have k1 := hK 1 (by show 1 < 3; omega)
        have k2 := hK 2 (by show 2 < 3; omega)
        simp [List.range_succ, shuOsher, k0, k1, k2]
        ring_nf
      | false =>
        have k0 := hK 0 (by show 0 < 2; omega)
        have k1 := hK 1 (by show 1 < 2; omega)
        simp [List.range_succ, heun, k0, k1]
        ring_nf
    · obtain ⟨y, hy, e⟩ := hA.1.of_sameAttrs hattr
      exact ⟨y, by rw [hget]; exact hy, e⟩

/-- **C87, the claim is false for SSPRungeKutta**: for a forcing that is linear in time
(its integral `P` has degree two) the error after `n` steps is `n` times the square of
the timestep times the leading coefficient, whatever the number of stages. -/
theorem ssprk_forced_error {R : Registry} {prog : Prog σ} (hd : prog.Dicts) {dt T0 : Int} {q u : String}
    {P : (String → Nat) → Polynomial ℚ}
    (hS : Forced R prog dt q u (fun t ix => (P ix).derivative.eval (seconds t)))
    (hP : ∀ ix, (P ix).natDegree ≤ 2) {inProps outProps : PropDict} {inst : String} {tid : Bool} (three : Bool) (n : Nat)
    (s s' : σ) (state final : State) (ab' : AB) (hnd : (Dict.keys state).Nodup) (hu : HasUnits state q u)
    (hT : Dict.get? state "time" = some (.time T0))
    (h : runClock (tsCall R inProps outProps inst tid (sspCall R prog three)) dt n { order := 1 } s state =
      some (ab', s', final)) :
    ∀ ix, State.val final q ix = State.val state q ix +
      ((P ix).eval (seconds (T0 + n * dt)) - (P ix).eval (seconds T0)) - n * (seconds dt ^ 2 * (P ix).coeff 2) := by
  intro ix
  rw [ssprk_forced_is_euler hd hS three n s s' state final ab' hnd hu hT h ix]
  have hz : ∀ i, 2 < i → (P ix).coeff i = 0 := fun i hi =>
    Polynomial.coeff_eq_zero_of_natDegree_lt (by have := hP ix; omega)
  have h4 : (P ix).natDegree ≤ 4 := by have := hP ix; omega
  have key : sumTo (fun i => seconds dt * (P ix).derivative.eval (seconds (T0 + i * dt))) n =
      (P ix).eval (seconds (T0 + n * dt)) - (P ix).eval (seconds T0) - n * (seconds dt ^ 2 * (P ix).coeff 2) := by
    clear h
    induction n with
    | zero => simp [sumTo]
    | succ n ih =>
      rw [sumTo_succ, ih]
      simp only [eval_poly (P ix) h4, eval_poly_derivative (P ix) h4, seconds_step]
      simp [Finset.sum_range_succ, hz 3 (by omega), hz 4 (by omega), hz 5 (by omega)]
      ring
  rw [key]
  ring

/-! ## Examples -/

namespace Demo

/-- A tendency of `h` of `2 t` km/s at time `t`, at every level. -/
def forcedTend (T : Int) : DataArray := ⟨["z"], ⟨[3], fun _ => 2 * seconds T⟩, [("units", "km s^-1")]⟩

def forcedProg : Prog Unit := fun w state _ =>
  (w, match Dict.get? state "time" with
    | some (.time T) => .ok ([("h", forcedTend T)], [])
    | _ => .error .keyError)

theorem forcedProg_dicts : forcedProg.Dicts := by
  intro s state dt r h
  unfold forcedProg at h
  dsimp only at h
  split at h
  · injection h with h; subst h
    exact List.nodup_singleton _
  · cases h

theorem forcedProg_forced : Forced reg forcedProg dt "h" "km"
    (fun t _ => (Polynomial.X ^ 2 : Polynomial ℚ).derivative.eval (seconds t)) := by
  rintro s state r t T ⟨x, hx, hu⟩ hT hr hc
  unfold forcedProg at hr
  dsimp only at hr
  rw [hT] at hr
  injection hr with hr; subst hr
  unfold convertTendencies convertTendency at hc
  have hun : (forcedTend T).attrs.get? "units" = some "km s^-1" := rfl
  simp only [hun] at hc
  rw [State.da_ok.2 hx, Exc.ok_bind, Dict.get_eq_ok.2 hu, Exc.ok_bind] at hc
  obtain ⟨v, hv, hc⟩ := Exc.bind_ok_iff.1 hc
  unfold convertTendencies at hc
  injection hc with hc; subst hc
  refine ⟨by simp [Dict.keys], fun ix => ?_⟩
  obtain ⟨own, a, b, h1, h2, h3, _, h5⟩ := toUnits_at reg_faithful hv ix
  rw [hun] at h1
  injection h1 with h1; subst h1
  rw [show ("km" ++ " s^-1" : String) = "km s^-1" by decide, h2] at h3
  injection h3 with h3; subst h3
  have hne := ne_of_gt a.scale_pos
  have : v.at' ix = (forcedTend T).at' ix := by
    have := add_right_cancel h5
    exact mul_right_cancel₀ hne this
  show v.at' ix = _
  rw [this]
  simp [forcedTend, DataArray.at']
  left; norm_num

end Demo

/-- C87: the hypotheses are met by five steps of one second of `h` from 2 km under a
forcing of `2 t` km/s, which would give 27 km: AdamsBashforth of order 3 makes the error of
its first two steps only, Leapfrog that of its first, SSPRungeKutta one in each. -/
example : HasUnits Demo.state "h" "km" ∧ (Dict.keys Demo.state).Nodup ∧
    Demo.finalH (runClock (tsCall Demo.reg Demo.tsProps Demo.tsProps "S" true (abCall Demo.reg Demo.forcedProg))
      Demo.dt 2 { order := 3 } () Demo.state) = some 5 ∧
    Demo.finalH (runClock (tsCall Demo.reg Demo.tsProps Demo.tsProps "S" true (abCall Demo.reg Demo.forcedProg))
      Demo.dt 5 { order := 3 } () Demo.state) = some 26 ∧
    Demo.finalH (runClock (tsCall Demo.reg Demo.tsProps Demo.tsProps "S" true (LF.call Demo.reg Demo.forcedProg))
      Demo.dt 5 { strength := 0, alpha := 1 / 2 } () Demo.state) = some 26 ∧
    Demo.finalH (runClock (tsCall Demo.reg Demo.tsProps Demo.tsProps "S" true (LF.call Demo.reg Demo.forcedProg))
      Demo.dt 6 { strength := 0, alpha := 1 / 2 } () Demo.state) = some 38 ∧
    Demo.finalH (runClock (tsCall Demo.reg Demo.tsProps Demo.tsProps "S" false
      (sspCall Demo.reg Demo.forcedProg true)) Demo.dt 5 { order := 1 } () Demo.state) = some 22 := by
  refine ⟨⟨_, rfl, rfl⟩, by decide, ?_, ?_, ?_, ?_, ?_⟩ <;> decide +kernel

end Verif
