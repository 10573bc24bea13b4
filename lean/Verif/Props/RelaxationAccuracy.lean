import Verif.Spec.Accuracy
import Verif.Props.DecayAccuracy
import Verif.Props.RelaxedRunsComplete
/-!
# C103: runs follow the differential equation to the order of the scheme
-/

namespace Verif

/-- The differential equation has one solution. -/
theorem SolvesRelaxation.eq {E T x0 : Rat} {y : ℝ → ℝ} (h : SolvesRelaxation E T x0 y) (t : ℝ) :
    y t = E + ((x0 : ℝ) - E) * Real.exp (-(t / T)) := by
  have hd : ∀ t, HasDerivAt (fun t => (y t - E) * Real.exp (t / T)) 0 t := by
    intro t
    have h1 := ((h.equation t).sub_const (E : ℝ)).mul (((hasDerivAt_id t).div_const (T : ℝ)).exp)
    refine HasDerivAt.congr_deriv h1 ?_
    simp only [id]
    ring
  have hc := is_const_of_deriv_eq_zero (fun t => (hd t).differentiableAt) (fun t => (hd t).deriv) t 0
  rw [h.start, zero_div, Real.exp_zero, mul_one] at hc
  rw [← hc, mul_assoc, ← Real.exp_add, add_neg_cancel, Real.exp_zero, mul_one]
  ring

/-- There is a solution. -/
theorem solvesRelaxation (E T x0 : Rat) : SolvesRelaxation E T x0 fun t => E + ((x0 : ℝ) - E) * Real.exp (-(t / T)) where
  start := by simp
  equation := by
    intro t
    have h1 := ((((hasDerivAt_id t).div_const (T : ℝ)).neg.exp).const_mul ((x0 : ℝ) - E)).const_add (E : ℝ)
    refine HasDerivAt.congr_deriv h1 ?_
    show ((x0 : ℝ) - E) * (Real.exp (-(t / T)) * -(1 / T)) = (E - (E + ((x0 : ℝ) - E) * Real.exp (-(t / T)))) / T
    ring

/-- The error of a run in terms of the factor that the scheme makes. -/
theorem run_error {E T x0 x : Rat} {y : ℝ → ℝ} (hy : SolvesRelaxation E T x0 y) {d : ℕ → Rat} {h : Rat} {n : ℕ}
    (hx : x - E = d n * (x0 - E)) : (x : ℝ) - y (n * h) = gap d (h / T) n * ((x0 : ℝ) - E) := by
  have hx' : (x : ℝ) = E + d n * ((x0 : ℝ) - E) := by
    have : x = E + d n * (x0 - E) := by rw [← hx]; ring
    rw [this]
    push_cast
    ring
  rw [hy.eq, hx']
  unfold gap
  push_cast
  rw [mul_div_assoc]
  ring

theorem abError_bounds {k : Nat} (h1 : 1 ≤ k) (h4 : k ≤ 4) {z : Rat} (h0 : 0 ≤ z) (hz : z ≤ abStepLimit k) (n : ℕ) :
    |gap (abDecay k z) z n| ≤ abError k z n := by
  have hk : k = 1 ∨ k = 2 ∨ k = 3 ∨ k = 4 := by omega
  have hc : (z : ℝ) ≤ ((abStepLimit k : Rat) : ℝ) := by exact_mod_cast hz
  rcases hk with rfl | rfl | rfl | rfl
  · exact ab1_gap h0 hz n
  · exact ab2_gap h0 hz n
  · refine ab3_gap h0 ?_ n n le_rfl
    simpa [abStepLimit] using hc
  · refine ab4_gap h0 ?_ n n le_rfl
    simpa [abStepLimit] using hc

variable {σ : Type} {R : Registry} {quotient : String → String} {q units : String}

/-- **C103.**  A run of AdamsBashforth with a relaxed quantity, whatever the other components do
elsewhere: at every place the quantity is after `n` steps as far from the solution of the
differential equation at that time as the bound for the order allows.  For a given time
`n dt` the bound is of first order in the timestep for order 1, and of second order for the
others, because the first step of these is of order 1. -/
theorem ab_accuracy_partial (hR : R.Faithful) (hq : QuotientOk R quotient units) {m : Comp σ}
    (hm : IsRelaxation R quotient q units m) {L : String → Nat} {before after : List (Comp σ)}
    (hb : ∀ c ∈ before, Elsewhere L q c) (ha : ∀ c ∈ after, Elsewhere L q c) {ix : String → Nat}
    (hix : ∀ d, ix d < L d) {state : State} (hs : ∀ k a, (k, Val.da a) ∈ state → OnGrid L a) {E T : Rat}
    (hr : Relaxing R q ix state E T) {y : ℝ → ℝ} (hy : SolvesRelaxation E T (State.val state q ix) y)
    (inProps outProps : PropDict) (inst : String) (tid : Bool) (dt : Int) (hdt : 0 ≤ seconds dt) (k : Int)
    (ab : AB) (hk : AB.make k = .ok ab) (hlim : seconds dt ≤ abStepLimit ab.order * T) (n : Nat) (s s' : σ)
    (final : State) (ab' : AB)
    (h : runSteps (tsCall R inProps outProps inst tid (abCall R
      (fun s state dt => callImplicitComposite R (before ++ m :: after) s state dt))) dt n ab s state =
        some (ab', s', final)) :
    |(State.val final q ix : ℝ) - y (n * (seconds dt : ℝ))| ≤
      abError ab.order (seconds dt / T : Rat) n * |(State.val state q ix : ℝ) - E| := by
  have hx := (ab_relaxed_run hR hq hm hb ha hix hs hr inProps outProps inst tid dt k ab hk n s s' final ab' h).1
  obtain ⟨k1, k4, -⟩ := AB.make_order hk
  rw [run_error hy hx, abs_mul]
  exact mul_le_mul_of_nonneg_right (abError_bounds k1 k4 (div_nonneg hdt hr.positive.le)
    (by rwa [div_le_iff₀ hr.positive]) n) (abs_nonneg _)

/-- **C103.**  SSPRungeKutta with a timestep of at most the timescale: the error at a given time
is of second order in the timestep with two stages, of third order with three. -/
theorem ssprk_accuracy (hR : R.Faithful) (hq : QuotientOk R quotient units) {m : Comp σ}
    (hm : IsRelaxation R quotient q units m) {L : String → Nat} {before after : List (Comp σ)}
    (hb : ∀ c ∈ before, Elsewhere L q c) (ha : ∀ c ∈ after, Elsewhere L q c) {ix : String → Nat}
    (hix : ∀ d, ix d < L d) {state : State} (hs : ∀ k a, (k, Val.da a) ∈ state → OnGrid L a) {E T : Rat}
    (hr : Relaxing R q ix state E T) {y : ℝ → ℝ} (hy : SolvesRelaxation E T (State.val state q ix) y)
    (inProps outProps : PropDict) (inst : String) (tid : Bool) (dt : Int) (hdt : 0 ≤ seconds dt)
    (hlim : seconds dt ≤ T) (three : Bool) (n : Nat) (s s' : σ) (final : State) (ab' : AB)
    (hnd : (Dict.keys state).Nodup) (hT : state.TimeOk)
    (h : runSteps (tsCall R inProps outProps inst tid (sspCall R
      (fun s state dt => callImplicitComposite R (before ++ m :: after) s state dt) three)) dt n
        { order := 1 } s state = some (ab', s', final)) :
    |(State.val final q ix : ℝ) - y (n * (seconds dt : ℝ))| ≤
      n * (if three then ((seconds dt / T : Rat) : ℝ) ^ 4 / 24 else ((seconds dt / T : Rat) : ℝ) ^ 3 / 6) *
        |(State.val state q ix : ℝ) - E| := by
  have hx := (ssprk_relaxed_run hR hq hm hb ha hix hs hr inProps outProps inst tid dt three n s s' final ab' hnd hT h).1
  rw [run_error (d := fun n => rkDecay three (seconds dt / T) ^ n) hy hx, abs_mul]
  exact mul_le_mul_of_nonneg_right (rk_gap (div_nonneg hdt hr.positive.le) (by rwa [div_le_one hr.positive]) three n)
    (abs_nonneg _)

/-- **C103.**  Leapfrog without filter: the error at a given time is of second order in the
timestep, though it grows with time. -/
theorem lf_accuracy_unfiltered (hR : R.Faithful) (hq : QuotientOk R quotient units) {m : Comp σ}
    (hm : IsRelaxation R quotient q units m) {L : String → Nat} {before after : List (Comp σ)}
    (hb : ∀ c ∈ before, Elsewhere L q c) (ha : ∀ c ∈ after, Elsewhere L q c) {ix : String → Nat}
    (hix : ∀ d, ix d < L d) {state : State} (hs : ∀ k a, (k, Val.da a) ∈ state → OnGrid L a) {E T : Rat}
    (hr : Relaxing R q ix state E T) {y : ℝ → ℝ} (hy : SolvesRelaxation E T (State.val state q ix) y)
    (inProps outProps : PropDict) (inst : String) (tid : Bool) (dt : Int) (hdt : 0 ≤ seconds dt)
    (alpha : Rat) (n : Nat) (s s' : σ) (final : State) (lf' : LF)
    (h : runSteps (tsCall R inProps outProps inst tid (LF.call R
      (fun s state dt => callImplicitComposite R (before ++ m :: after) s state dt))) dt n
        { strength := 0, alpha := alpha } s state = some (lf', s', final)) :
    |(State.val final q ix : ℝ) - y (n * (seconds dt : ℝ))| ≤
      (1 + 2 * ((seconds dt / T : Rat) : ℝ)) ^ n *
        (((seconds dt / T : Rat) : ℝ) ^ 2 / 2 + n * (4 / 3 * ((seconds dt / T : Rat) : ℝ) ^ 3)) *
        |(State.val state q ix : ℝ) - E| := by
  have hx := (lf_relaxed_run hR hq hm hb ha hix hs hr inProps outProps inst tid dt 0 alpha n s s' final lf' h).1
  rw [run_error hy hx, abs_mul]
  exact mul_le_mul_of_nonneg_right (lf_gap (div_nonneg hdt hr.positive.le) alpha n n le_rfl) (abs_nonneg _)

/-- **C103.**  Leapfrog with a filter of strength ν and alpha from 0 to 1, with timesteps of at most
ν / 4 timescales: the error at a given time is of second order in the timestep if alpha is 1/2
(the default), else of first order, and does not grow faster than time. -/
theorem lf_accuracy (hR : R.Faithful) (hq : QuotientOk R quotient units) {m : Comp σ}
    (hm : IsRelaxation R quotient q units m) {L : String → Nat} {before after : List (Comp σ)}
    (hb : ∀ c ∈ before, Elsewhere L q c) (ha : ∀ c ∈ after, Elsewhere L q c) {ix : String → Nat}
    (hix : ∀ d, ix d < L d) {state : State} (hs : ∀ k a, (k, Val.da a) ∈ state → OnGrid L a) {E T : Rat}
    (hr : Relaxing R q ix state E T) {y : ℝ → ℝ} (hy : SolvesRelaxation E T (State.val state q ix) y)
    (inProps outProps : PropDict) (inst : String) (tid : Bool) (dt : Int) (hdt : 0 ≤ seconds dt)
    (ν α : Rat) (hν0 : 0 < ν) (hν : ν ≤ 1) (hα0 : 0 ≤ α) (hα : α ≤ 1) (hlim : 4 * seconds dt ≤ ν * T) (n : Nat) (s s' : σ)
    (final : State) (lf' : LF)
    (h : runSteps (tsCall R inProps outProps inst tid (LF.call R
      (fun s state dt => callImplicitComposite R (before ++ m :: after) s state dt))) dt n
        { strength := ν, alpha := α } s state = some (lf', s', final)) :
    |(State.val final q ix : ℝ) - y (n * (seconds dt : ℝ))| ≤
      (2 * (((seconds dt / T : Rat) : ℝ) ^ 2 / 2 + n * (7 / 3 * ((seconds dt / T : Rat) : ℝ) ^ 3 +
        |2 * (α : ℝ) - 1| * ν / 2 * ((seconds dt / T : Rat) : ℝ) ^ 2)) + 5 / 3 * ((seconds dt / T : Rat) : ℝ) ^ 2) *
        |(State.val state q ix : ℝ) - E| := by
  have hx := (lf_relaxed_run hR hq hm hb ha hix hs hr inProps outProps inst tid dt ν α n s s' final lf' h).1
  rw [run_error hy hx, abs_mul]
  refine mul_le_mul_of_nonneg_right (lf_filtered_gap (div_nonneg hdt hr.positive.le) hν hα0 hα ?_ hν0 n) (abs_nonneg _)
  rw [← mul_div_assoc, div_le_iff₀ hr.positive]
  exact hlim

/-- **C103 fails** for AdamsBashforth of the orders 3 and 4: during the first fortieth of the
timescale the error is at least the square of the timestep in timescales, divided by 4. -/
theorem ab_second_order_only (hR : R.Faithful) (hq : QuotientOk R quotient units) {m : Comp σ}
    (hm : IsRelaxation R quotient q units m) {L : String → Nat} {before after : List (Comp σ)}
    (hb : ∀ c ∈ before, Elsewhere L q c) (ha : ∀ c ∈ after, Elsewhere L q c) {ix : String → Nat}
    (hix : ∀ d, ix d < L d) {state : State} (hs : ∀ k a, (k, Val.da a) ∈ state → OnGrid L a) {E T : Rat}
    (hr : Relaxing R q ix state E T) {y : ℝ → ℝ} (hy : SolvesRelaxation E T (State.val state q ix) y)
    (inProps outProps : PropDict) (inst : String) (tid : Bool) (dt : Int) (hdt : 0 < seconds dt) (k : Int)
    (hk34 : 3 ≤ k) (ab : AB) (hk : AB.make k = .ok ab) (n : Nat) (hn : 1 ≤ n) (hlim : n * seconds dt ≤ T / 40) (s s' : σ)
    (final : State) (ab' : AB)
    (h : runSteps (tsCall R inProps outProps inst tid (abCall R
      (fun s state dt => callImplicitComposite R (before ++ m :: after) s state dt))) dt n ab s state =
        some (ab', s', final)) :
    ((seconds dt / T : Rat) : ℝ) ^ 2 / 4 * |(State.val state q ix : ℝ) - E| ≤
      |(State.val final q ix : ℝ) - y (n * (seconds dt : ℝ))| := by
  have hx := (ab_relaxed_run hR hq hm hb ha hix hs hr inProps outProps inst tid dt k ab hk n s s' final ab' h).1
  rw [run_error hy hx, abs_mul]
  refine mul_le_mul_of_nonneg_right ?_ (abs_nonneg _)
  have h0 : 0 < seconds dt / T := div_pos hdt hr.positive
  have h2 : (n : ℝ) * ((seconds dt / T : Rat) : ℝ) ≤ 1 / 40 := by
    have e : (n : Rat) * (seconds dt / T) ≤ 1 / 40 := by
      rw [← mul_div_assoc, div_le_iff₀ hr.positive]
      linarith
    have e' : (((n : Rat) * (seconds dt / T) : Rat) : ℝ) ≤ ((1 / 40 : Rat) : ℝ) := by exact_mod_cast e
    push_cast at e' ⊢
    linarith
  have horder : ab.order = 3 ∨ ab.order = 4 := by
    unfold AB.make at hk
    split at hk
    · injection hk with hk
      subst hk
      dsimp only
      omega
    · cases hk
  have hneg : gap (abDecay ab.order (seconds dt / T)) (seconds dt / T) n ≤ -(((seconds dt / T : Rat) : ℝ) ^ 2 / 4) := by
    rcases horder with e | e <;> rw [e]
    · exact ab3_gap_ge h0 hn h2
    · exact ab4_gap_ge h0 hn h2
  rw [le_abs]
  exact .inr (by linarith)

/-- **C103 fails** for AdamsBashforth of the orders 3 (the default) and 4: no multiple of the
third power of the timestep bounds the error at the time of a fortieth of the timescale, for any
quantity that is not at its equilibrium at first. -/
theorem ab_no_third_order (hR : R.Faithful) (hq : QuotientOk R quotient units) {m : Comp σ}
    (hm : IsRelaxation R quotient q units m) {L : String → Nat} {before after : List (Comp σ)}
    (hb : ∀ c ∈ before, Elsewhere L q c) (ha : ∀ c ∈ after, Elsewhere L q c) {ix : String → Nat}
    (hix : ∀ d, ix d < L d) {state : State} (hs : ∀ k a, (k, Val.da a) ∈ state → OnGrid L a) {E T : Rat}
    (hr : Relaxing R q ix state E T) (hne : State.val state q ix ≠ E) {y : ℝ → ℝ}
    (hy : SolvesRelaxation E T (State.val state q ix) y)
    (inProps outProps : PropDict) (inst : String) (tid : Bool) (k : Int) (hk34 : 3 ≤ k) (ab : AB)
    (hk : AB.make k = .ok ab) (C : ℝ) (dt : Int) (n : Nat) (hn : C / 10 < n) (h1 : 1 ≤ n) (ht : n * seconds dt = T / 40)
    (s s' : σ) (final : State) (ab' : AB)
    (h : runSteps (tsCall R inProps outProps inst tid (abCall R
      (fun s state dt => callImplicitComposite R (before ++ m :: after) s state dt))) dt n ab s state =
        some (ab', s', final)) :
    C * ((seconds dt / T : Rat) : ℝ) ^ 3 * |(State.val state q ix : ℝ) - E| <
      |(State.val final q ix : ℝ) - y (n * (seconds dt : ℝ))| := by
  have hn0 : (0 : Rat) < n := by exact_mod_cast h1
  have hdt : 0 < seconds dt := by
    have := hr.positive
    by_contra hc
    have hc : seconds dt ≤ 0 := not_lt.1 hc
    have := mul_nonpos_of_nonneg_of_nonpos hn0.le hc
    linarith
  have hge := ab_second_order_only hR hq hm hb ha hix hs hr hy inProps outProps inst tid dt hdt k hk34 ab hk n h1 ht.le
    s s' final ab' h
  refine lt_of_lt_of_le ?_ hge
  have hd : 0 < |(State.val state q ix : ℝ) - E| := by
    rw [abs_pos, sub_ne_zero]
    exact_mod_cast hne
  refine mul_lt_mul_of_pos_right ?_ hd
  have hz0 : (0 : ℝ) < ((seconds dt / T : Rat) : ℝ) := by exact_mod_cast div_pos hdt hr.positive
  have hz : (n : ℝ) * ((seconds dt / T : Rat) : ℝ) = 1 / 40 := by
    have e : (n : Rat) * (seconds dt / T) = 1 / 40 := by
      rw [← mul_div_assoc, ht, div_div, div_eq_div_iff (by have := hr.positive; positivity) (by norm_num)]
      ring
    have e' : (((n : Rat) * (seconds dt / T) : Rat) : ℝ) = ((1 / 40 : Rat) : ℝ) := by rw [e]
    push_cast at e' ⊢
    linarith
  set z := ((seconds dt / T : Rat) : ℝ)
  have hCz : C * z < 1 / 4 := by
    have := mul_lt_mul_of_pos_right hn hz0
    linarith
  have := mul_lt_mul_of_pos_right hCz (pow_pos hz0 2)
  linarith

namespace Demo

/-- Every run of the second-order Adams-Bashforth scheme in steps of 10 seconds with a timescale
of 20 seconds, and of order 3 in 5 steps of a tenth of a second, when the error is at least that
of the second order. -/
example (n : ℕ) : ∃ r, runSteps (tsCall reg [] [] "AB" false (abCall reg relaxProg)) 10000000 n { order := 2 } ()
    relaxRunState = some r ∧ ∃ y, SolvesRelaxation (27515 / 100) 20 120 y ∧
      |(State.val r.2.2 "T" relaxIx : ℝ) - y (n * 10)| ≤
        ((1 / 2 : ℝ) ^ 2 / 2 + n * (4 / 3 * (1 / 2 : ℝ) ^ 3)) * |(120 : ℝ) - 27515 / 100| := by
  obtain ⟨r, hrun, -⟩ := ab_completes (inProps := []) (outProps := []) (inst := "AB") (tid := false) relaxRun_startable
    (relaxProg_supplies 10000000) (by simp) 2 { order := 2 } rfl n ()
  have e2 : State.val relaxRunState "T" relaxIx = 120 := by decide +kernel
  have hs : SolvesRelaxation (27515 / 100) 20 (State.val relaxRunState "T" relaxIx) _ := solvesRelaxation _ _ _
  have h := ab_accuracy_partial reg_faithful quotient_K relaxMember_is (by simpa using hMember_elsewhere)
    (by simp) relaxIx_lt relaxRunState_grid relaxing_here hs [] [] "AB" false 10000000 (by decide +kernel) 2 { order := 2 }
    rfl (by show seconds 10000000 ≤ 2 / 3 * 20; decide +kernel) n () _ _ _ hrun
  refine ⟨r, hrun, _, e2 ▸ hs, ?_⟩
  have e1 : seconds 10000000 = 10 := by decide +kernel
  rw [e1, e2] at h
  simp only [abError] at h
  norm_num at h ⊢
  exact h

example : ∃ r, runSteps (tsCall reg [] [] "AB" false (abCall reg relaxProg)) 100000 5 { order := 3 } ()
    relaxRunState = some r ∧ ∃ y, SolvesRelaxation (27515 / 100) 20 120 y ∧
      (1 / 200 : ℝ) ^ 2 / 4 * |(120 : ℝ) - 27515 / 100| ≤ |(State.val r.2.2 "T" relaxIx : ℝ) - y (5 * (1 / 10))| := by
  obtain ⟨r, hrun, -⟩ := ab_completes (inProps := []) (outProps := []) (inst := "AB") (tid := false) relaxRun_startable
    (relaxProg_supplies 100000) (by simp) 3 { order := 3 } rfl 5 ()
  have e2 : State.val relaxRunState "T" relaxIx = 120 := by decide +kernel
  have hs : SolvesRelaxation (27515 / 100) 20 (State.val relaxRunState "T" relaxIx) _ := solvesRelaxation _ _ _
  have h := ab_second_order_only reg_faithful quotient_K relaxMember_is (by simpa using hMember_elsewhere)
    (by simp) relaxIx_lt relaxRunState_grid relaxing_here hs [] [] "AB" false 100000 (by decide +kernel) 3 (by decide)
    { order := 3 } rfl 5 (by decide) (by decide +kernel) () _ _ _ hrun
  refine ⟨r, hrun, _, e2 ▸ hs, ?_⟩
  have e1 : seconds 100000 = 1 / 10 := by decide +kernel
  rw [e1, e2] at h
  norm_num at h ⊢
  exact h

/-- Leapfrog with its default filter in steps of an eighth of a second: after `n` of them the error
is at most 8/3 + 14/3 n / 160 times (1/160)² of the distance at the start.  SSPRungeKutta with three
stages in steps of 2 seconds. -/
example (n : ℕ) : (∃ r, runSteps (tsCall reg [] [] "LF" false (LF.call reg relaxProg)) 125000 n {} () relaxRunState = some r ∧
    ∃ y, SolvesRelaxation (27515 / 100) 20 120 y ∧ |(State.val r.2.2 "T" relaxIx : ℝ) - y (n * (1 / 8))| ≤
      (2 * ((1 / 160 : ℝ) ^ 2 / 2 + n * (7 / 3 * (1 / 160) ^ 3)) + 5 / 3 * (1 / 160) ^ 2) * |(120 : ℝ) - 27515 / 100|) ∧
    ∃ r, runSteps (tsCall reg [] [] "SSP" false (sspCall reg relaxProg true)) 2000000 n { order := 1 } () relaxRunState = some r ∧
    ∃ y, SolvesRelaxation (27515 / 100) 20 120 y ∧ |(State.val r.2.2 "T" relaxIx : ℝ) - y (n * 2)| ≤
      n * ((1 / 10 : ℝ) ^ 4 / 24) * |(120 : ℝ) - 27515 / 100| := by
  have e2 : State.val relaxRunState "T" relaxIx = 120 := by decide +kernel
  have hs : SolvesRelaxation (27515 / 100) 20 (State.val relaxRunState "T" relaxIx) _ := solvesRelaxation _ _ _
  constructor
  · obtain ⟨r, hrun, -⟩ := lf_completes (inProps := []) (outProps := []) (inst := "LF") (tid := false) relaxRun_startable
      (relaxProg_supplies 125000) (by simp) (1 / 20) (1 / 2) n ()
    have h := lf_accuracy reg_faithful quotient_K relaxMember_is (by simpa using hMember_elsewhere)
      (by simp) relaxIx_lt relaxRunState_grid relaxing_here hs [] [] "LF" false 125000 (by decide +kernel) (1 / 20) (1 / 2)
      (by norm_num) (by norm_num) (by norm_num) (by norm_num) (by decide +kernel) n () _ _ _ hrun
    refine ⟨r, hrun, _, e2 ▸ hs, ?_⟩
    have e1 : seconds 125000 = 1 / 8 := by decide +kernel
    rw [e1, e2] at h
    norm_num at h ⊢
    exact h
  · obtain ⟨r, hrun, -⟩ := ssprk_completes (inProps := []) (outProps := []) (inst := "SSP") (tid := false) relaxRun_startable
      (relaxProg_supplies 2000000) (by simp) true n ()
    have h := ssprk_accuracy reg_faithful quotient_K relaxMember_is (by simpa using hMember_elsewhere)
      (by simp) relaxIx_lt relaxRunState_grid relaxing_here hs [] [] "SSP" false 2000000 (by decide +kernel)
      (by decide +kernel) true n () _ _ _ (by decide) relaxRun_startable.time hrun
    refine ⟨r, hrun, _, e2 ▸ hs, ?_⟩
    have e1 : seconds 2000000 = 2 := by decide +kernel
    rw [e1, e2] at h
    norm_num at h ⊢
    exact h

end Demo

end Verif
