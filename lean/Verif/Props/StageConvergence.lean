import Verif.Spec.StageConvergence
import Verif.Props.StageErrors
import Verif.Props.Convergence
/-! # SSPRungeKutta runs follow the differential equation of the components: property C116 -/

namespace Verif

variable {conv : DataArray → String → Except Err DataArray} {I : (String → Nat) → Prop} {w : String → Rat}
  {Q : String → Prop} {y : Trajectory} {J : Set ℝ} {D : Nat → Rat}

/-! ## Truncation errors -/

section
variable {d : Nat → ℝ → ℝ} {t h B2 B3 : ℝ}

/-- Taylor's theorem for a function and its derivative, as needed below. -/
theorem taylor_stages (hJ : Convex ℝ J) (ht : t ∈ J) (hth : t + h ∈ J)
    (hd : ∀ j ≤ 2, ∀ x ∈ J, HasDerivAt (d j) (d (j + 1) x) x) (h2 : ∀ x ∈ J, |d 2 x| ≤ B2) (h3 : ∀ x ∈ J, |d 3 x| ≤ B3) :
    |d 0 (t + h) - (d 0 t + h * d 1 t)| ≤ B2 * (|h| ^ 2 / 2) ∧
    |d 0 (t + h) - (d 0 t + h * d 1 t + h ^ 2 / 2 * d 2 t)| ≤ B3 * (|h| ^ 3 / 6) ∧
    |d 1 (t + h) - d 1 t| ≤ B2 * |h| ∧ |d 1 (t + h) - (d 1 t + h * d 2 t)| ≤ B3 * (|h| ^ 2 / 2) := by
  have a := taylor_within hJ (n := 2) (d := d) ht hth (fun j hj => hd j (by omega)) h2
  have b := taylor_within hJ (n := 3) (d := d) ht hth (fun j hj => hd j (by omega)) h3
  have c := taylor_within hJ (n := 1) (d := fun j => d (j + 1)) ht hth (fun j hj => hd (j + 1) (by omega)) h2
  have e := taylor_within hJ (n := 2) (d := fun j => d (j + 1)) ht hth (fun j hj => hd (j + 1) (by omega)) h3
  simp only [taylorSum, Finset.sum_range_succ, Finset.sum_range_zero, Nat.factorial] at a b c e
  norm_num at a b c e
  refine ⟨?_, ?_, c, ?_⟩
  · rwa [mul_comm h, sq_abs]
  · rwa [mul_comm h, mul_comm (h ^ 2 / 2)]
  · rwa [mul_comm h, sq_abs]

/-- The trapezoidal rule. -/
theorem trapezoid (hJ : Convex ℝ J) (ht : t ∈ J) (hth : t + h ∈ J)
    (hd : ∀ j ≤ 2, ∀ x ∈ J, HasDerivAt (d j) (d (j + 1) x) x) (h2 : ∀ x ∈ J, |d 2 x| ≤ B2) (h3 : ∀ x ∈ J, |d 3 x| ≤ B3) :
    |d 0 t + h / 2 * (d 1 t + d 1 (t + h)) - d 0 (t + h)| ≤ 5 / 12 * (B3 * |h| ^ 3) := by
  obtain ⟨_, b, _, e⟩ := taylor_stages hJ ht hth hd h2 h3
  have i := abs_sub (h / 2 * (d 1 (t + h) - (d 1 t + h * d 2 t))) (d 0 (t + h) - (d 0 t + h * d 1 t + h ^ 2 / 2 * d 2 t))
  rw [show d 0 t + h / 2 * (d 1 t + d 1 (t + h)) - d 0 (t + h) = h / 2 * (d 1 (t + h) - (d 1 t + h * d 2 t)) -
    (d 0 (t + h) - (d 0 t + h * d 1 t + h ^ 2 / 2 * d 2 t)) by ring]
  refine le_trans i ?_
  rw [abs_mul, abs_div, abs_two]
  have := mul_le_mul_of_nonneg_left e (by positivity : 0 ≤ |h| / 2)
  calc _ ≤ |h| / 2 * (B3 * (|h| ^ 2 / 2)) + B3 * (|h| ^ 3 / 6) := add_le_add this b
    _ = _ := by ring

/-- The middle of the step by the trapezoidal rule for the whole step. -/
theorem middle (hJ : Convex ℝ J) (ht : t ∈ J) (hth : t + h ∈ J) (htm : t + h / 2 ∈ J)
    (hd : ∀ j ≤ 2, ∀ x ∈ J, HasDerivAt (d j) (d (j + 1) x) x) (h2 : ∀ x ∈ J, |d 2 x| ≤ B2) (h3 : ∀ x ∈ J, |d 3 x| ≤ B3) :
    |d 0 t + h / 4 * (d 1 t + d 1 (t + h)) - d 0 (t + h / 2)| ≤ 3 / 8 * (B2 * |h| ^ 2) := by
  obtain ⟨_, _, c, _⟩ := taylor_stages hJ ht hth hd h2 h3
  obtain ⟨a, _⟩ := taylor_stages hJ ht htm hd h2 h3
  have i := abs_sub (h / 4 * (d 1 (t + h) - d 1 t)) (d 0 (t + h / 2) - (d 0 t + h / 2 * d 1 t))
  rw [show d 0 t + h / 4 * (d 1 t + d 1 (t + h)) - d 0 (t + h / 2) = h / 4 * (d 1 (t + h) - d 1 t) -
    (d 0 (t + h / 2) - (d 0 t + h / 2 * d 1 t)) by ring]
  refine le_trans i ?_
  rw [abs_mul, abs_div, abs_of_pos (by norm_num : (0 : ℝ) < 4)]
  rw [abs_div, abs_two] at a
  have := mul_le_mul_of_nonneg_left c (by positivity : 0 ≤ |h| / 4)
  calc _ ≤ |h| / 4 * (B2 * |h|) + B2 * ((|h| / 2) ^ 2 / 2) := add_le_add this a
    _ = _ := by ring

/-- Simpson's rule. -/
theorem simpson (hJ : Convex ℝ J) (ht : t ∈ J) (hth : t + h ∈ J) (htm : t + h / 2 ∈ J)
    (hd : ∀ j ≤ 2, ∀ x ∈ J, HasDerivAt (d j) (d (j + 1) x) x) (h2 : ∀ x ∈ J, |d 2 x| ≤ B2) (h3 : ∀ x ∈ J, |d 3 x| ≤ B3) :
    |d 0 t + h / 6 * (d 1 t + d 1 (t + h) + 4 * d 1 (t + h / 2)) - d 0 (t + h)| ≤ 1 / 3 * (B3 * |h| ^ 3) := by
  obtain ⟨_, b, _, e⟩ := taylor_stages hJ ht hth hd h2 h3
  obtain ⟨_, _, _, e'⟩ := taylor_stages hJ ht htm hd h2 h3
  have i := abs_sub (h / 6 * (d 1 (t + h) - (d 1 t + h * d 2 t)) + h * 2 / 3 * (d 1 (t + h / 2) - (d 1 t + h / 2 * d 2 t)))
    (d 0 (t + h) - (d 0 t + h * d 1 t + h ^ 2 / 2 * d 2 t))
  have i' := abs_add_le (h / 6 * (d 1 (t + h) - (d 1 t + h * d 2 t)))
    (h * 2 / 3 * (d 1 (t + h / 2) - (d 1 t + h / 2 * d 2 t)))
  rw [show d 0 t + h / 6 * (d 1 t + d 1 (t + h) + 4 * d 1 (t + h / 2)) - d 0 (t + h) =
    h / 6 * (d 1 (t + h) - (d 1 t + h * d 2 t)) + h * 2 / 3 * (d 1 (t + h / 2) - (d 1 t + h / 2 * d 2 t)) -
    (d 0 (t + h) - (d 0 t + h * d 1 t + h ^ 2 / 2 * d 2 t)) by ring]
  refine le_trans i (le_trans (add_le_add i' (le_refl _)) ?_)
  rw [abs_mul, abs_mul, abs_div, abs_div, abs_mul, abs_two, abs_of_pos (by norm_num : (0 : ℝ) < 6),
    abs_of_pos (by norm_num : (0 : ℝ) < 3)]
  rw [abs_div h 2, abs_two] at e'
  have k1 := mul_le_mul_of_nonneg_left e (by positivity : 0 ≤ |h| / 6)
  have k2 := mul_le_mul_of_nonneg_left e' (by positivity : 0 ≤ |h| * 2 / 3)
  calc _ ≤ |h| / 6 * (B3 * (|h| ^ 2 / 2)) + |h| * 2 / 3 * (B3 * ((|h| / 2) ^ 2 / 2)) + B3 * (|h| ^ 3 / 6) :=
        add_le_add (add_le_add k1 k2) b
    _ = _ := by ring

end

/-! ## Stages -/

section
variable {σ : Type} {p : ProgOver σ DataArray} {dt : Int}

/-- The values after a stage. -/
theorem eulerCallO_values {ab ab' : ABOver DataArray} {s s' : σ} {x n : EState DataArray} {diag : Dict DataArray}
    (ho : ab.order = 1) (hh : ab.hist = []) (h : eulerCallO (roundedArith id conv) p ab s x dt = (ab', s', .ok (diag, n))) :
    ∃ r t, (p s x dt).2 = .ok r ∧ convertTendenciesO (roundedArith id conv) x r.1 = .ok t ∧
      ∀ q ∈ Dict.keys t, ∃ a b, Dict.get? x q = some (.da a) ∧ Dict.get? n q = some (.da b) ∧
        ∀ ix, b.at' ix = a.at' ix + seconds dt * tval t q ix := by
  obtain ⟨_, _, _, r, t, m, hr, ht, hm, rfl⟩ := eulerCallO_ok ho hh h
  refine ⟨r, t, hr, ht, fun q hq => ?_⟩
  obtain ⟨k, hk, _, _, hkeys, hs⟩ := performStepO_spec hm
  have hk1 : k = 1 := hk
  subst hk1
  have hqm : q ∈ Dict.keys m := by
    rw [hkeys]
    exact hq
  obtain ⟨a, b, ha, hb, _, _, hv⟩ := hs q hqm
  obtain ⟨c1, c2, _⟩ := copyUntouchedO_spec x m
  obtain ⟨_, c5, _⟩ := copyUntouchedO_spec x (copyUntouchedO x m)
  refine ⟨a, b, ha, by rw [c5 q ((c1 q).2 (Or.inr hqm)), c2 q hqm, hb], fun ix => ?_⟩
  rw [hv ix, roundedAB_id (le_refl 1) (by omega), abFormula_one]
  rfl

/-- The state after a stage is near the solution at the next time, and its values are known. -/
theorem euler_near (hJ : Convex ℝ J) (hy : SmoothDuring I w Q y J 2 D) {L : Rat}
    (hp : FollowsSolution I w Q y J L (roundedArith id conv) p dt)
    {ab ab' : ABOver DataArray} {s s' : σ} {x n : EState DataArray} {diag : Dict DataArray} {E : Rat} {τ : ℝ} (hE : 0 ≤ E)
    (hτ : τ ∈ J) (hτh : τ + (seconds dt : ℝ) ∈ J) (ho : ab.order = 1) (hh : ab.hist = [])
    (hx : NearSolution I w Q y E τ x)
    (h : eulerCallO (roundedArith id conv) p ab s x dt = (ab', s', .ok (diag, n))) :
    NearSolution I w Q y ((1 + |seconds dt| * L) * E + D 2 * (|seconds dt| ^ 2 / 2)) (τ + (seconds dt : ℝ)) n ∧
    ∀ q, Q q → ∃ a b, Dict.get? x q = some (.da a) ∧ Dict.get? n q = some (.da b) ∧ ∀ ix, I ix →
      ∃ v : Rat, b.at' ix = a.at' ix + seconds dt * v ∧ |(v : ℝ) - y 1 q ix τ| ≤ ((L * E : Rat) : ℝ) * w q := by
  obtain ⟨r, t, hr, ht, hv⟩ := eulerCallO_values ho hh h
  have hn := hp s x r t E τ hτ hE hx hr ht
  have hall : ∀ q, Q q → ∃ a b, Dict.get? x q = some (.da a) ∧ Dict.get? n q = some (.da b) ∧ ∀ ix, I ix →
      ∃ v : Rat, b.at' ix = a.at' ix + seconds dt * v ∧ |(v : ℝ) - y 1 q ix τ| ≤ ((L * E : Rat) : ℝ) * w q := by
    intro q hq
    obtain ⟨hk, hd⟩ := hn q hq
    obtain ⟨a, b, ha, hb, hab⟩ := hv q hk
    exact ⟨a, b, ha, hb, fun ix hix => ⟨_, hab ix, hd ix hix⟩⟩
  refine ⟨fun q hq => ?_, hall⟩
  obtain ⟨a, b, ha, hb, hab⟩ := hall q hq
  refine ⟨b, hb, fun ix hix => ?_⟩
  obtain ⟨v, hbv, hvn⟩ := hab ix hix
  obtain ⟨a', ha', hxn⟩ := hx q hq
  rw [ha] at ha'
  cases ha'
  have tr := (taylor_stages hJ hτ hτh (d := fun j => y j q ix) (B2 := D 2 * w q) (B3 := D 3 * w q)
    (fun j hj z hz => hy.deriv j hj q hq ix hix z hz) (fun z hz => hy.bound 2 (by omega) q hq ix hix z hz)
    (fun z hz => hy.bound 3 (by omega) q hq ix hix z hz)).1
  rw [hbv]
  have i1 := abs_sub (((a.at' ix : ℝ) - y 0 q ix τ) + (seconds dt : ℝ) * ((v : ℝ) - y 1 q ix τ))
    (y 0 q ix (τ + (seconds dt : ℝ)) - (y 0 q ix τ + (seconds dt : ℝ) * y 1 q ix τ))
  have i2 := abs_add_le ((a.at' ix : ℝ) - y 0 q ix τ) ((seconds dt : ℝ) * ((v : ℝ) - y 1 q ix τ))
  have i3 := mul_le_mul_of_nonneg_left hvn (abs_nonneg (seconds dt : ℝ))
  rw [abs_mul] at i2
  have e1 : ((a.at' ix + seconds dt * v : Rat) : ℝ) - y 0 q ix (τ + (seconds dt : ℝ)) =
      (((a.at' ix : ℝ) - y 0 q ix τ) + (seconds dt : ℝ) * ((v : ℝ) - y 1 q ix τ)) -
      (y 0 q ix (τ + (seconds dt : ℝ)) - (y 0 q ix τ + (seconds dt : ℝ) * y 1 q ix τ)) := by
    push_cast
    ring
  rw [e1]
  refine le_trans i1 ?_
  have := hxn ix hix
  push_cast at i3 ⊢
  calc _ ≤ ((E : ℝ) * w q + |(seconds dt : ℝ)| * (L * E * w q)) + D 2 * w q * (|(seconds dt : ℝ)| ^ 2 / 2) := by linarith
    _ = _ := by ring

/-! ## Steps -/

/-- One step of an SSPRungeKutta, from near the solution to near the solution. -/
theorem ssprk_step_near (three : Bool) (hJ : Convex ℝ J) (hy : SmoothDuring I w Q y J 2 D) (hD : ∀ j, 0 ≤ D j)
    (hQ : ¬ Q "time") {L : Rat} (hL : 0 ≤ L) (hp : FollowsSolution I w Q y J L (roundedArith id conv) p dt)
    (hd : GivesDicts p) {ab ab' : ABOver DataArray} {s s' : σ} {x n : EState DataArray} {diag : Dict DataArray} {E : Rat}
    {τ : ℝ} (hE : 0 ≤ E) (hτ : τ ∈ J) (hτh : τ + (seconds dt : ℝ) ∈ J) (ho : ab.order = 1) (hh : ab.hist = [])
    (hx : (Dict.keys x).Nodup) (hxn : NearSolution I w Q y E τ x)
    (h : ssprkCallO (roundedArith id conv) p three ab s x dt = (ab', s', .ok (diag, n))) :
    NearSolution I w Q y (stageGrowth three (|seconds dt| * L) * E + stageTruncation three L D (seconds dt))
      (τ + (seconds dt : ℝ)) n ∧ (Dict.keys n).Nodup ∧ ab'.order = 1 ∧ ab'.hist = [] := by
  have hnil : ∀ v ∈ ([] : List (Dict DataArray)), (Dict.keys v).Nodup := fun v hv => by cases hv
  have hz : 0 ≤ |seconds dt| * L := mul_nonneg (abs_nonneg _) hL
  have hτm : τ + (seconds dt : ℝ) / 2 ∈ J := by
    have := hJ.add_smul_mem hτ hτh (t := 1 / 2) ⟨by norm_num, by norm_num⟩
    rw [smul_eq_mul] at this
    rwa [show (seconds dt : ℝ) / 2 = 1 / 2 * (seconds dt : ℝ) by ring]
  have hE1 : 0 ≤ (1 + |seconds dt| * L) * E + D 2 * (|seconds dt| ^ 2 / 2) :=
    add_nonneg (mul_nonneg (add_nonneg zero_le_one hz) hE) (mul_nonneg (hD 2) (by positivity))
  have keyOf : ∀ {z : EState DataArray} {q : String} {a : DataArray}, Dict.get? z q = some (.da a) → q ∈ Dict.keys z :=
    fun h => Dict.mem_keys_of_get? h
  unfold ssprkCallO at h
  unfold stageGrowth stageTruncation
  cases three with
  | false =>
    simp only [Bool.false_eq_true, if_false] at h ⊢
    obtain ⟨ab1, s1, x1, d2, x2, e1, e2, hn⟩ := ssprk2O_ok h
    obtain ⟨o1, i1, _⟩ := eulerCallO_ok ho hh e1
    obtain ⟨o2, i2, _⟩ := eulerCallO_ok o1 i1 e2
    obtain ⟨n1, v1⟩ := euler_near hJ hy hp hE hτ hτh ho hh hxn e1
    obtain ⟨k1, _, hm⟩ := halfSum_each hx hn
    -- the second stage, of which only the values are needed
    obtain ⟨r, t, hr, ht, hv⟩ := eulerCallO_values o1 i1 e2
    have hn2 := hp s1 x1 r t _ _ hτh hE1 n1 hr ht
    refine ⟨fun q hq => ?_, k1, o2, i2⟩
    have hqt : q ≠ "time" := fun hc => hQ (hc ▸ hq)
    obtain ⟨a, b, ha, hb, hab⟩ := v1 q hq
    obtain ⟨b', c, hb', hc, hbc⟩ := hv q (hn2 q hq).1
    rw [hb] at hb'
    cases hb'
    obtain ⟨a', c', o, ha', hc', ho', hval⟩ := hm q (keyOf ha) hqt
    rw [ha] at ha'
    rw [hc] at hc'
    cases ha'
    cases hc'
    refine ⟨o, ho', fun ix hix => ?_⟩
    obtain ⟨v, hbv, hvn⟩ := hab ix hix
    obtain ⟨a', ha', hxa⟩ := hxn q hq
    rw [ha] at ha'
    cases ha'
    have q2 := (hn2 q hq).2 ix hix
    have tr := trapezoid hJ hτ hτh (d := fun j => y j q ix) (B2 := D 2 * w q) (B3 := D 3 * w q)
      (fun j hj z hz => hy.deriv j hj q hq ix hix z hz) (fun z hz => hy.bound 2 (by omega) q hq ix hix z hz)
      (fun z hz => hy.bound 3 (by omega) q hq ix hix z hz)
    rw [hval ix, hbc ix, hbv]
    simp only [id]
    have hxi := hxa ix hix
    have hH := abs_nonneg (seconds dt : ℝ)
    generalize tval t q ix = v' at *
    have e : ((1 / 2 * (a.at' ix + (a.at' ix + seconds dt * v + seconds dt * v')) : Rat) : ℝ) -
        y 0 q ix (τ + (seconds dt : ℝ)) = ((a.at' ix : ℝ) - y 0 q ix τ) +
        (seconds dt : ℝ) / 2 * ((v : ℝ) - y 1 q ix τ) + (seconds dt : ℝ) / 2 * ((v' : ℝ) - y 1 q ix (τ + (seconds dt : ℝ))) +
        (y 0 q ix τ + (seconds dt : ℝ) / 2 * (y 1 q ix τ + y 1 q ix (τ + (seconds dt : ℝ))) -
          y 0 q ix (τ + (seconds dt : ℝ))) := by
      push_cast
      ring
    rw [e]
    refine le_trans (abs_add_le _ _) (le_trans (add_le_add (le_trans (abs_add_le _ _) (add_le_add (abs_add_le _ _) (le_refl _)))
      tr) ?_)
    rw [abs_mul, abs_mul, abs_div, abs_two]
    have j1 := mul_le_mul_of_nonneg_left hvn (by positivity : 0 ≤ |(seconds dt : ℝ)| / 2)
    have j2 := mul_le_mul_of_nonneg_left q2 (by positivity : 0 ≤ |(seconds dt : ℝ)| / 2)
    refine le_trans (add_le_add (add_le_add (add_le_add hxi j1) j2) (le_refl _)) (le_of_eq ?_)
    push_cast
    ring
  | true =>
    simp only [if_true] at h ⊢
    obtain ⟨ab1, s1, x1, ab2, s2, d2, x15, x2, d3, x25, e1, e2, hm, e3, hn⟩ := ssprk3O_ok h
    obtain ⟨o1, i1, _⟩ := eulerCallO_ok ho hh e1
    obtain ⟨o2, i2, _⟩ := eulerCallO_ok o1 i1 e2
    obtain ⟨o3, i3, _⟩ := eulerCallO_ok o2 i2 e3
    obtain ⟨n1, v1⟩ := euler_near hJ hy hp hE hτ hτh ho hh hxn e1
    have kd2 := (eulerCallO_nodup hd (by rw [i1]; exact hnil) e2).2
    have kd3 := (eulerCallO_nodup hd (by rw [i2]; exact hnil) e3).2
    obtain ⟨_, _, hmv⟩ := weightedSum_each hx kd2 hm
    obtain ⟨k1, _, hnv⟩ := weightedSum_each hx kd3 hn
    obtain ⟨r, t, hr, ht, hv⟩ := eulerCallO_values o1 i1 e2
    have hn2 := hp s1 x1 r t _ _ hτh hE1 n1 hr ht
    -- the values of the middle state
    have mid : ∀ q, Q q → ∃ a m, Dict.get? x q = some (.da a) ∧ Dict.get? x2 q = some (.da m) ∧ ∀ ix, I ix → ∃ v v' : Rat,
        m.at' ix = a.at' ix + seconds dt / 4 * (v + v') ∧ |(v : ℝ) - y 1 q ix τ| ≤ ((L * E : Rat) : ℝ) * w q ∧
        |(v' : ℝ) - y 1 q ix (τ + (seconds dt : ℝ))| ≤
          ((L * ((1 + |seconds dt| * L) * E + D 2 * (|seconds dt| ^ 2 / 2)) : Rat) : ℝ) * w q := by
      intro q hq
      have hqt : q ≠ "time" := fun hc => hQ (hc ▸ hq)
      obtain ⟨a, b, ha, hb, hab⟩ := v1 q hq
      obtain ⟨b', c, hb', hc, hbc⟩ := hv q (hn2 q hq).1
      rw [hb] at hb'
      cases hb'
      obtain ⟨a', c', o, ha', hc', ho', hval⟩ := hmv q (keyOf ha) hqt
      rw [ha] at ha'
      rw [hc] at hc'
      cases ha'
      cases hc'
      refine ⟨a, o, ha, ho', fun ix hix => ?_⟩
      obtain ⟨v, hbv, hvn⟩ := hab ix hix
      refine ⟨v, tval t q ix, ?_, hvn, (hn2 q hq).2 ix hix⟩
      rw [hval ix, hbc ix, hbv]
      simp only [id]
      ring
    have nm : NearSolution I w Q y ((1 + |seconds dt| * L / 2 + (|seconds dt| * L) ^ 2 / 4) * E +
        |seconds dt| ^ 2 * D 2 * (3 / 8 + |seconds dt| * L / 8)) (τ + (seconds dt : ℝ) / 2) x2 := by
      intro q hq
      obtain ⟨a, m, ha, hm', hval⟩ := mid q hq
      refine ⟨m, hm', fun ix hix => ?_⟩
      obtain ⟨v, v', hmv', hvn, hvn'⟩ := hval ix hix
      obtain ⟨a', ha', hxa⟩ := hxn q hq
      rw [ha] at ha'
      cases ha'
      have tr := middle hJ hτ hτh hτm (d := fun j => y j q ix) (B2 := D 2 * w q) (B3 := D 3 * w q)
        (fun j hj z hz => hy.deriv j hj q hq ix hix z hz) (fun z hz => hy.bound 2 (by omega) q hq ix hix z hz)
        (fun z hz => hy.bound 3 (by omega) q hq ix hix z hz)
      rw [hmv']
      have hxi := hxa ix hix
      have e : ((a.at' ix + seconds dt / 4 * (v + v') : Rat) : ℝ) - y 0 q ix (τ + (seconds dt : ℝ) / 2) =
          ((a.at' ix : ℝ) - y 0 q ix τ) + (seconds dt : ℝ) / 4 * ((v : ℝ) - y 1 q ix τ) +
          (seconds dt : ℝ) / 4 * ((v' : ℝ) - y 1 q ix (τ + (seconds dt : ℝ))) +
          (y 0 q ix τ + (seconds dt : ℝ) / 4 * (y 1 q ix τ + y 1 q ix (τ + (seconds dt : ℝ))) -
            y 0 q ix (τ + (seconds dt : ℝ) / 2)) := by
        push_cast
        ring
      rw [e]
      refine le_trans (abs_add_le _ _) (le_trans (add_le_add (le_trans (abs_add_le _ _)
        (add_le_add (abs_add_le _ _) (le_refl _))) tr) ?_)
      rw [abs_mul, abs_mul, abs_div, abs_of_pos (by norm_num : (0 : ℝ) < 4)]
      have j1 := mul_le_mul_of_nonneg_left hvn (by positivity : 0 ≤ |(seconds dt : ℝ)| / 4)
      have j2 := mul_le_mul_of_nonneg_left hvn' (by positivity : 0 ≤ |(seconds dt : ℝ)| / 4)
      refine le_trans (add_le_add (add_le_add (add_le_add hxi j1) j2) (le_refl _)) (le_of_eq ?_)
      push_cast
      ring
    have hE2 : 0 ≤ (1 + |seconds dt| * L / 2 + (|seconds dt| * L) ^ 2 / 4) * E +
        |seconds dt| ^ 2 * D 2 * (3 / 8 + |seconds dt| * L / 8) := by
      have := hD 2
      positivity
    obtain ⟨r3, t3, hr3, ht3, hv3⟩ := eulerCallO_values o2 i2 e3
    have hn3 := hp s2 x2 r3 t3 _ _ hτm hE2 nm hr3 ht3
    refine ⟨fun q hq => ?_, k1, o3, i3⟩
    have hqt : q ≠ "time" := fun hc => hQ (hc ▸ hq)
    obtain ⟨a, m, ha, hm', hval⟩ := mid q hq
    obtain ⟨m', c, hm'', hc, hmc⟩ := hv3 q (hn3 q hq).1
    rw [hm'] at hm''
    cases hm''
    obtain ⟨a', c', o, ha', hc', ho', hval'⟩ := hnv q (keyOf ha) hqt
    rw [ha] at ha'
    rw [hc] at hc'
    cases ha'
    cases hc'
    refine ⟨o, ho', fun ix hix => ?_⟩
    obtain ⟨v, v', hmv', hvn, hvn'⟩ := hval ix hix
    obtain ⟨a', ha', hxa⟩ := hxn q hq
    rw [ha] at ha'
    cases ha'
    have q3 := (hn3 q hq).2 ix hix
    have tr := simpson hJ hτ hτh hτm (d := fun j => y j q ix) (B2 := D 2 * w q) (B3 := D 3 * w q)
      (fun j hj z hz => hy.deriv j hj q hq ix hix z hz) (fun z hz => hy.bound 2 (by omega) q hq ix hix z hz)
      (fun z hz => hy.bound 3 (by omega) q hq ix hix z hz)
    rw [hval' ix, hmc ix, hmv']
    simp only [id]
    have hxi := hxa ix hix
    generalize tval t3 q ix = v3 at *
    have e : ((1 / 3 * a.at' ix + 2 / 3 * (a.at' ix + seconds dt / 4 * (v + v') + seconds dt * v3) : Rat) : ℝ) -
        y 0 q ix (τ + (seconds dt : ℝ)) = ((a.at' ix : ℝ) - y 0 q ix τ) +
        (seconds dt : ℝ) / 6 * ((v : ℝ) - y 1 q ix τ) + (seconds dt : ℝ) / 6 * ((v' : ℝ) - y 1 q ix (τ + (seconds dt : ℝ))) +
        (seconds dt : ℝ) * 2 / 3 * ((v3 : ℝ) - y 1 q ix (τ + (seconds dt : ℝ) / 2)) +
        (y 0 q ix τ + (seconds dt : ℝ) / 6 * (y 1 q ix τ + y 1 q ix (τ + (seconds dt : ℝ)) +
          4 * y 1 q ix (τ + (seconds dt : ℝ) / 2)) - y 0 q ix (τ + (seconds dt : ℝ))) := by
      push_cast
      ring
    rw [e]
    refine le_trans (abs_add_le _ _) (le_trans (add_le_add (le_trans (abs_add_le _ _) (add_le_add (le_trans (abs_add_le _ _)
      (add_le_add (abs_add_le _ _) (le_refl _))) (le_refl _))) tr) ?_)
    rw [abs_mul, abs_mul, abs_mul, abs_div, abs_div, abs_mul, abs_two, abs_of_pos (by norm_num : (0 : ℝ) < 6),
      abs_of_pos (by norm_num : (0 : ℝ) < 3)]
    have j1 := mul_le_mul_of_nonneg_left hvn (by positivity : 0 ≤ |(seconds dt : ℝ)| / 6)
    have j2 := mul_le_mul_of_nonneg_left hvn' (by positivity : 0 ≤ |(seconds dt : ℝ)| / 6)
    have j3 := mul_le_mul_of_nonneg_left q3 (by positivity : 0 ≤ |(seconds dt : ℝ)| * 2 / 3)
    refine le_trans (add_le_add (add_le_add (add_le_add (add_le_add hxi j1) j2) j3) (le_refl _)) (le_of_eq ?_)
    push_cast
    ring

/-! ## Runs -/

theorem stageTruncation_nonneg (three : Bool) {L : Rat} (hL : 0 ≤ L) (hD : ∀ j, 0 ≤ D j) (h : Rat) :
    0 ≤ stageTruncation three L D h := by
  have h2 := hD 2
  have h3 := hD 3
  unfold stageTruncation
  split <;> positivity

theorem ssprk_runs_near (three : Bool) (hJ : Convex ℝ J) (hy : SmoothDuring I w Q y J 2 D)
    (hD : ∀ j, 0 ≤ D j) (hQ : ¬ Q "time") {L : Rat} (hL : 0 ≤ L)
    (hp : FollowsSolution I w Q y J L (roundedArith id conv) p dt) (hd : GivesDicts p) (inProps outProps : PropDict)
    (inst : String) (tid : Bool) {b : Dict DataArray → EState DataArray → EState DataArray}
    (hb : ∀ d x q, Q q → Dict.get? (b d x) q = Dict.get? x q) (hbd : BetweenDicts b) :
    ∀ (n : Nat) (E : Rat) (ab : ABOver DataArray) (s : σ) (x : EState DataArray) (τ : ℝ) (abf : ABOver DataArray) (sf : σ)
      (xf : EState DataArray), 0 ≤ E → ab.order = 1 → ab.hist = [] → (∀ i ≤ n, τ + i * (seconds dt : ℝ) ∈ J) →
      (Dict.keys x).Nodup → NearSolution I w Q y E τ x →
      runOver (tsCallO (roundedArith id conv) inProps outProps inst tid (sspCallO (roundedArith id conv) p three)) b dt n
        ab s x = (abf, sf, .ok xf) →
      NearSolution I w Q y (grownErrors (stageGrowth three (|seconds dt| * L)) (stageTruncation three L D (seconds dt)) E n)
        (τ + n * (seconds dt : ℝ)) xf := by
  intro n
  induction n with
  | zero =>
    intro E ab s x τ abf sf xf _ _ _ _ _ hx h
    unfold runOver at h
    simp only [Prod.mk.injEq, Except.ok.injEq] at h
    rw [← h.2.2]
    simpa [grownErrors] using hx
  | succ n ih =>
    intro E ab s x τ abf sf xf hE ho hh hτ hx hxn h
    rw [grownErrors_succ]
    unfold runOver at h
    rcases hc : tsCallO (roundedArith id conv) inProps outProps inst tid
      (sspCallO (roundedArith id conv) p three) ab s x dt with ⟨ab1, s1, st1, er | ⟨d1, new⟩⟩
    · rw [hc] at h; cases h
    rw [hc] at h
    dsimp only at h
    obtain ⟨d, m, hk, hnew⟩ := tsCallO_keeps hc
    unfold sspCallO at hk
    simp only [Prod.mk.injEq] at hk
    obtain ⟨a1, a2, a3, a4⟩ := hk
    subst a3
    have h0 := hτ 0 (by omega)
    have h1 := hτ 1 (by omega)
    rw [Nat.cast_zero, zero_mul, add_zero] at h0
    rw [Nat.cast_one, one_mul] at h1
    obtain ⟨c, k1, o1, i1⟩ := ssprk_step_near three hJ hy hD hQ hL hp hd hE h0 h1 ho hh hx hxn
      (ab' := ab1) (s' := s1) (diag := d) (n := m) (by rw [← a1, ← a2, ← a4])
    have hg := stageGrowth_one_le three (mul_nonneg (abs_nonneg (seconds dt)) hL)
    have he0 := stageTruncation_nonneg three hL hD (seconds dt)
    have hE1 : E ≤ stageGrowth three (|seconds dt| * L) * E + stageTruncation three L D (seconds dt) := by
      nlinarith
    generalize stageGrowth three (|seconds dt| * L) * E + stageTruncation three L D (seconds dt) = E1 at *
    have hforw : ∀ i : Nat, τ + (seconds dt : ℝ) + i * (seconds dt : ℝ) = τ + (i + 1 : ℕ) * (seconds dt : ℝ) := by
      intro i
      push_cast
      ring
    have hres := ih E1 ab1 s1 (b d1 new) (τ + (seconds dt : ℝ)) abf sf xf (le_trans hE hE1) o1 i1
      (fun i hi => by rw [hforw]; exact hτ (i + 1) (by omega))
      (hbd d1 new (by rw [hnew]; exact nodup_copyUntouchedO _ _ k1))
      (fun q hq => by
        obtain ⟨a, ha, hv⟩ := c q hq
        refine ⟨a, ?_, hv⟩
        rw [hb _ _ q hq, hnew, (copyUntouchedO_spec _ _).2.1 q (Dict.mem_keys_of_get? ha), ha]) h
    rwa [hforw] at hres

/-- C116: a run of `n` steps of an SSPRungeKutta with two or three stages, of components that compute the right hand side
of a differential equation with Lipschitz constant `L`, from a state within `E` of a solution, ends within
`k^n * E + (sum of k^i for i < n) * g` of that solution after `n` timesteps; `k` is the polynomial of Taylor of
`exp (dt * L)` of degree 2 or 3, `g`, the truncation error, is of the third order of the timestep. -/
theorem ssprk_run_converges (three : Bool) (R : Registry) (hJ : Convex ℝ J)
    (hy : SmoothDuring I w Q y J 2 D) (hD : ∀ j, 0 ≤ D j) (hQ : ¬ Q "time") {L : Rat} (hL : 0 ≤ L)
    (hp : FollowsSolution I w Q y J L (dataArrayArith R) p dt) (hd : GivesDicts p) (inProps outProps : PropDict)
    (inst : String) (tid : Bool) {b : Dict DataArray → EState DataArray → EState DataArray}
    (hb : ∀ d x q, Q q → Dict.get? (b d x) q = Dict.get? x q) (hbd : BetweenDicts b) (n : Nat) {E : Rat} (hE : 0 ≤ E)
    (s : σ) {x : EState DataArray} (t0 : ℝ) (htimes : ∀ i ≤ n, t0 + i * (seconds dt : ℝ) ∈ J) (hx : (Dict.keys x).Nodup)
    (hxn : NearSolution I w Q y E t0 x) {abf : ABOver DataArray} {sf : σ} {xf : EState DataArray}
    (h : runOver (tsCallO (dataArrayArith R) inProps outProps inst tid (sspCallO (dataArrayArith R) p three)) b dt n
      { order := 1 } s x = (abf, sf, .ok xf)) :
    NearSolution I w Q y (stageGrowth three (|seconds dt| * L) ^ n * E +
      ((List.range n).map fun i => stageGrowth three (|seconds dt| * L) ^ i).sum *
        stageTruncation three L D (seconds dt)) (t0 + n * (seconds dt : ℝ)) xf := by
  rw [← roundedArith_id R] at hp h
  exact ssprk_runs_near three hJ hy hD hQ hL hp hd inProps outProps inst tid hb hbd n E { order := 1 } s x t0 abf sf xf
    hE rfl rfl htimes hx hxn h

/-- The growth of a step is at most that of the differential equation. -/
theorem stageGrowth_le_exp (three : Bool) {z : Rat} (hz : 0 ≤ z) : ((stageGrowth three z : Rat) : ℝ) ≤ Real.exp z := by
  have hz' : (0 : ℝ) ≤ z := by exact_mod_cast hz
  have h := Real.sum_le_exp_of_nonneg hz' 4
  simp only [Finset.sum_range_succ, Finset.sum_range_zero, Nat.factorial] at h
  refine le_trans ?_ h
  unfold stageGrowth
  have : (0 : ℝ) ≤ (z : ℝ) ^ 3 / 6 := by positivity
  split <;> (push_cast; norm_num; try linarith)

/-- C116: such a run from the exact initial values, over a time `T = n |dt|`, has an error of second order in the
timestep: at most `exp (L T) * T * dt^2` times a constant of the solution. -/
theorem ssprk_run_second_order (three : Bool) (R : Registry) (hw : ∀ q, 0 ≤ w q) (hJ : Convex ℝ J)
    (hy : SmoothDuring I w Q y J 2 D) (hD : ∀ j, 0 ≤ D j) (hQ : ¬ Q "time") {L : Rat} (hL : 0 ≤ L)
    (hp : FollowsSolution I w Q y J L (dataArrayArith R) p dt) (hd : GivesDicts p) (inProps outProps : PropDict)
    (inst : String) (tid : Bool) {b : Dict DataArray → EState DataArray → EState DataArray}
    (hb : ∀ d x q, Q q → Dict.get? (b d x) q = Dict.get? x q) (hbd : BetweenDicts b) (n : Nat)
    (s : σ) {x : EState DataArray} (t0 : ℝ) (htimes : ∀ i ≤ n, t0 + i * (seconds dt : ℝ) ∈ J) (hx : (Dict.keys x).Nodup)
    (hxn : NearSolution I w Q y 0 t0 x) {abf : ABOver DataArray} {sf : σ} {xf : EState DataArray}
    (h : runOver (tsCallO (dataArrayArith R) inProps outProps inst tid (sspCallO (dataArrayArith R) p three)) b dt n
      { order := 1 } s x = (abf, sf, .ok xf)) :
    ∀ q, Q q → ∃ a, Dict.get? xf q = some (.da a) ∧ ∀ ix, I ix →
      |(a.at' ix : ℝ) - y 0 q ix (t0 + n * (seconds dt : ℝ))| ≤
        Real.exp (L * (n * |(seconds dt : ℝ)|)) * (n * |(seconds dt : ℝ)|) * |(seconds dt : ℝ)| ^ 2 *
        (if three then L * D 2 * (1 / 3 + |(seconds dt : ℝ)| * L / 12) + D 3 / 3 else L * D 2 / 4 + 5 / 12 * D 3) * w q := by
  have main := ssprk_run_converges three R hJ hy hD hQ hL hp hd inProps outProps inst tid hb hbd n (le_refl 0) s t0 htimes
    hx hxn h
  intro q hq
  obtain ⟨a, ha, hv⟩ := main q hq
  refine ⟨a, ha, fun ix hix => le_trans (hv ix hix) ?_⟩
  have hwq : (0 : ℝ) ≤ w q := by exact_mod_cast hw q
  refine mul_le_mul_of_nonneg_right ?_ hwq
  rw [mul_zero, zero_add]
  have hz : 0 ≤ |seconds dt| * L := mul_nonneg (abs_nonneg _) hL
  have hK1 := stageGrowth_one_le three hz
  have hKe := stageGrowth_le_exp three hz
  have ht0 := stageTruncation_nonneg three hL hD (seconds dt)
  have hsum : ((List.range n).map fun i => stageGrowth three (|seconds dt| * L) ^ i).sum ≤
      n * stageGrowth three (|seconds dt| * L) ^ n := by
    have := List.sum_le_card_nsmul ((List.range n).map fun i => stageGrowth three (|seconds dt| * L) ^ i)
      (stageGrowth three (|seconds dt| * L) ^ n) (by
        intro z hz
        obtain ⟨i, hi, rfl⟩ := List.mem_map.1 hz
        exact pow_le_pow_right₀ hK1 (le_of_lt (List.mem_range.1 hi)))
    simpa using this
  have hR : ((((List.range n).map fun i => stageGrowth three (|seconds dt| * L) ^ i).sum *
      stageTruncation three L D (seconds dt) : Rat) : ℝ) ≤
      ((n * stageGrowth three (|seconds dt| * L) ^ n * stageTruncation three L D (seconds dt) : Rat) : ℝ) :=
    Rat.cast_le.2 (mul_le_mul_of_nonneg_right hsum ht0)
  refine le_trans hR ?_
  have hpow : ((stageGrowth three (|seconds dt| * L) : Rat) : ℝ) ^ n ≤ Real.exp (L * (n * |(seconds dt : ℝ)|)) := by
    refine le_trans (pow_le_pow_left₀ (by exact_mod_cast le_trans zero_le_one hK1) hKe n) (le_of_eq ?_)
    rw [← Real.exp_nat_mul]
    congr 1
    push_cast
    ring
  have ht0' : (0 : ℝ) ≤ ((stageTruncation three L D (seconds dt) : Rat) : ℝ) := by exact_mod_cast ht0
  have hres := mul_le_mul_of_nonneg_right (mul_le_mul_of_nonneg_left hpow (Nat.cast_nonneg n)) ht0'
  have ecast : ((n * stageGrowth three (|seconds dt| * L) ^ n * stageTruncation three L D (seconds dt) : Rat) : ℝ) =
      (n : ℝ) * ((stageGrowth three (|seconds dt| * L) : Rat) : ℝ) ^ n * ((stageTruncation three L D (seconds dt) : Rat) : ℝ) := by
    simp only [Rat.cast_mul, Rat.cast_pow, Rat.cast_natCast]
  rw [ecast]
  refine le_trans hres (le_of_eq ?_)
  unfold stageTruncation
  split <;> (push_cast; ring)

end

/-! ## Non-vacuity -/

theorem Demo.fades_follows (R : Registry) (dt : Int) :
    FollowsSolution Demo.origin (fun _ => 1) (· = "T") Demo.fading (Set.Ici 0) (1 / 10) (dataArrayArith R)
      (Demo.fades (dataArrayArith R)) dt := by
  intro s x r t E τ _ _ hne hr ht
  rw [← roundedArith_id] at hr ht
  have := Demo.fades_rhs (u := 0) (X := 0) (le_refl 0) id_rounds (fun h0 => absurd rfl h0) hne hr ht
  simpa using this

/-- a run of any number of steps of two stages: an error of second order in the timestep -/
example (dt : Int) (hdt : 0 ≤ dt) (n : Nat) {abf : ABOver DataArray} {xf : EState DataArray}
    (h : runOver (tsCallO (dataArrayArith Demo.reg) [] [] "" false
      (sspCallO (dataArrayArith Demo.reg) (Demo.fades (dataArrayArith Demo.reg)) false)) (fun _ s => s)
      dt n { order := 1 } () (Demo.scalarT 7) = (abf, (), .ok xf)) :
    ∃ a, Dict.get? xf "T" = some (.da a) ∧ |(a.at' (fun _ => 0) : ℝ) - 7 * Real.exp (-((n * (seconds dt : ℝ)) / 10))| ≤
      Real.exp (1 / 10 * (n * (seconds dt : ℝ))) * (n * (seconds dt : ℝ)) * (seconds dt : ℝ) ^ 2 * (7 / 1500) := by
  have hs0 : (0 : ℝ) ≤ (seconds dt : ℝ) := by
    unfold seconds
    push_cast
    have : (0 : ℝ) ≤ (dt : ℝ) := by exact_mod_cast hdt
    positivity
  obtain ⟨a, ha, hv⟩ := ssprk_run_second_order false Demo.reg (fun _ => by norm_num) (convex_Ici 0)
    (Demo.fading_smooth 2) (fun j => by positivity) (by decide) (L := 1 / 10) (by norm_num) (Demo.fades_follows _ dt)
    (Demo.fades_dicts _) [] [] "" false (b := fun _ s => s) (fun _ _ _ _ => rfl) (fun _ _ h => h) n () 0
    (fun i _ => by
      show (0 : ℝ) ≤ 0 + i * (seconds dt : ℝ)
      positivity) (by decide +kernel) Demo.fading_starts h "T" rfl
  refine ⟨a, ha, ?_⟩
  have := hv (fun _ => 0) rfl
  rw [if_neg (by decide), abs_of_nonneg hs0, zero_add] at this
  unfold Demo.fading at this
  rw [pow_zero, one_mul] at this
  refine le_trans this (le_of_eq ?_)
  push_cast
  ring

/-- one step of three stages: 7 K, one second later within 5 mK of `7 exp(-0.1) K` -/
example {abf : ABOver DataArray} {xf : EState DataArray}
    (h : runOver (tsCallO (dataArrayArith Demo.reg) [] [] "" false
      (sspCallO (dataArrayArith Demo.reg) (Demo.fades (dataArrayArith Demo.reg)) true)) (fun _ s => s)
      1000000 1 { order := 1 } () (Demo.scalarT 7) = (abf, (), .ok xf)) :
    NearSolution Demo.origin (fun _ => 1) (· = "T") Demo.fading (1 / 200) 1 xf := by
  have hs : seconds 1000000 = 1 := by decide +kernel
  have := ssprk_run_converges true Demo.reg (convex_Ici 0)
    (Demo.fading_smooth 2) (fun j => by positivity) (by decide) (L := 1 / 10) (by norm_num) (Demo.fades_follows _ 1000000)
    (Demo.fades_dicts _) [] [] "" false (b := fun _ s => s) (fun _ _ _ _ => rfl) (fun _ _ h => h) 1 (le_refl 0) () 0
    (fun i _ => by
      rw [hs]
      show (0 : ℝ) ≤ 0 + i * ((1 : Rat) : ℝ)
      push_cast
      positivity) (by decide +kernel) Demo.fading_starts h
  rw [hs] at this
  have htime : (0 : ℝ) + (1 : ℕ) * ((1 : Rat) : ℝ) = 1 := by norm_num
  rw [htime] at this
  exact this.mono (fun _ => by norm_num) (by decide +kernel)

end Verif
