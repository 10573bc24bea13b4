import Verif.Spec.TimeStages
import Verif.Props.UpdateStages
/-! # SSPRungeKutta with tendencies that depend on the time: property C129 -/

namespace Verif

variable {conv : DataArray → String → Except Err DataArray} {I : (String → Nat) → Prop} {w : String → Rat}
  {Q : String → Prop} {y : Trajectory} {J : Set ℝ} {D : Nat → Rat} {σ : Type} {p : ProgOver σ DataArray} {dt : Int}

private theorem notTime {x : EState DataArray} {now : Int} (hnow : x.clock = .ok now) {q : String} {a : DataArray}
    (ha : Dict.get? x q = some (.da a)) : q ≠ "time" := by
  rintro rfl
  unfold EState.clock at hnow
  rw [ha] at hnow
  cases hnow

/-- The stages of a step with two stages: both are computed for the time of the state. -/
theorem two_stages {ab ab' : ABOver DataArray} {s s' : σ} {x n : EState DataArray} {diag : Dict DataArray} {now : Int}
    (ho : ab.order = 1) (hh : ab.hist = []) (hx : (Dict.keys x).Nodup) (hnow : x.clock = .ok now)
    (h : ssprk2O (roundedArith id conv) p ab s x dt = (ab', s', .ok (diag, n))) :
    (ab'.order = 1 ∧ ab'.hist = [] ∧ (Dict.keys n).Nodup ∧ n.clock = .ok now) ∧
    ∃ s1 x1 r1 t1 r2 t2, x1.clock = .ok now ∧
      (s1 = (p s x dt).1 ∧ s' = (p s1 x1 dt).1 ∧ KeepsUnits x x1 ∧ KeepsUnits x n) ∧
      (p s x dt).2 = .ok r1 ∧ convertTendenciesO (roundedArith id conv) x r1.1 = .ok t1 ∧
      (p s1 x1 dt).2 = .ok r2 ∧ convertTendenciesO (roundedArith id conv) x1 r2.1 = .ok t2 ∧
      ∀ q a, Dict.get? x q = some (.da a) → ∃ a1 o, Dict.get? x1 q = some (.da a1) ∧ Dict.get? n q = some (.da o) ∧
        (∀ ix, a1.at' ix = a.at' ix + seconds dt * tval t1 q ix) ∧
        ∀ ix, o.at' ix = a.at' ix + seconds dt / 2 * (tval t1 q ix + tval t2 q ix) := by
  obtain ⟨ab1, s1, x1, d2, x2, e1, e2, hn⟩ := ssprk2O_ok h
  obtain ⟨o1, i1, w1, r, t, hr, ht, _, clk1, u1, _, v1⟩ := euler_stage ho hh e1
  obtain ⟨o2, i2, w2, r2, t2, hr2, ht2, _, _, _, _, v2⟩ := euler_stage o1 i1 e2
  obtain ⟨k1, _, hm⟩ := halfSum_each hx hn
  refine ⟨⟨o2, i2, k1, (keepsUnits_of_attrs hnow (halfSum_keeps hx hn)).2⟩, s1, x1, r, t, r2, t2, clk1 _ hnow,
    ⟨w1, w2, u1, (keepsUnits_of_attrs hnow (halfSum_keeps hx hn)).1⟩, hr, ht, hr2,
    ht2, fun q a ha => ?_⟩
  obtain ⟨b1, hb1, hv1⟩ := v1 q a ha
  obtain ⟨b2, hb2, hv2⟩ := v2 q b1 hb1
  obtain ⟨a', c', b, ha', hc', hb, hv⟩ := hm q (Dict.mem_keys_of_get? ha) (notTime hnow ha)
  rw [ha] at ha'
  cases ha'
  rw [hb2] at hc'
  cases hc'
  refine ⟨b1, b, hb1, hb, hv1, fun ix => ?_⟩
  rw [hv ix, hv2 ix, hv1 ix]
  simp only [id]
  ring

/-- The stages of a step with three stages: all are computed for the time of the state. -/
theorem three_stages (hd : GivesDicts p) {ab ab' : ABOver DataArray} {s s' : σ} {x n : EState DataArray}
    {diag : Dict DataArray} {now : Int}
    (ho : ab.order = 1) (hh : ab.hist = []) (hx : (Dict.keys x).Nodup) (hnow : x.clock = .ok now)
    (h : ssprk3O (roundedArith id conv) p ab s x dt = (ab', s', .ok (diag, n))) :
    (ab'.order = 1 ∧ ab'.hist = [] ∧ (Dict.keys n).Nodup ∧ n.clock = .ok now) ∧
    ∃ s1 x1 s2 x2 r1 t1 r2 t2 r3 t3, x1.clock = .ok now ∧ x2.clock = .ok now ∧
      (s1 = (p s x dt).1 ∧ s2 = (p s1 x1 dt).1 ∧ s' = (p s2 x2 dt).1 ∧ KeepsUnits x x1 ∧ KeepsUnits x x2 ∧ KeepsUnits x n) ∧
      (p s x dt).2 = .ok r1 ∧ convertTendenciesO (roundedArith id conv) x r1.1 = .ok t1 ∧
      (p s1 x1 dt).2 = .ok r2 ∧ convertTendenciesO (roundedArith id conv) x1 r2.1 = .ok t2 ∧
      (p s2 x2 dt).2 = .ok r3 ∧ convertTendenciesO (roundedArith id conv) x2 r3.1 = .ok t3 ∧
      ∀ q a, Dict.get? x q = some (.da a) → ∃ a1 a2 o, Dict.get? x1 q = some (.da a1) ∧ Dict.get? x2 q = some (.da a2) ∧
        Dict.get? n q = some (.da o) ∧ (∀ ix, a1.at' ix = a.at' ix + seconds dt * tval t1 q ix) ∧
        (∀ ix, a2.at' ix = a.at' ix + seconds dt / 4 * (tval t1 q ix + tval t2 q ix)) ∧
        ∀ ix, o.at' ix = a.at' ix + seconds dt / 6 * (tval t1 q ix + tval t2 q ix + 4 * tval t3 q ix) := by
  obtain ⟨ab1, s1, x1, ab2, s2, d2, x15, x2, d3, x25, e1, e2, hm, e3, hn⟩ := ssprk3O_ok h
  obtain ⟨o1, i1, w1, r, t, hr, ht, _, clk1, u1, _, v1⟩ := euler_stage ho hh e1
  obtain ⟨o2, i2, w2, r2, t2, hr2, ht2, nd2, _, _, _, v2⟩ := euler_stage o1 i1 e2
  obtain ⟨o3, i3, w3, r3, t3, hr3, ht3, nd3, _, _, _, v3⟩ := euler_stage o2 i2 e3
  have kd2 := nd2 (hd _ _ _ _ hr2)
  have kd3 := nd3 (hd _ _ _ _ hr3)
  obtain ⟨_, _, hmv⟩ := weightedSum_each hx kd2 hm
  obtain ⟨k1, _, hnv⟩ := weightedSum_each hx kd3 hn
  refine ⟨⟨o3, i3, k1, (keepsUnits_of_attrs hnow (weightedSum_keeps hx hn)).2⟩, s1, x1, s2, x2, r, t, r2, t2, r3, t3,
    clk1 _ hnow, (keepsUnits_of_attrs hnow (weightedSum_keeps hx hm)).2,
    ⟨w1, w2, w3, u1, (keepsUnits_of_attrs hnow (weightedSum_keeps hx hm)).1, (keepsUnits_of_attrs hnow (weightedSum_keeps hx hn)).1⟩,
    hr, ht, hr2, ht2, hr3, ht3, fun q a ha => ?_⟩
  obtain ⟨b1, hb1, hv1⟩ := v1 q a ha
  obtain ⟨b15, hb15, hv15⟩ := v2 q b1 hb1
  obtain ⟨a', c', b2, ha', hc', hb2, hv2⟩ := hmv q (Dict.mem_keys_of_get? ha) (notTime hnow ha)
  rw [ha] at ha'
  cases ha'
  rw [hb15] at hc'
  cases hc'
  obtain ⟨b25, hb25, hv25⟩ := v3 q b2 hb2
  obtain ⟨a', c', o, ha', hc', ho', hvo⟩ := hnv q (Dict.mem_keys_of_get? ha) (notTime hnow ha)
  rw [ha] at ha'
  cases ha'
  rw [hb25] at hc'
  cases hc'
  have m : ∀ ix, b2.at' ix = a.at' ix + seconds dt / 4 * (tval t q ix + tval t2 q ix) := by
    intro ix
    rw [hv2 ix, hv15 ix, hv1 ix]
    simp only [id]
    ring
  refine ⟨b1, b2, o, hb1, hb2, ho', hv1, m, fun ix => ?_⟩
  rw [hvo ix, hv25 ix, m ix]
  simp only [id]
  ring

/-- Taylor's theorem for one step. -/
theorem first_order (hJ : Convex ℝ J) {d : Nat → ℝ → ℝ} {t h B : ℝ} (ht : t ∈ J) (hth : t + h ∈ J)
    (hd : ∀ j ≤ 1, ∀ x ∈ J, HasDerivAt (d j) (d (j + 1) x) x) (h2 : ∀ x ∈ J, |d 2 x| ≤ B) :
    |d 0 (t + h) - (d 0 t + h * d 1 t)| ≤ B * (|h| ^ 2 / 2) := by
  have a := taylor_within hJ (n := 2) (d := d) ht hth (fun j hj => hd j (by omega)) h2
  simp only [taylorSum, Finset.sum_range_succ, Finset.sum_range_zero, Nat.factorial] at a
  norm_num at a
  rwa [mul_comm h, sq_abs]

/-- A stage state stays near the solution at the beginning of the step. -/
private theorem stage_moved {a v s y0 y1 W E F D1 : ℝ} (ha : |a - y0| ≤ E * W) (hv : |v - y1| ≤ F * W) (hy : |y1| ≤ D1 * W) :
    |a + s * v - y0| ≤ (E + |s| * (F + D1)) * W := by
  have e : a + s * v - y0 = (a - y0) + s * ((v - y1) + y1) := by ring
  rw [e]
  refine le_trans (abs_add_le _ _) ?_
  rw [abs_mul]
  have := mul_le_mul_of_nonneg_left (le_trans (abs_add_le (v - y1) y1) (add_le_add hv hy)) (abs_nonneg s)
  linarith

/-- The result of a step whose mean tendency is near the derivative at the beginning of the step. -/
private theorem stepped {a v s y0 y1 z W E F D2 : ℝ} (ha : |a - y0| ≤ E * W) (hv : |v - y1| ≤ F * W)
    (hz : |z - (y0 + s * y1)| ≤ D2 * W * (|s| ^ 2 / 2)) :
    |a + s * v - z| ≤ (E + |s| * F + |s| ^ 2 * (D2 / 2)) * W := by
  have e : a + s * v - z = ((a - y0) + s * (v - y1)) - (z - (y0 + s * y1)) := by ring
  rw [e]
  refine le_trans (abs_sub _ _) ?_
  have i := abs_add_le (a - y0) (s * (v - y1))
  rw [abs_mul] at i
  have := mul_le_mul_of_nonneg_left hv (abs_nonneg s)
  linarith

/-- One step with tendencies with additional errors `e`, if the first stage leaves the components with a memory `N` from
which the later stages compute tendencies near the derivative at the beginning of the step. -/
theorem ssprk_step_memory (three : Bool) (hJ : Convex ℝ J) (hy : SmoothDuring I w Q y J 1 D) (hD : ∀ j, 0 ≤ D j)
    {L e : Rat} (hL : 0 ≤ L) (he : 0 ≤ e) (hd : GivesDicts p)
    {ab ab' : ABOver DataArray} {s s' : σ} {x n : EState DataArray} {diag : Dict DataArray} {E : Rat} {now : Int}
    (hnow : x.clock = .ok now) (hE : 0 ≤ E) (hτ : (seconds now : ℝ) ∈ J) (hτh : (seconds now : ℝ) + (seconds dt : ℝ) ∈ J)
    (ho : ab.order = 1) (hh : ab.hist = [])
    (hx : (Dict.keys x).Nodup) (hxn : NearSolution I w Q y E (seconds now) x)
    {N : σ → Prop}
    (hfirst : ∀ r t, (p s x dt).2 = .ok r → convertTendenciesO (roundedArith id conv) x r.1 = .ok t →
      NearDerivative I w Q y (L * E + e) (seconds now) t ∧ N (p s x dt).1)
    (hlater : ∀ s1 x1 r t F, N s1 → KeepsUnits x x1 → x1.clock = .ok now → E ≤ F → NearSolution I w Q y F (seconds now) x1 →
      (p s1 x1 dt).2 = .ok r → convertTendenciesO (roundedArith id conv) x1 r.1 = .ok t →
      NearDerivative I w Q y (L * F + e) (seconds now) t ∧ N (p s1 x1 dt).1)
    (h : ssprkCallO (roundedArith id conv) p three ab s x dt = (ab', s', .ok (diag, n))) :
    NearSolution I w Q y (stageGrowth three (|seconds dt| * L) * E + (lateTruncation three L D (seconds dt) + lateAdded three L e (seconds dt)))
      ((seconds now : ℝ) + (seconds dt : ℝ)) n ∧
    N s' ∧ KeepsUnits x n ∧ ab'.order = 1 ∧ ab'.hist = [] ∧ (Dict.keys n).Nodup ∧ n.clock = .ok now := by
  have hD1 := hD 1
  have hE1 : E ≤ E + |seconds dt| * (L * E + e + D 1) := le_add_of_nonneg_right (by positivity)
  have tr : ∀ q, Q q → ∀ ix, I ix → |y 0 q ix ((seconds now : ℝ) + (seconds dt : ℝ)) -
      (y 0 q ix (seconds now) + (seconds dt : ℝ) * y 1 q ix (seconds now))| ≤ D 2 * w q * (|(seconds dt : ℝ)| ^ 2 / 2) :=
    fun q hq ix hix => first_order hJ hτ hτh (d := fun j => y j q ix) (fun j hj z hz => hy.deriv j hj q hq ix hix z hz)
      (fun z hz => hy.bound 2 (by omega) q hq ix hix z hz)
  have b1 : ∀ q, Q q → ∀ ix, I ix → |y 1 q ix (seconds now)| ≤ D 1 * w q :=
    fun q hq ix hix => hy.bound 1 (by omega) q hq ix hix _ hτ
  unfold ssprkCallO at h
  cases three with
  | false =>
    simp only [Bool.false_eq_true, if_false] at h
    obtain ⟨g, s1, x1, r1, t1, r2, t2, c1, wu, hr1, ht1, hr2, ht2, hv⟩ := two_stages ho hh hx hnow h
    obtain ⟨wu1, wu2, wux1, wun⟩ := wu
    obtain ⟨n1, m1⟩ := hfirst r1 t1 hr1 ht1
    have nx1 : NearSolution I w Q y (E + |seconds dt| * (L * E + e + D 1)) (seconds now) x1 := by
      intro q hq
      obtain ⟨a, ha, hna⟩ := hxn q hq
      obtain ⟨a1, o, ha1, _, hv1, _⟩ := hv q a ha
      refine ⟨a1, ha1, fun ix hix => ?_⟩
      rw [hv1 ix]
      have := stage_moved (s := (seconds dt : ℝ)) (hna ix hix) ((n1 q hq).2 ix hix) (b1 q hq ix hix)
      push_cast at this ⊢
      exact this
    obtain ⟨n2, m2⟩ := hlater s1 x1 r2 t2 _ (by rw [wu1]; exact m1) wux1 c1 hE1 nx1 hr2 ht2
    refine ⟨?_, by rw [wu2]; exact m2, wun, g⟩
    intro q hq
    obtain ⟨a, ha, hna⟩ := hxn q hq
    obtain ⟨a1, o, _, ho', _, hvo⟩ := hv q a ha
    refine ⟨o, ho', fun ix hix => ?_⟩
    rw [hvo ix]
    have k1 := (n1 q hq).2 ix hix
    have k2 := (n2 q hq).2 ix hix
    have k : |((tval t1 q ix : ℝ) + tval t2 q ix) / 2 - y 1 q ix (seconds now)| ≤
        ((L * E + e + (L * (E + |seconds dt| * (L * E + e + D 1)) + e) : Rat) : ℝ) / 2 * w q := by
      rw [show ((tval t1 q ix : ℝ) + tval t2 q ix) / 2 - y 1 q ix (seconds now) =
        (((tval t1 q ix : ℝ) - y 1 q ix (seconds now)) + ((tval t2 q ix : ℝ) - y 1 q ix (seconds now))) / 2 by ring,
        abs_div, abs_two]
      have := abs_add_le ((tval t1 q ix : ℝ) - y 1 q ix (seconds now)) ((tval t2 q ix : ℝ) - y 1 q ix (seconds now))
      push_cast at k1 k2 ⊢
      linarith
    have fin := stepped (s := (seconds dt : ℝ)) (hna ix hix) k (tr q hq ix hix)
    have e : ((a.at' ix + seconds dt / 2 * (tval t1 q ix + tval t2 q ix) : Rat) : ℝ) =
        (a.at' ix : ℝ) + (seconds dt : ℝ) * (((tval t1 q ix : ℝ) + tval t2 q ix) / 2) := by
      push_cast
      ring
    rw [e]
    refine le_trans fin (le_of_eq ?_)
    unfold stageGrowth lateTruncation lateAdded
    simp only [Bool.false_eq_true, if_false]
    push_cast
    ring
  | true =>
    simp only [if_true] at h
    obtain ⟨g, s1, x1, s2, x2, r1, t1, r2, t2, r3, t3, c1, c2, wu, hr1, ht1, hr2, ht2, hr3, ht3, hv⟩ :=
      three_stages hd ho hh hx hnow h
    obtain ⟨wu1, wu2, wu3, wux1, wux2, wun⟩ := wu
    obtain ⟨n1, m1⟩ := hfirst r1 t1 hr1 ht1
    have nx1 : NearSolution I w Q y (E + |seconds dt| * (L * E + e + D 1)) (seconds now) x1 := by
      intro q hq
      obtain ⟨a, ha, hna⟩ := hxn q hq
      obtain ⟨a1, a2, o, ha1, _, _, hv1, _⟩ := hv q a ha
      refine ⟨a1, ha1, fun ix hix => ?_⟩
      rw [hv1 ix]
      have := stage_moved (s := (seconds dt : ℝ)) (hna ix hix) ((n1 q hq).2 ix hix) (b1 q hq ix hix)
      push_cast at this ⊢
      exact this
    obtain ⟨n2, m2⟩ := hlater s1 x1 r2 t2 _ (by rw [wu1]; exact m1) wux1 c1 hE1 nx1 hr2 ht2
    have k12 : ∀ q, Q q → ∀ ix, I ix → |((tval t1 q ix : ℝ) + tval t2 q ix) / 2 - y 1 q ix (seconds now)| ≤
        ((L * E + e + (L * (E + |seconds dt| * (L * E + e + D 1)) + e) : Rat) : ℝ) / 2 * w q := by
      intro q hq ix hix
      have k1 := (n1 q hq).2 ix hix
      have k2 := (n2 q hq).2 ix hix
      rw [show ((tval t1 q ix : ℝ) + tval t2 q ix) / 2 - y 1 q ix (seconds now) =
        (((tval t1 q ix : ℝ) - y 1 q ix (seconds now)) + ((tval t2 q ix : ℝ) - y 1 q ix (seconds now))) / 2 by ring,
        abs_div, abs_two]
      have := abs_add_le ((tval t1 q ix : ℝ) - y 1 q ix (seconds now)) ((tval t2 q ix : ℝ) - y 1 q ix (seconds now))
      push_cast at k1 k2 ⊢
      linarith
    have nx2 : NearSolution I w Q y
        (E + |seconds dt| / 2 * ((L * E + e + (L * (E + |seconds dt| * (L * E + e + D 1)) + e)) / 2 + D 1)) (seconds now) x2 := by
      intro q hq
      obtain ⟨a, ha, hna⟩ := hxn q hq
      obtain ⟨a1, a2, o, _, ha2, _, _, hv2, _⟩ := hv q a ha
      refine ⟨a2, ha2, fun ix hix => ?_⟩
      rw [hv2 ix]
      have := stage_moved (s := (seconds dt : ℝ) / 2) (hna ix hix) (k12 q hq ix hix) (b1 q hq ix hix)
      have e : ((a.at' ix + seconds dt / 4 * (tval t1 q ix + tval t2 q ix) : Rat) : ℝ) =
          (a.at' ix : ℝ) + (seconds dt : ℝ) / 2 * (((tval t1 q ix : ℝ) + tval t2 q ix) / 2) := by
        push_cast
        ring
      rw [e]
      refine le_trans this (le_of_eq ?_)
      rw [abs_div, abs_two]
      push_cast
      ring
    obtain ⟨n3, m3⟩ := hlater s2 x2 r3 t3 _ (by rw [wu2]; exact m2) wux2 c2 (le_add_of_nonneg_right (by positivity)) nx2
      hr3 ht3
    refine ⟨?_, by rw [wu3]; exact m3, wun, g⟩
    intro q hq
    obtain ⟨a, ha, hna⟩ := hxn q hq
    obtain ⟨a1, a2, o, _, _, ho', _, _, hvo⟩ := hv q a ha
    refine ⟨o, ho', fun ix hix => ?_⟩
    rw [hvo ix]
    have k1 := k12 q hq ix hix
    have k3 := (n3 q hq).2 ix hix
    have k : |((tval t1 q ix : ℝ) + tval t2 q ix + 4 * tval t3 q ix) / 6 - y 1 q ix (seconds now)| ≤
        (1 / 3 * (((L * E + e + (L * (E + |seconds dt| * (L * E + e + D 1)) + e) : Rat) : ℝ) / 2) + 2 / 3 *
          ((L * (E + |seconds dt| / 2 * ((L * E + e + (L * (E + |seconds dt| * (L * E + e + D 1)) + e)) / 2 + D 1)) + e : Rat) : ℝ)) * w q := by
      rw [show ((tval t1 q ix : ℝ) + tval t2 q ix + 4 * tval t3 q ix) / 6 - y 1 q ix (seconds now) =
        1 / 3 * (((tval t1 q ix : ℝ) + tval t2 q ix) / 2 - y 1 q ix (seconds now)) +
        2 / 3 * ((tval t3 q ix : ℝ) - y 1 q ix (seconds now)) by ring]
      refine le_trans (abs_add_le _ _) ?_
      rw [abs_mul, abs_mul, abs_of_pos (by norm_num : (0 : ℝ) < 1 / 3), abs_of_pos (by norm_num : (0 : ℝ) < 2 / 3)]
      linarith
    have fin := stepped (s := (seconds dt : ℝ)) (hna ix hix) k (tr q hq ix hix)
    have e : ((a.at' ix + seconds dt / 6 * (tval t1 q ix + tval t2 q ix + 4 * tval t3 q ix) : Rat) : ℝ) =
        (a.at' ix : ℝ) + (seconds dt : ℝ) * (((tval t1 q ix : ℝ) + tval t2 q ix + 4 * tval t3 q ix) / 6) := by
      push_cast
      ring
    rw [e]
    refine le_trans fin (le_of_eq ?_)
    unfold stageGrowth lateTruncation lateAdded
    simp only [if_true]
    push_cast
    ring

/-- One step, from near the solution to near the solution. -/
theorem ssprk_step_late (three : Bool) (hJ : Convex ℝ J) (hy : SmoothDuring I w Q y J 1 D) (hD : ∀ j, 0 ≤ D j)
    {L : Rat} (hL : 0 ≤ L) (hp : FollowsInTime I w Q y J L (roundedArith id conv) p dt) (hd : GivesDicts p)
    {ab ab' : ABOver DataArray} {s s' : σ} {x n : EState DataArray} {diag : Dict DataArray} {E : Rat} {now : Int}
    (hnow : x.clock = .ok now) (hE : 0 ≤ E) (hτ : (seconds now : ℝ) ∈ J) (hτh : (seconds now : ℝ) + (seconds dt : ℝ) ∈ J)
    (ho : ab.order = 1) (hh : ab.hist = [])
    (hx : (Dict.keys x).Nodup) (hxn : NearSolution I w Q y E (seconds now) x)
    (h : ssprkCallO (roundedArith id conv) p three ab s x dt = (ab', s', .ok (diag, n))) :
    NearSolution I w Q y (stageGrowth three (|seconds dt| * L) * E + lateTruncation three L D (seconds dt))
      ((seconds now : ℝ) + (seconds dt : ℝ)) n ∧
    ab'.order = 1 ∧ ab'.hist = [] ∧ (Dict.keys n).Nodup ∧ n.clock = .ok now := by
  obtain ⟨g, _, _, h'⟩ := ssprk_step_memory three hJ hy hD (e := 0) hL (le_refl 0) hd hnow hE hτ hτh ho hh hx hxn
    (N := fun _ => True) (fun r t hr ht => ⟨by rw [add_zero]; exact hp s x r t E now hnow hτ hE hxn hr ht, trivial⟩)
    (fun s1 x1 r t F _ _ hc hF hn hr ht => ⟨by rw [add_zero]; exact hp s1 x1 r t F now hc hτ (le_trans hE hF) hn hr ht, trivial⟩) h
  rw [show lateAdded three L 0 (seconds dt) = 0 by unfold lateAdded; ring, add_zero] at g
  exact ⟨g, h'⟩

/-- One step with tendencies that depend on the time alone: the step of Euler. -/
theorem ssprk_step_of_time (three : Bool) {f : Int → String → (String → Nat) → Rat}
    (hp : GivenByTime I Q (roundedArith id conv) p dt f) (hd : GivesDicts p)
    {ab ab' : ABOver DataArray} {s s' : σ} {x n : EState DataArray} {diag : Dict DataArray} {now : Int}
    (hnow : x.clock = .ok now) (ho : ab.order = 1) (hh : ab.hist = []) (hx : (Dict.keys x).Nodup)
    (h : ssprkCallO (roundedArith id conv) p three ab s x dt = (ab', s', .ok (diag, n))) :
    (∀ q a, Q q → Dict.get? x q = some (.da a) → ∃ o, Dict.get? n q = some (.da o) ∧
      ∀ ix, I ix → o.at' ix = a.at' ix + seconds dt * f now q ix) ∧
    ab'.order = 1 ∧ ab'.hist = [] ∧ (Dict.keys n).Nodup ∧ n.clock = .ok now := by
  unfold ssprkCallO at h
  cases three with
  | false =>
    simp only [Bool.false_eq_true, if_false] at h
    obtain ⟨g, s1, x1, r1, t1, r2, t2, c1, wu, hr1, ht1, hr2, ht2, hv⟩ := two_stages ho hh hx hnow h
    refine ⟨fun q a hq ha => ?_, g⟩
    obtain ⟨_, o, _, ho', _, hvo⟩ := hv q a ha
    refine ⟨o, ho', fun ix hix => ?_⟩
    rw [hvo ix, hp _ _ _ _ _ hnow hr1 ht1 q hq ix hix, hp _ _ _ _ _ c1 hr2 ht2 q hq ix hix]
    ring
  | true =>
    simp only [if_true] at h
    obtain ⟨g, s1, x1, s2, x2, r1, t1, r2, t2, r3, t3, c1, c2, wu, hr1, ht1, hr2, ht2, hr3, ht3, hv⟩ :=
      three_stages hd ho hh hx hnow h
    refine ⟨fun q a hq ha => ?_, g⟩
    obtain ⟨_, _, o, _, _, ho', _, _, hvo⟩ := hv q a ha
    refine ⟨o, ho', fun ix hix => ?_⟩
    rw [hvo ix, hp _ _ _ _ _ hnow hr1 ht1 q hq ix hix, hp _ _ _ _ _ c1 hr2 ht2 q hq ix hix,
      hp _ _ _ _ _ c2 hr3 ht3 q hq ix hix]
    ring

/-! ## Runs -/

theorem lateTruncation_nonneg (three : Bool) {L : Rat} (hL : 0 ≤ L) (hD : ∀ j, 0 ≤ D j) (h : Rat) :
    0 ≤ lateTruncation three L D h := by
  have h1 := hD 1
  have h2 := hD 2
  unfold lateTruncation
  split <;> positivity

theorem ssprk_runs_late (three : Bool) (hJ : Convex ℝ J) (hy : SmoothDuring I w Q y J 1 D)
    (hD : ∀ j, 0 ≤ D j) {L : Rat} (hL : 0 ≤ L)
    (hp : FollowsInTime I w Q y J L (roundedArith id conv) p dt) (hd : GivesDicts p) (inProps outProps : PropDict)
    (inst : String) (tid : Bool) {b : Dict DataArray → EState DataArray → EState DataArray}
    (hb : ∀ d x q, Q q → Dict.get? (b d x) q = Dict.get? x q) (hbd : BetweenDicts b)
    (hbt : ∀ d x c, EState.clock x = .ok c → EState.clock (b d x) = .ok (c + dt)) :
    ∀ (n : Nat) (E : Rat) (ab : ABOver DataArray) (s : σ) (x : EState DataArray) (now : Int) (abf : ABOver DataArray) (sf : σ)
      (xf : EState DataArray), 0 ≤ E → ab.order = 1 → ab.hist = [] → x.clock = .ok now →
      (∀ i ≤ n, (seconds now : ℝ) + i * (seconds dt : ℝ) ∈ J) →
      (Dict.keys x).Nodup → NearSolution I w Q y E (seconds now) x →
      runOver (tsCallO (roundedArith id conv) inProps outProps inst tid (sspCallO (roundedArith id conv) p three)) b dt n
        ab s x = (abf, sf, .ok xf) →
      NearSolution I w Q y (grownErrors (stageGrowth three (|seconds dt| * L)) (lateTruncation three L D (seconds dt)) E n)
        ((seconds now : ℝ) + n * (seconds dt : ℝ)) xf := by
  intro n
  induction n with
  | zero =>
    intro E ab s x now abf sf xf _ _ _ _ _ _ hx h
    unfold runOver at h
    simp only [Prod.mk.injEq, Except.ok.injEq] at h
    rw [← h.2.2]
    simpa [grownErrors] using hx
  | succ n ih =>
    intro E ab s x now abf sf xf hE ho hh hnow hτ hx hxn h
    rw [grownErrors_succ]
    unfold runOver at h
    rcases hc : tsCallO (roundedArith id conv) inProps outProps inst tid
      (sspCallO (roundedArith id conv) p three) ab s x dt with ⟨ab1, s1, st1, er | ⟨d1, new⟩⟩
    · rw [hc] at h; cases h
    rw [hc] at h
    dsimp only at h
    obtain ⟨d, m, hk, hnew⟩ := tsCallO_keeps hc
    unfold sspCallO at hk
    simp only [Prod.mk.injEq] at hk
    obtain ⟨a1, a2, a3, a4⟩ := hk
    subst a3
    have h0 := hτ 0 (by omega)
    have h1 := hτ 1 (by omega)
    rw [Nat.cast_zero, zero_mul, add_zero] at h0
    rw [Nat.cast_one, one_mul] at h1
    obtain ⟨c, o1, i1, k1, clk⟩ := ssprk_step_late three hJ hy hD hL hp hd hnow hE h0 h1 ho hh hx hxn
      (ab' := ab1) (s' := s1) (diag := d) (n := m) (by rw [← a1, ← a2, ← a4])
    have hg := stageGrowth_one_le three (mul_nonneg (abs_nonneg (seconds dt)) hL)
    have he0 := lateTruncation_nonneg three hL hD (seconds dt)
    have hE1 : E ≤ stageGrowth three (|seconds dt| * L) * E + lateTruncation three L D (seconds dt) := by
      nlinarith
    generalize stageGrowth three (|seconds dt| * L) * E + lateTruncation three L D (seconds dt) = E1 at *
    have hforw : ∀ i : Nat, (seconds (now + dt) : ℝ) + i * (seconds dt : ℝ) =
        (seconds now : ℝ) + (i + 1 : ℕ) * (seconds dt : ℝ) := by
      intro i
      rw [seconds_add]
      push_cast
      ring
    have htime : Dict.get? new "time" = Dict.get? m "time" := by
      rw [hnew]
      refine (copyUntouchedO_spec _ _).2.1 "time" ?_
      unfold EState.clock at clk
      cases hm : Dict.get? m "time" with
      | none => rw [hm] at clk; cases clk
      | some v => exact Dict.mem_keys_of_get? hm
    have clk' : new.clock = .ok now := by
      unfold EState.clock at clk ⊢
      rw [htime]
      exact clk
    have hres := ih E1 ab1 s1 (b d1 new) (now + dt) abf sf xf (le_trans hE hE1) o1 i1 (hbt _ _ _ clk')
      (fun i hi => by rw [hforw]; exact hτ (i + 1) (by omega))
      (hbd d1 new (by rw [hnew]; exact nodup_copyUntouchedO _ _ k1))
      (fun q hq => by
        rw [seconds_add]
        obtain ⟨a, ha, hv⟩ := c q hq
        refine ⟨a, ?_, hv⟩
        rw [hb _ _ q hq, hnew, (copyUntouchedO_spec _ _).2.1 q (Dict.mem_keys_of_get? ha), ha]) h
    rwa [hforw] at hres

/-- C129: a run of `n` steps of an SSPRungeKutta with two or three stages, of components whose tendencies may depend on the
time, from exact initial values: all stages of a step are computed for the time at which it begins, and the error is at most
`exp (L T) * T * dt` times a constant of the solution. -/
theorem ssprk_run_first_order (three : Bool) (R : Registry) (hw : ∀ q, 0 ≤ w q) (hJ : Convex ℝ J)
    (hy : SmoothDuring I w Q y J 1 D) (hD : ∀ j, 0 ≤ D j) {L : Rat} (hL : 0 ≤ L)
    (hp : FollowsInTime I w Q y J L (dataArrayArith R) p dt) (hd : GivesDicts p) (inProps outProps : PropDict)
    (inst : String) (tid : Bool) {b : Dict DataArray → EState DataArray → EState DataArray}
    (hb : ∀ d x q, Q q → Dict.get? (b d x) q = Dict.get? x q) (hbd : BetweenDicts b)
    (hbt : ∀ d x c, EState.clock x = .ok c → EState.clock (b d x) = .ok (c + dt)) (n : Nat)
    (s : σ) {x : EState DataArray} {now : Int} (hnow : x.clock = .ok now)
    (htimes : ∀ i ≤ n, (seconds now : ℝ) + i * (seconds dt : ℝ) ∈ J) (hx : (Dict.keys x).Nodup)
    (hxn : NearSolution I w Q y 0 (seconds now) x) {abf : ABOver DataArray} {sf : σ} {xf : EState DataArray}
    (h : runOver (tsCallO (dataArrayArith R) inProps outProps inst tid (sspCallO (dataArrayArith R) p three)) b dt n
      { order := 1 } s x = (abf, sf, .ok xf)) :
    ∀ q, Q q → ∃ a, Dict.get? xf q = some (.da a) ∧ ∀ ix, I ix →
      |(a.at' ix : ℝ) - y 0 q ix ((seconds now : ℝ) + n * (seconds dt : ℝ))| ≤
        Real.exp (L * (n * |(seconds dt : ℝ)|)) * (n * |(seconds dt : ℝ)|) * |(seconds dt : ℝ)| *
        (D 2 / 2 + L * D 1 * (1 / 2 + if three then |(seconds dt : ℝ)| * L / 6 else 0)) * w q := by
  rw [← roundedArith_id R] at hp h
  have main := ssprk_runs_late three hJ hy hD hL hp hd inProps outProps inst tid hb hbd hbt n 0 { order := 1 } s x now abf sf
    xf (le_refl 0) rfl rfl hnow htimes hx hxn h
  unfold grownErrors at main
  intro q hq
  obtain ⟨a, ha, hv⟩ := main q hq
  refine ⟨a, ha, fun ix hix => le_trans (hv ix hix) ?_⟩
  have hwq : (0 : ℝ) ≤ w q := by exact_mod_cast hw q
  refine mul_le_mul_of_nonneg_right ?_ hwq
  rw [mul_zero, zero_add]
  have hz : 0 ≤ |seconds dt| * L := mul_nonneg (abs_nonneg _) hL
  have hK1 := stageGrowth_one_le three hz
  have hKe := stageGrowth_le_exp three hz
  have ht0 := lateTruncation_nonneg three hL hD (seconds dt)
  have hsum : ((List.range n).map fun i => stageGrowth three (|seconds dt| * L) ^ i).sum ≤
      n * stageGrowth three (|seconds dt| * L) ^ n := by
    have := List.sum_le_card_nsmul ((List.range n).map fun i => stageGrowth three (|seconds dt| * L) ^ i)
      (stageGrowth three (|seconds dt| * L) ^ n) (by
        intro z hz
        obtain ⟨i, hi, rfl⟩ := List.mem_map.1 hz
        exact pow_le_pow_right₀ hK1 (le_of_lt (List.mem_range.1 hi)))
    simpa using this
  have hR : ((((List.range n).map fun i => stageGrowth three (|seconds dt| * L) ^ i).sum *
      lateTruncation three L D (seconds dt) : Rat) : ℝ) ≤
      ((n * stageGrowth three (|seconds dt| * L) ^ n * lateTruncation three L D (seconds dt) : Rat) : ℝ) :=
    Rat.cast_le.2 (mul_le_mul_of_nonneg_right hsum ht0)
  refine le_trans hR ?_
  have hpow : ((stageGrowth three (|seconds dt| * L) : Rat) : ℝ) ^ n ≤ Real.exp (L * (n * |(seconds dt : ℝ)|)) := by
    refine le_trans (pow_le_pow_left₀ (by exact_mod_cast le_trans zero_le_one hK1) hKe n) (le_of_eq ?_)
    rw [← Real.exp_nat_mul]
    congr 1
    push_cast
    ring
  have ht0' : (0 : ℝ) ≤ ((lateTruncation three L D (seconds dt) : Rat) : ℝ) := by exact_mod_cast ht0
  have hres := mul_le_mul_of_nonneg_right (mul_le_mul_of_nonneg_left hpow (Nat.cast_nonneg n)) ht0'
  have ecast : ((n * stageGrowth three (|seconds dt| * L) ^ n * lateTruncation three L D (seconds dt) : Rat) : ℝ) =
      (n : ℝ) * ((stageGrowth three (|seconds dt| * L) : Rat) : ℝ) ^ n * ((lateTruncation three L D (seconds dt) : Rat) : ℝ) := by
    simp only [Rat.cast_mul, Rat.cast_pow, Rat.cast_natCast]
  rw [ecast]
  refine le_trans hres (le_of_eq ?_)
  unfold lateTruncation
  split <;> (push_cast; ring)

theorem ssprk_runs_of_time (three : Bool) {f : Int → String → (String → Nat) → Rat}
    (hp : GivenByTime I Q (roundedArith id conv) p dt f) (hd : GivesDicts p) (inProps outProps : PropDict)
    (inst : String) (tid : Bool) {b : Dict DataArray → EState DataArray → EState DataArray}
    (hb : ∀ d x q, Q q → Dict.get? (b d x) q = Dict.get? x q) (hbd : BetweenDicts b)
    (hbt : ∀ d x c, EState.clock x = .ok c → EState.clock (b d x) = .ok (c + dt)) :
    ∀ (n : Nat) (ab : ABOver DataArray) (s : σ) (x : EState DataArray) (now : Int) (abf : ABOver DataArray) (sf : σ)
      (xf : EState DataArray), ab.order = 1 → ab.hist = [] → x.clock = .ok now → (Dict.keys x).Nodup →
      runOver (tsCallO (roundedArith id conv) inProps outProps inst tid (sspCallO (roundedArith id conv) p three)) b dt n
        ab s x = (abf, sf, .ok xf) →
      ∀ q a, Q q → Dict.get? x q = some (.da a) → ∃ o, Dict.get? xf q = some (.da o) ∧ ∀ ix, I ix →
        o.at' ix = a.at' ix + seconds dt * ((List.range n).map fun i : Nat => f (now + i * dt) q ix).sum := by
  intro n
  induction n with
  | zero =>
    intro ab s x now abf sf xf _ _ _ _ h q a _ ha
    unfold runOver at h
    simp only [Prod.mk.injEq, Except.ok.injEq] at h
    rw [← h.2.2]
    exact ⟨a, ha, fun ix _ => by simp⟩
  | succ n ih =>
    intro ab s x now abf sf xf ho hh hnow hx h q a hq ha
    unfold runOver at h
    rcases hc : tsCallO (roundedArith id conv) inProps outProps inst tid
      (sspCallO (roundedArith id conv) p three) ab s x dt with ⟨ab1, s1, st1, er | ⟨d1, new⟩⟩
    · rw [hc] at h; cases h
    rw [hc] at h
    dsimp only at h
    obtain ⟨d, m, hk, hnew⟩ := tsCallO_keeps hc
    unfold sspCallO at hk
    simp only [Prod.mk.injEq] at hk
    obtain ⟨a1, a2, a3, a4⟩ := hk
    subst a3
    obtain ⟨c, o1, i1, k1, clk⟩ := ssprk_step_of_time three hp hd hnow ho hh hx
      (ab' := ab1) (s' := s1) (diag := d) (n := m) (by rw [← a1, ← a2, ← a4])
    have htime : Dict.get? new "time" = Dict.get? m "time" := by
      rw [hnew]
      refine (copyUntouchedO_spec _ _).2.1 "time" ?_
      unfold EState.clock at clk
      cases hm : Dict.get? m "time" with
      | none => rw [hm] at clk; cases clk
      | some v => exact Dict.mem_keys_of_get? hm
    have clk' : new.clock = .ok now := by
      unfold EState.clock at clk ⊢
      rw [htime]
      exact clk
    obtain ⟨v, hv, hval⟩ := c q a hq ha
    obtain ⟨o, ho', hres⟩ := ih ab1 s1 (b d1 new) (now + dt) abf sf xf o1 i1 (hbt _ _ _ clk')
      (hbd d1 new (by rw [hnew]; exact nodup_copyUntouchedO _ _ k1)) h q v hq
      (by rw [hb _ _ q hq, hnew, (copyUntouchedO_spec _ _).2.1 q (Dict.mem_keys_of_get? hv), hv])
    refine ⟨o, ho', fun ix hix => ?_⟩
    rw [hres ix hix, hval ix hix, List.range_succ_eq_map, List.map_cons, List.sum_cons, List.map_map]
    rw [show ((fun i : Nat => f (now + i * dt) q ix) ∘ Nat.succ) = fun i : Nat => f (now + dt + i * dt) q ix from
      funext fun i => by
        show f (now + (i + 1 : ℕ) * dt) q ix = _
        congr 1
        push_cast
        ring]
    simp only [Nat.cast_zero, zero_mul, add_zero]
    ring

/-- C129: with tendencies that depend on the time alone, SSPRungeKutta with two or three stages is the rectangle rule:
every step adds the timestep times the tendency at its beginning. -/
theorem ssprk_rectangle_rule (three : Bool) (R : Registry) {f : Int → String → (String → Nat) → Rat}
    (hp : GivenByTime I Q (dataArrayArith R) p dt f) (hd : GivesDicts p) (inProps outProps : PropDict)
    (inst : String) (tid : Bool) {b : Dict DataArray → EState DataArray → EState DataArray}
    (hb : ∀ d x q, Q q → Dict.get? (b d x) q = Dict.get? x q) (hbd : BetweenDicts b)
    (hbt : ∀ d x c, EState.clock x = .ok c → EState.clock (b d x) = .ok (c + dt)) (n : Nat)
    (s : σ) {x : EState DataArray} {now : Int} (hnow : x.clock = .ok now) (hx : (Dict.keys x).Nodup)
    {abf : ABOver DataArray} {sf : σ} {xf : EState DataArray}
    (h : runOver (tsCallO (dataArrayArith R) inProps outProps inst tid (sspCallO (dataArrayArith R) p three)) b dt n
      { order := 1 } s x = (abf, sf, .ok xf)) :
    ∀ q a, Q q → Dict.get? x q = some (.da a) → ∃ o, Dict.get? xf q = some (.da o) ∧ ∀ ix, I ix →
      o.at' ix = a.at' ix + seconds dt * ((List.range n).map fun i : Nat => f (now + i * dt) q ix).sum := by
  rw [← roundedArith_id R] at hp h
  exact ssprk_runs_of_time three hp hd inProps outProps inst tid hb hbd hbt n { order := 1 } s x now abf sf xf rfl rfl hnow hx h

/-! ## A tendency of 2 t: no better than first order -/

/-- warms T by `2 t` per second at the time `t` -/
def Demo.warming : ProgOver Unit DataArray := fun s x _ =>
  (s, x.clock >>= fun c => .ok ([("T", ⟨[], ⟨[], fun _ => 2 * seconds c⟩, []⟩)], []))

theorem Demo.warming_dicts : GivesDicts Demo.warming := by
  intro s x dt r hr
  obtain ⟨c, _, hr⟩ := Exc.bind_ok_iff.1 hr
  cases hr
  simp [Dict.keys]

theorem Demo.warming_gives {R : Registry} {dt : Int} {s : Unit} {x : EState DataArray} {now : Int} (hnow : x.clock = .ok now)
    {r : Dict DataArray × Dict DataArray} {t : Dict DataArray} (hr : (Demo.warming s x dt).2 = .ok r)
    (ht : convertTendenciesO (dataArrayArith R) x r.1 = .ok t) :
    t = [("T", ⟨[], ⟨[], fun _ => 2 * seconds now⟩, []⟩)] := by
  obtain ⟨c, hc, hr⟩ := Exc.bind_ok_iff.1 hr
  rw [hnow] at hc
  cases hc
  cases hr
  cases ht
  rfl

theorem Demo.warming_by_time (R : Registry) (dt : Int) :
    GivenByTime (fun _ => True) (· = "T") (dataArrayArith R) Demo.warming dt (fun c _ _ => 2 * seconds c) := by
  intro s x r t now hnow hr ht q hq ix _
  rw [Demo.warming_gives hnow hr ht, hq]
  rfl

/-- the solution `t^2` -/
noncomputable def Demo.squares : Trajectory := fun j _ _ t => if j = 0 then t ^ 2 else if j = 1 then 2 * t else if j = 2 then 2 else 0

theorem Demo.squares_smooth :
    SmoothDuring (fun _ => True) (fun _ => 1) (· = "T") Demo.squares (Set.Icc 0 1) 1 (fun _ => 2) where
  deriv := by
    intro j hj q _ ix _ t _
    unfold Demo.squares
    rcases (by omega : j = 0 ∨ j = 1) with rfl | rfl
    · have := hasDerivAt_pow 2 t
      simpa using this
    · have := (hasDerivAt_id t).const_mul (2 : ℝ)
      simpa using this
  bound := by
    rintro j hj q _ ix _ t ⟨h0, h1⟩
    unfold Demo.squares
    rcases (by omega : j = 0 ∨ j = 1 ∨ j = 2) with rfl | rfl | rfl
    · rw [if_pos rfl, abs_of_nonneg (by positivity)]
      push_cast
      nlinarith
    · rw [if_neg (by decide), if_pos rfl, abs_of_nonneg (by positivity)]
      push_cast
      linarith
    · norm_num

theorem Demo.warming_follows (R : Registry) (dt : Int) :
    FollowsInTime (fun _ => True) (fun _ => 1) (· = "T") Demo.squares (Set.Icc 0 1) 0 (dataArrayArith R) Demo.warming dt := by
  intro s x r t E now hnow _ _ _ hr ht q hq
  subst hq
  rw [Demo.warming_gives hnow hr ht]
  refine ⟨by simp [Dict.keys], fun ix _ => ?_⟩
  have : tval [("T", (⟨[], ⟨[], fun _ => 2 * seconds now⟩, []⟩ : DataArray))] "T" ix = 2 * seconds now := rfl
  rw [this]
  unfold Demo.squares
  push_cast
  simp

/-- the same with the time at the end -/
def Demo.atScalar (c : Rat) (now : Int) : EState DataArray :=
  [("T", .da ⟨[], ⟨[], fun _ => c⟩, [("units", "K")]⟩), ("time", .time now)]

/-- stages do not raise -/
theorem Demo.warming_stage (R : Registry) (v : Rat) (t dt : Int) {ts : Option Int} (hts : ts = none ∨ ts = some dt)
    {x : EState DataArray} (hx : x = Demo.scalarAt v t ∨ x = Demo.atScalar v t) :
    ∃ v', eulerCallO (dataArrayArith R) Demo.warming { order := 1, timestep := ts } () x dt =
      ({ order := 1, timestep := some dt }, (), .ok ([], Demo.atScalar v' t)) := by
  unfold eulerCallO ABOver.call
  rw [if_pos hts]
  rcases hx with rfl | rfl
  · exact ⟨v + seconds dt * (2 * seconds t), rfl⟩
  · exact ⟨v + seconds dt * (2 * seconds t), rfl⟩

theorem Demo.warming_step (R : Registry) (three : Bool) (v : Rat) (t dt : Int) {ts : Option Int}
    (hts : ts = none ∨ ts = some dt) {x : EState DataArray} (hx : x = Demo.scalarAt v t ∨ x = Demo.atScalar v t) :
    ∃ v', ∃ st new, (new = Demo.scalarAt v' t ∨ new = Demo.atScalar v' t) ∧
      tsCallO (dataArrayArith R) [] [] "" false (sspCallO (dataArrayArith R) Demo.warming three)
        { order := 1, timestep := ts } () x dt = ({ order := 1, timestep := some dt }, (), st, .ok ([], new)) := by
  obtain ⟨v1, h1⟩ := Demo.warming_stage R v t dt hts hx
  obtain ⟨v2, h2⟩ := Demo.warming_stage R v1 t dt (Or.inr rfl) (Or.inr rfl)
  cases three with
  | false =>
    have h : ssprkCallO (dataArrayArith R) Demo.warming false { order := 1, timestep := ts } () x dt =
        ({ order := 1, timestep := some dt }, (), .ok ([], Demo.scalarAt (1 / 2 * (v + v2)) t)) := by
      unfold ssprkCallO
      rw [if_neg (by decide)]
      unfold ssprk2O
      rw [h1]
      dsimp only
      rw [h2]
      rcases hx with rfl | rfl <;> rfl
    refine ⟨1 / 2 * (v + v2), x, Demo.scalarAt (1 / 2 * (v + v2)) t, Or.inl rfl, ?_⟩
    unfold tsCallO sspCallO
    rw [h]
    rcases hx with rfl | rfl <;> rfl
  | true =>
    have hm : ∃ z, (z = Demo.scalarAt (3 / 4 * v + 1 / 4 * v2) t) ∧ (scaleStateO (dataArrayArith R) (3 / 4) x >>= fun x =>
        scaleStateO (dataArrayArith R) (1 / 4) (Demo.atScalar v2 t) >>= fun y => addStatesO (dataArrayArith R) x y) = .ok z := by
      rcases hx with rfl | rfl <;> exact ⟨_, rfl, rfl⟩
    obtain ⟨z, hz, hm⟩ := hm
    obtain ⟨v3, h3⟩ := Demo.warming_stage R (3 / 4 * v + 1 / 4 * v2) t dt (Or.inr rfl) (Or.inl hz)
    have h : ssprkCallO (dataArrayArith R) Demo.warming true { order := 1, timestep := ts } () x dt =
        ({ order := 1, timestep := some dt }, (), .ok ([], Demo.scalarAt (1 / 3 * v + 2 / 3 * v3) t)) := by
      unfold ssprkCallO
      rw [if_pos rfl]
      unfold ssprk3O
      rw [h1]
      dsimp only
      rw [h2]
      dsimp only
      rw [hm]
      dsimp only
      rw [h3]
      rcases hx with rfl | rfl <;> rfl
    refine ⟨1 / 3 * v + 2 / 3 * v3, x, Demo.scalarAt (1 / 3 * v + 2 / 3 * v3) t, Or.inl rfl, ?_⟩
    unfold tsCallO sspCallO
    rw [h]
    rcases hx with rfl | rfl <;> rfl

/-- runs do not raise -/
theorem Demo.warming_runs (R : Registry) (three : Bool) (dt : Int) : ∀ (n : Nat) (v : Rat) (t : Int) (ts : Option Int)
    (x : EState DataArray), (ts = none ∨ ts = some dt) → (x = Demo.scalarAt v t ∨ x = Demo.atScalar v t) → ∃ abf xf,
      runOver (tsCallO (dataArrayArith R) [] [] "" false (sspCallO (dataArrayArith R) Demo.warming three)) (Demo.ticks dt) dt n
        { order := 1, timestep := ts } () x = (abf, (), .ok xf) := by
  intro n
  induction n with
  | zero =>
    intro v t ts x _ _
    exact ⟨_, x, rfl⟩
  | succ n ih =>
    intro v t ts x hts hx
    obtain ⟨v', st, new, hnew, h⟩ := Demo.warming_step R three v t dt hts hx
    unfold runOver
    rw [h]
    dsimp only
    refine ih v' (t + dt) (some dt) _ (Or.inr rfl) ?_
    rcases hnew with rfl | rfl
    · exact Or.inl rfl
    · exact Or.inr rfl

/-- C129: SSPRungeKutta is not of second order for tendencies that depend on the time.  With the tendency `2 t`, from
`0` at the time 0, every run of `n` steps succeeds and ends at `T^2 - T dt`, `T = n dt`, off the solution `T^2` by
exactly `T dt`. -/
theorem ssprk_no_better_order (R : Registry) (three : Bool) (dt : Int) (n : Nat) : ∃ abf xf a,
    runOver (tsCallO (dataArrayArith R) [] [] "" false (sspCallO (dataArrayArith R) Demo.warming three)) (Demo.ticks dt) dt n
      { order := 1 } () (Demo.scalarAt 0 0) = (abf, (), .ok xf) ∧ Dict.get? xf "T" = some (.da a) ∧
      ∀ ix, a.at' ix = (n * seconds dt) ^ 2 - n * seconds dt * seconds dt := by
  obtain ⟨abf, xf, h⟩ := Demo.warming_runs R three dt n 0 0 none (Demo.scalarAt 0 0) (Or.inl rfl) (Or.inl rfl)
  obtain ⟨a, ha, hv⟩ := ssprk_rectangle_rule three R (Demo.warming_by_time R dt) Demo.warming_dicts [] [] "" false
    (fun d x q hq => Demo.ticks_get dt d x (by rw [hq]; decide)) (Demo.ticks_dicts dt)
    (fun d x c hc => by
      unfold Demo.ticks
      rw [hc]
      unfold EState.clock
      rw [Dict.get?_set_self]) n () (now := 0) rfl (by decide) h "T" ⟨[], ⟨[], fun _ => 0⟩, [("units", "K")]⟩ rfl rfl
  refine ⟨abf, xf, a, h, ha, fun ix => ?_⟩
  rw [hv ix trivial]
  have hsum : ∀ n : Nat, ((List.range n).map fun i : Nat => 2 * seconds (0 + i * dt)).sum = (n * (n - 1) : Rat) * seconds dt := by
    intro n
    induction n with
    | zero => simp
    | succ n ih =>
      rw [List.range_succ, List.map_append, List.sum_append, ih]
      simp only [List.map_cons, List.map_nil, List.sum_cons, List.sum_nil]
      unfold seconds
      push_cast
      ring
  rw [hsum]
  show (0 : Rat) + _ = _
  ring

/-! ## Non-vacuity -/

/-- a run of up to a second with the tendency `2 t`: within `T dt` of `T^2`, the bound that is reached -/
example (R : Registry) (three : Bool) (dt : Int) (hdt : 0 ≤ dt) (n : Nat) (hn : (n : ℝ) * (seconds dt : ℝ) ≤ 1)
    {abf : ABOver DataArray} {xf : EState DataArray}
    (h : runOver (tsCallO (dataArrayArith R) [] [] "" false (sspCallO (dataArrayArith R) Demo.warming three)) (Demo.ticks dt)
      dt n { order := 1 } () (Demo.scalarAt 0 0) = (abf, (), .ok xf)) :
    ∃ a, Dict.get? xf "T" = some (.da a) ∧
      |(a.at' (fun _ => 0) : ℝ) - (n * (seconds dt : ℝ)) ^ 2| ≤ n * (seconds dt : ℝ) * (seconds dt : ℝ) := by
  have hs0 : (0 : ℝ) ≤ (seconds dt : ℝ) := seconds_nonneg hdt
  have hz : ((seconds 0 : Rat) : ℝ) = 0 := by
    rw [show seconds 0 = 0 by decide +kernel]
    norm_num
  obtain ⟨a, ha, hv⟩ := ssprk_run_first_order three R (fun _ => by norm_num) (convex_Icc 0 1) Demo.squares_smooth
    (fun _ => by norm_num) (le_refl 0) (Demo.warming_follows R dt) Demo.warming_dicts [] [] "" false
    (fun d x q hq => Demo.ticks_get dt d x (by rw [hq]; decide)) (Demo.ticks_dicts dt)
    (fun d x c hc => by
      unfold Demo.ticks
      rw [hc]
      unfold EState.clock
      rw [Dict.get?_set_self]) n () (now := 0) rfl
    (fun i hi => by
      rw [hz, zero_add]
      have : (i : ℝ) ≤ n := by exact_mod_cast hi
      exact ⟨by positivity, le_trans (mul_le_mul_of_nonneg_right this hs0) hn⟩) (by decide)
    (by
      rw [hz]
      intro q hq
      subst hq
      exact ⟨_, rfl, fun ix _ => by
        show |((0 : Rat) : ℝ) - Demo.squares 0 "T" ix 0| ≤ _
        unfold Demo.squares
        simp⟩) h "T" rfl
  refine ⟨a, ha, ?_⟩
  have := hv (fun _ => 0) trivial
  rw [hz, zero_add, abs_of_nonneg hs0] at this
  unfold Demo.squares at this
  rw [if_pos rfl] at this
  refine le_trans this (le_of_eq ?_)
  push_cast
  simp

end Verif
